import Verif.Props.FloatRays

/-!
# C84: rays that pass near a point

Measured rays do not meet in a point.  If all of them pass within `τ` of `x`, then the point found by
`best_intersection_of_rays` is within `ρ = τ √(N / (1 - |cos θ|))` of `x`, plus the errors of C82 (real numbers)
and C83 (`f64` and `f32`).
-/

namespace CamGeom
open Spec Matrix Rounding

section
variable {F : Type}

theorem distTo_le {s : Set Vec} {x y : Vec} (h : y ∈ s) : distTo s x ≤ distance x y :=
  csInf_le ⟨0, by rintro _ ⟨z, -, rfl⟩; exact len_nonneg _⟩ ⟨y, h, rfl⟩

theorem cost_le {rays : List (Ray F ℝ)} {x : Vec} {τ : ℝ}
    (h : ∀ r ∈ rays, distTo (line r.center r.direction) x ≤ τ) : cost rays x ≤ rays.length * τ ^ 2 := by
  induction rays with
  | nil => simp [cost]
  | cons r l ih =>
    rw [cost_cons, List.length_cons]
    have h1 := ih fun r hr => h r (List.mem_cons_of_mem _ hr)
    have h2 := pow_le_pow_left₀ (distTo_nonneg _ _) (h r (List.mem_cons_self ..)) 2
    push_cast
    linarith

theorem len_sub_comm (v w : Vec) : len (v - w) = len (w - v) := by rw [← len_neg, neg_sub]

theorem distance_triangle (a b c : Vec) : distance a c ≤ distance a b + distance b c := by
  have := len_add_le (a - b) (b - c)
  rwa [sub_add_sub_cancel] at this

theorem len_le_distance (x y : Vec) : len x ≤ distance x y + len y := by
  have := len_add_le (x - y) y
  rwa [sub_add_cancel] at this

/-- C84: the least-squares point of rays that pass within `τ` of `x`. -/
theorem c84_least_squares {rays : List (Ray F ℝ)} (h0 : ∀ r ∈ rays, r.direction ≠ 0) {a b : Ray F ℝ}
    (ha : a ∈ rays) (hb : b ∈ rays) (hc : absCos a.direction b.direction < 1) {x y : Vec} {τ : ℝ}
    (hτ : ∀ r ∈ rays, distTo (line r.center r.direction) x ≤ τ) (hy : LeastSquares rays y) :
    distance y x ≤ τ * √(rays.length / (1 - absCos a.direction b.direction)) := by
  set κ := 1 - absCos a.direction b.direction with hκ
  have hκ0 : 0 < κ := by linarith
  have hτ0 : 0 ≤ τ := (distTo_nonneg _ _).trans (hτ a ha)
  have h1 := cost_add h0 y (x - y)
  rw [(leastSquares_iff h0 y).1 hy, sub_self, dotProduct_zero, add_sub_cancel] at h1
  have h2 := quad_bound ha hb (h0 a ha) (h0 b hb) hc (x - y)
  rw [← hκ, ← len_sq, len_sub_comm] at h2
  have h3 := cost_le hτ
  have h4 := cost_nonneg rays y
  have h5 : len (y - x) ^ 2 ≤ τ ^ 2 * (rays.length / κ) := by
    rw [← mul_div_assoc, le_div_iff₀ hκ0]
    linarith
  refine abs_le_of_sq_le_sq' ?_ (by positivity) |>.2
  rw [mul_pow, Real.sq_sqrt (by positivity)]
  exact h5

/-- C84: the point found, with real numbers. -/
theorem c84_near_point {rays : List (Ray F ℝ)} (h0 : ∀ r ∈ rays, r.direction ≠ 0) {a b : Ray F ℝ}
    (ha : a ∈ rays) (hb : b ∈ rays) {η : ℝ} (hη : η = 11 / 10000000 * rays.length)
    (hc : 1 / 10000000 < 1 - absCos a.direction b.direction - η) {x : Vec} {τ ρ : ℝ}
    (hτ : ∀ r ∈ rays, distTo (line r.center r.direction) x ≤ τ)
    (hρ : ρ = τ * √(rays.length / (1 - absCos a.direction b.direction))) :
    ∃ pt, bestIntersectionOfRays (Svd3.svd : TrySvd ℝ) rays = .ok pt ∧
      distance (pt.data 0) x ≤ ρ + η / (1 - absCos a.direction b.direction - η) * (len x + ρ) := by
  have hη0 : 0 ≤ η := by rw [hη]; positivity
  have hp : (0 : ℝ) < 1 / 10000000 := by norm_num
  obtain ⟨y, hy⟩ := leastSquares_exists h0
  obtain ⟨pt, h1, h2⟩ := c82_accuracy_angle h0 ha hb hη hc hy
  have h3 := c84_least_squares h0 ha hb (by linarith) hτ hy
  rw [← hρ] at h3
  have h4 := distance_triangle (pt.data 0) y x
  have h5 := mul_le_mul_of_nonneg_left ((len_le_distance y x).trans (by linarith : _ ≤ len x + ρ))
    (div_nonneg hη0 (hp.trans hc).le)
  exact ⟨pt, h1, by linarith⟩

end

section
variable {Coords : Type} {lib' : Libm Format.b64}

theorem vray_ne {R : Type} [Scalar R] {fl : Rounding R} {k : ℕ} {rays : List (Ray Coords R)}
    (h : ∀ r ∈ rays, SafeRay fl k r) : ∀ r ∈ rays.map (vray fl), r.direction ≠ 0 := by
  intro r hr
  obtain ⟨r', hr', rfl⟩ := List.mem_map.1 hr
  obtain ⟨a, ha⟩ := (h r' hr').ne
  exact fun h0 => ha (congrFun h0 a)

/-- C84 for `f64`: the point found is finite and within `ρ + 1.6e-6 N / (1 - |cos θ| - 1.4e-6 N) * (M + |x| + ρ)`
of `x`. -/
theorem c84_f64_near_point {lib : Libm Format.b64} {rays : List (Ray Coords (F64 lib))} (h2 : 2 ≤ rays.length)
    (hr : ∀ r ∈ rays, SafeRay (RustFloat.rounding .b64 lib) 500 r) {M : ℝ} (hM0 : 1 / 2 ^ 1022 ≤ M)
    (hM : ∀ r ∈ rays, ∀ i, |(RustFloat.rounding .b64 lib).val (r.center i)| ≤ M)
    {a b : Ray Coords (F64 lib)} (ha : a ∈ rays) (hb : b ∈ rays) {c κ : ℝ}
    (hc : c = absCos (vray (RustFloat.rounding .b64 lib) a).direction
      (vray (RustFloat.rounding .b64 lib) b).direction)
    (hκ : κ = 1 - c - 14 / 10000000 * rays.length) (hκ0 : 101 / 1000000000 < κ) {x : Vec} {τ ρ : ℝ}
    (hτ : ∀ r ∈ rays, distTo (line (vray (RustFloat.rounding .b64 lib) r).center
      (vray (RustFloat.rounding .b64 lib) r).direction) x ≤ τ)
    (hρ : ρ = τ * √(rays.length / (1 - c))) :
    ∃ pt, bestIntersectionOfRays (Svd3.svd : TrySvd (F64 lib')) rays = .ok pt ∧
      (∀ j, (RustFloat.rounding .b64 lib).isFinite (pt.data 0 j)) ∧
      distance (fun j => (RustFloat.rounding .b64 lib).val (pt.data 0 j)) x ≤
        ρ + 16 / 10000000 * rays.length / κ * (M + (len x + ρ)) := by
  have hN0 : (0 : ℝ) ≤ rays.length := Nat.cast_nonneg _
  obtain ⟨y, hy⟩ := leastSquares_exists (vray_ne hr)
  obtain ⟨pt, h1, h3, h4⟩ := c83_f64_accuracy (lib' := lib') h2 hr hM0 hM ha hb (by rw [hκ, hc]) hκ0 hy
  have h5 := c84_least_squares (vray_ne hr) (List.mem_map_of_mem ha) (List.mem_map_of_mem hb)
    (by rw [← hc]; linarith) (τ := τ) (fun r hr => by
      obtain ⟨r', hr', rfl⟩ := List.mem_map.1 hr
      exact hτ r' hr') hy
  rw [← hc, List.length_map, ← hρ] at h5
  have h6 := distance_triangle (fun j => (RustFloat.rounding .b64 lib).val (pt.data 0 j)) y x
  have h7 := mul_le_mul_of_nonneg_left (add_le_add_right ((len_le_distance y x).trans (by linarith : _ ≤ len x + ρ)) M)
    (div_nonneg (mul_nonneg (by norm_num : (0 : ℝ) ≤ 16 / 10000000) hN0) (by linarith : 0 ≤ κ))
  exact ⟨pt, h1, h3, by linarith⟩

/-- C84 for `f32`. -/
theorem c84_f32_near_point {lib : Libm Format.b32} {rays : List (Ray Coords (F32 lib))} (h2 : 2 ≤ rays.length)
    (hr : ∀ r ∈ rays, SafeRay (RustFloat.rounding .b32 lib) 60 r) {M : ℝ} (hM0 : 1 / 2 ^ 126 ≤ M)
    (hM : ∀ r ∈ rays, ∀ i, |(RustFloat.rounding .b32 lib).val (r.center i)| ≤ M)
    {a b : Ray Coords (F32 lib)} (ha : a ∈ rays) (hb : b ∈ rays) {c κ : ℝ}
    (hc : c = absCos (vray (RustFloat.rounding .b32 lib) a).direction
      (vray (RustFloat.rounding .b32 lib) b).direction)
    (hκ : κ = 1 - c - 71 / 10000000 * rays.length) (hκ0 : 101 / 1000000000 < κ) {x : Vec} {τ ρ : ℝ}
    (hτ : ∀ r ∈ rays, distTo (line (vray (RustFloat.rounding .b32 lib) r).center
      (vray (RustFloat.rounding .b32 lib) r).direction) x ≤ τ)
    (hρ : ρ = τ * √(rays.length / (1 - c))) :
    ∃ pt, bestIntersectionOfRays (Svd3.svd : TrySvd (F64 lib')) rays = .ok pt ∧
      (∀ j, (RustFloat.rounding .b32 lib).isFinite (pt.data 0 j)) ∧
      distance (fun j => (RustFloat.rounding .b32 lib).val (pt.data 0 j)) x ≤
        ρ + 64 / 1000000 * rays.length / κ * (M + (len x + ρ)) := by
  have hN0 : (0 : ℝ) ≤ rays.length := Nat.cast_nonneg _
  obtain ⟨y, hy⟩ := leastSquares_exists (vray_ne hr)
  obtain ⟨pt, h1, h3, h4⟩ := c83_f32_accuracy (lib' := lib') h2 hr hM0 hM ha hb (by rw [hκ, hc]) hκ0 hy
  have h5 := c84_least_squares (vray_ne hr) (List.mem_map_of_mem ha) (List.mem_map_of_mem hb)
    (by rw [← hc]; linarith) (τ := τ) (fun r hr => by
      obtain ⟨r', hr', rfl⟩ := List.mem_map.1 hr
      exact hτ r' hr') hy
  rw [← hc, List.length_map, ← hρ] at h5
  have h6 := distance_triangle (fun j => (RustFloat.rounding .b32 lib).val (pt.data 0 j)) y x
  have h7 := mul_le_mul_of_nonneg_left (add_le_add_right ((len_le_distance y x).trans (by linarith : _ ≤ len x + ρ)) M)
    (div_nonneg (mul_nonneg (by norm_num : (0 : ℝ) ≤ 64 / 1000000) hN0) (by linarith : 0 ≤ κ))
  exact ⟨pt, h1, h3, by linarith⟩

end

/-! ### Non-vacuity -/

theorem near_witness : ∀ r ∈ [(⟨![0, 0, 0], ![3, 4, 12]⟩ : Ray WorldFrame ℝ), ⟨![3, 4, 0], ![0, 0, 1]⟩],
    distTo (line r.center r.direction) ![3, 3, 12] ≤ 1 := by
  have h1 : distance ![(3 : ℝ), 3, 12] ![3, 4, 12] = 1 := by
    have e : (![3, 3, 12] - ![3, 4, 12] : Vec) = ![0, -1, 0] := by
      funext i; fin_cases i <;> norm_num
    rw [distance, e]
    exact len_ey
  intro r hr
  refine (distTo_le (y := ![3, 4, 12]) ?_).trans h1.le
  simp only [List.mem_cons, List.not_mem_nil, or_false] at hr
  rcases hr with rfl | rfl
  · refine ⟨1, ?_⟩
    funext i; fin_cases i <;> simp
  · refine ⟨12, ?_⟩
    funext i; fin_cases i <;> simp

/-- Non-vacuity of C84: rays that pass `(3, 3, 12)` at distance 1. -/
example : ∃ pt, bestIntersectionOfRays (Svd3.svd : TrySvd ℝ)
      [(⟨![0, 0, 0], ![3, 4, 12]⟩ : Ray WorldFrame ℝ), ⟨![3, 4, 0], ![0, 0, 1]⟩] = .ok pt ∧
    distance (pt.data 0) ![3, 3, 12] ≤ 51 / 10 + 1 / 100 := by
  obtain ⟨pt, h1, h2⟩ := c84_near_point (rays := [(⟨![0, 0, 0], ![3, 4, 12]⟩ : Ray WorldFrame ℝ), ⟨![3, 4, 0], ![0, 0, 1]⟩])
    (by
      simp only [List.mem_cons, List.not_mem_nil, or_false, forall_eq_or_imp, forall_eq]
      exact ⟨fun h => by simpa using congrFun h 0, fun h => by simpa using congrFun h 2⟩)
    (List.mem_cons_self ..) (by simp : (⟨![3, 4, 0], ![0, 0, 1]⟩ : Ray WorldFrame ℝ) ∈ _) rfl
    (by simp only [absCos_witness]; norm_num) near_witness rfl
  refine ⟨pt, h1, h2.trans ?_⟩
  simp only [absCos_witness, List.length_cons, List.length_nil]
  have hs : √(((0 + 1 + 1 : ℕ) : ℝ) / (1 - 12 / 13)) ≤ 51 / 10 := by
    rw [Real.sqrt_le_left (by norm_num)]
    norm_num
  have hl : len ![(3 : ℝ), 3, 12] ≤ 13 := by
    rw [len_eq, Real.sqrt_le_left (by norm_num), vec3_dotProduct']
    norm_num
  have hs0 := Real.sqrt_nonneg (((0 + 1 + 1 : ℕ) : ℝ) / (1 - 12 / 13))
  generalize √(((0 + 1 + 1 : ℕ) : ℝ) / (1 - 12 / 13)) = s at hs hs0 ⊢
  norm_num
  linarith

/-- Non-vacuity of C84 for `f64`. -/
example (lib lib' : Libm Format.b64) : ∃ (rays : List (Ray WorldFrame (F64 lib))) (pt : _),
    bestIntersectionOfRays (Svd3.svd : TrySvd (F64 lib')) rays = .ok pt ∧
    distance (fun j => (RustFloat.rounding .b64 lib).val (pt.data 0 j)) ![3, 3, 12] ≤ 51 / 10 + 1 / 100 := by
  have hω : Format.b64.ω ≤ 1 / 3 := by
    rw [Format.ω_b64']
    refine one_div_le_one_div_of_le (by norm_num) ?_
    exact le_trans (by norm_num) (pow_le_pow_right₀ (by norm_num) (show 2 ≤ 1022 by norm_num) : (2 : ℝ) ^ 2 ≤ _)
  obtain ⟨a, b, ha, hb, sa, sb⟩ := rays_witness .b64 (by decide) hω lib (k := 500) (by norm_num)
  obtain ⟨pt, h1, -, h3⟩ := c84_f64_near_point (lib' := lib') (rays := [a, b]) (M := 4) le_rfl
    (by simp only [List.mem_cons, List.not_mem_nil, or_false, forall_eq_or_imp, forall_eq]; exact ⟨sa, sb⟩)
    (by
      refine le_trans (one_div_le_one_div_of_le (by norm_num) (one_le_pow₀ (by norm_num) : (1 : ℝ) ≤ _)) (by norm_num))
    (by
      have ea := fun i => congrFun (congrArg Ray.center ha) i
      have eb := fun i => congrFun (congrArg Ray.center hb) i
      simp only [vray, vvec] at ea eb
      simp only [List.mem_cons, List.not_mem_nil, or_false, forall_eq_or_imp, forall_eq]
      refine ⟨fun i => ?_, fun i => ?_⟩
      · rw [ea]; fin_cases i <;> simp
      · rw [eb]; fin_cases i <;> norm_num)
    (List.mem_cons_self ..) (by simp : b ∈ [a, b]) (by rw [ha, hb, absCos_witness]) rfl
    (by norm_num) (x := ![3, 3, 12]) (τ := 1)
    (by
      have h := near_witness
      simp only [List.mem_cons, List.not_mem_nil, or_false, forall_eq_or_imp, forall_eq] at h ⊢
      rw [ha, hb]
      exact h) rfl
  refine ⟨_, pt, h1, h3.trans ?_⟩
  simp only [List.length_cons, List.length_nil]
  have hs : √(((0 + 1 + 1 : ℕ) : ℝ) / (1 - 12 / 13)) ≤ 51 / 10 := by
    rw [Real.sqrt_le_left (by norm_num)]
    norm_num
  have hl : len ![(3 : ℝ), 3, 12] ≤ 13 := by
    rw [len_eq, Real.sqrt_le_left (by norm_num), vec3_dotProduct']
    norm_num
  have hs0 := Real.sqrt_nonneg (((0 + 1 + 1 : ℕ) : ℝ) / (1 - 12 / 13))
  generalize √(((0 + 1 + 1 : ℕ) : ℝ) / (1 - 12 / 13)) = s at hs hs0 ⊢
  norm_num
  linarith

end CamGeom
