import Verif.Lemmas.Svd3Spec
import Verif.Props.RayGeometry
import Verif.Props.Triangulation

/-!
# C82: ray intersection with nalgebra's own singular value decomposition

`Svd3.svd` is a model of the `SVD::try_new` that `best_intersection_of_rays` runs.  Nothing is assumed about it:
in exact arithmetic it converges within the 100 iterations granted, and it is accurate enough.
-/

namespace CamGeom
open Spec Matrix Svd3

variable {F : Type}

/-! ### The matrix of the normal equations -/

theorem absCos_smul {s t : ℝ} (hs : s ≠ 0) (ht : t ≠ 0) (d e : Vec) : absCos (s • d) (t • e) = absCos d e := by
  simp only [absCos, smul_dotProduct, dotProduct_smul, smul_eq_mul, abs_mul, len_smul]
  rw [show |s| * len d * (|t| * len e) = (|s| * |t|) * (len d * len e) by ring, ← mul_assoc,
    mul_comm |t|, mul_div_mul_left _ _ (mul_ne_zero (abs_ne_zero.2 hs) (abs_ne_zero.2 ht))]

theorem sMat_nil : sMat ([] : List (Ray F ℝ)) = 0 := by simp [sMat]

theorem cVec_nil : cVec ([] : List (Ray F ℝ)) = 0 := by simp [cVec]

theorem len_sMat_le {rays : List (Ray F ℝ)} (h0 : ∀ r ∈ rays, r.direction ≠ 0) (w : Vec) :
    len (sMat rays *ᵥ w) ≤ rays.length * len w := by
  induction rays with
  | nil =>
    simp only [sMat, List.map_nil, List.sum_nil, zero_mulVec, List.length_nil, Nat.cast_zero, zero_mul]
    exact (len_eq_zero.2 rfl).le
  | cons r l ih =>
    rw [sMat_cons, add_mulVec, List.length_cons, Nat.cast_succ, add_mul, one_mul, add_comm]
    refine (len_add_le _ _).trans ?_
    exact add_le_add (ih fun r hr => h0 r (List.mem_cons_of_mem _ hr))
      (len_dm_le r (h0 r (List.mem_cons_self ..)) w)

theorem sMat_trace {rays : List (Ray F ℝ)} (h0 : ∀ r ∈ rays, r.direction ≠ 0) :
    sMat rays 0 0 + sMat rays 1 1 + sMat rays 2 2 = -(2 * rays.length) := by
  induction rays with
  | nil => simp [sMat]
  | cons r l ih =>
    have h1 := ih fun r hr => h0 r (List.mem_cons_of_mem _ hr)
    have h2 := unit_dot (h0 r (List.mem_cons_self ..))
    simp only [dotProduct, Fin.sum_univ_three] at h2
    have hd : ∀ i, dm r i i = V3.normalize r.direction i * V3.normalize r.direction i - 1 := fun i => by
      simp [dm, vecMulVec]
    rw [sMat_cons, List.length_cons, Nat.cast_succ]
    simp only [Matrix.add_apply, hd]
    linarith

theorem twoBig_sMat {rays : List (Ray F ℝ)} (h0 : ∀ r ∈ rays, r.direction ≠ 0) (h : 2 ≤ rays.length) :
    TwoBig (sMat rays) rays.length := by
  have hN : (0 : ℝ) < rays.length := by exact_mod_cast (by omega : 0 < rays.length)
  have hle := len_sMat_le h0
  refine ⟨hN, fun w => ?_, fun u v w hf => ?_⟩
  · rw [← len_sq, ← len_sq, ← mul_pow]
    exact pow_le_pow_left₀ (len_nonneg _) (hle w) 2
  · have one : ∀ {z : Vec}, z ⬝ᵥ z = 1 → len z = 1 := fun hz => by rw [len_eq, hz, Real.sqrt_one]
    have q : ∀ z : Vec, z ⬝ᵥ z = 1 → bil (sMat rays) z z ^ 2 ≤ (sMat rays *ᵥ z) ⬝ᵥ (sMat rays *ᵥ z) := by
      intro z hz
      have := cauchy z (sMat rays *ᵥ z)
      rwa [hz, one_mul] at this
    have ht := hf.trace (sMat rays)
    rw [sMat_trace h0] at ht
    have hw : -(rays.length : ℝ) ≤ bil (sMat rays) w w := by
      have h1 := abs_dot_le w (sMat rays *ᵥ w)
      have h2 := hle w
      rw [one hf.ww] at h1 h2
      rw [one_mul] at h1
      have h3 := neg_abs_le (w ⬝ᵥ (sMat rays *ᵥ w))
      change _ ≤ w ⬝ᵥ (sMat rays *ᵥ w)
      linarith
    have qu := q u hf.uu
    have qv := q v hf.vv
    have hs : bil (sMat rays) u u + bil (sMat rays) v v ≤ -(rays.length : ℝ) := by linarith
    nlinarith [sq_nonneg (bil (sMat rays) u u - bil (sMat rays) v v)]

/-- The sum of the squared distances of `w` to the lines through the origin in the directions of the rays. -/
theorem cost_directions {rays : List (Ray F ℝ)} (h0 : ∀ r ∈ rays, r.direction ≠ 0) (w : Vec) :
    cost (rays.map fun r => (⟨0, r.direction⟩ : Ray F ℝ)) w = -(w ⬝ᵥ (sMat rays *ᵥ w)) := by
  induction rays with
  | nil => simp [cost, sMat]
  | cons r l ih =>
    rw [List.map_cons, cost_cons, ih fun r hr => h0 r (List.mem_cons_of_mem _ hr), sMat_cons, add_mulVec,
      dotProduct_add, distTo_line_sq (r := (⟨0, r.direction⟩ : Ray F ℝ)) (h0 r (List.mem_cons_self ..))]
    simp only [sub_zero]
    change -(w ⬝ᵥ (dm r *ᵥ w)) + _ = _
    ring

/-! ### The properties -/

/-- C82: two or more rays with nonzero directions always have an intersection point: nalgebra's SVD converges
within its 100 iterations, `Err(SvdFailed)` is impossible. -/
theorem c82_converges (rays : List (Ray F ℝ)) (h0 : ∀ r ∈ rays, r.direction ≠ 0) (h : 2 ≤ rays.length) :
    ∃ pt, bestIntersectionOfRays (Svd3.svd : TrySvd ℝ) rays = .ok pt := by
  obtain ⟨Q, T, W, p, -, hp, -⟩ := pinv_dec (twoBig_sMat h0 h)
  rw [best_eq _ _ h, hp]
  exact ⟨_, rfl⟩

/-- C82: `κ` measures how far the directions are from all being parallel: every `w` has at least `κ |w|²` as
sum of squared distances to the lines through the origin in these directions.  The point found is within a
relative error of `η / (κ - η)` of the least-squares point `x`, where `η = 1.1e-6` times the number of rays. -/
theorem c82_accuracy {rays : List (Ray F ℝ)} (h0 : ∀ r ∈ rays, r.direction ≠ 0) (hl : 2 ≤ rays.length) {κ : ℝ}
    (hκ : ∀ w, κ * len w ^ 2 ≤ cost (rays.map fun r => (⟨0, r.direction⟩ : Ray F ℝ)) w) {η : ℝ}
    (hη : η = 11 / 10000000 * rays.length) (hc : 1 / 10000000 < κ - η) {x : Vec} (hx : LeastSquares rays x) :
    ∃ pt, bestIntersectionOfRays (Svd3.svd : TrySvd ℝ) rays = .ok pt ∧
      distance (pt.data 0) x ≤ η / (κ - η) * len x := by
  have e : 11 * cutoff * rays.length = η := by rw [hη, cutoff]; ring
  obtain ⟨p, hp, hx'⟩ := pinv_accuracy (twoBig_sMat h0 hl) (κ := κ)
    (fun w => stretch_bound (by rw [← len_sq, ← cost_directions h0]; exact hκ w))
    (by rw [e, cutoff]; exact hc)
  rw [best_eq _ _ hl, hp]
  refine ⟨_, rfl, ?_⟩
  have := hx' x
  rw [e, (leastSquares_iff h0 x).1 hx] at this
  exact this

/-- C82: the same in terms of the angle between some two of the rays. -/
theorem c82_accuracy_angle {rays : List (Ray F ℝ)} (h0 : ∀ r ∈ rays, r.direction ≠ 0) {a b : Ray F ℝ}
    (ha : a ∈ rays) (hb : b ∈ rays) {η : ℝ} (hη : η = 11 / 10000000 * rays.length)
    (hc : 1 / 10000000 < 1 - absCos a.direction b.direction - η) {x : Vec} (hx : LeastSquares rays x) :
    ∃ pt, bestIntersectionOfRays (Svd3.svd : TrySvd ℝ) rays = .ok pt ∧
      distance (pt.data 0) x ≤ η / (1 - absCos a.direction b.direction - η) * len x := by
  have hη0 : 0 ≤ η := by rw [hη]; positivity
  have hcos : absCos a.direction b.direction < 1 := by
    have : (0 : ℝ) < 1 / 10000000 := by norm_num
    linarith
  have hab : a ≠ b := by
    rintro rfl
    have := absCos_eq (h0 a ha) (h0 a ha)
    rw [unit_dot (h0 a ha), abs_one] at this
    linarith
  have hl : 2 ≤ rays.length := by
    by_contra hlt
    rcases rays with _ | ⟨r, _ | ⟨s, l⟩⟩
    · simp at ha
    · simp only [List.mem_singleton] at ha hb
      exact hab (ha.trans hb.symm)
    · simp at hlt
  refine c82_accuracy h0 hl (fun w => ?_) hη hc hx
  rw [cost_directions h0, len_sq]
  exact quad_bound ha hb (h0 a ha) (h0 b hb) hcos w

/-- C82: rays through a common point. -/
theorem c82_common_point {rays : List (Ray F ℝ)} (h0 : ∀ r ∈ rays, r.direction ≠ 0) {a b : Ray F ℝ}
    (ha : a ∈ rays) (hb : b ∈ rays) {η : ℝ} (hη : η = 11 / 10000000 * rays.length)
    (hc : 1 / 10000000 < 1 - absCos a.direction b.direction - η) {x : Vec}
    (hx : ∀ r ∈ rays, x ∈ line r.center r.direction) :
    ∃ pt, bestIntersectionOfRays (Svd3.svd : TrySvd ℝ) rays = .ok pt ∧
      distance (pt.data 0) x ≤ η / (1 - absCos a.direction b.direction - η) * len x :=
  c82_accuracy_angle h0 ha hb hη hc fun y => by rw [cost_eq_zero hx]; exact cost_nonneg rays y

/-- C82: triangulation.  Points projected by several perspective cameras are recovered. -/
theorem c82_triangulation (rig : List (PerspectiveParams ℝ × ExtrinsicParameters ℝ)) (x : Vec)
    (hrig : ∀ c ∈ rig, c.1.fx ≠ 0 ∧ c.1.fy ≠ 0 ∧ ValidExtrinsics c.2 ∧
      (c.2.worldToCamera (.single x)).data 0 2 ≠ 0)
    {a b : PerspectiveParams ℝ × ExtrinsicParameters ℝ} (ha : a ∈ rig) (hb : b ∈ rig) {η : ℝ}
    (hη : η = 11 / 10000000 * rig.length)
    (hc : 1 / 10000000 < 1 - absCos (x - a.2.camcenter) (x - b.2.camcenter) - η) :
    ∃ pt, bestIntersectionOfRays (Svd3.svd : TrySvd ℝ) (rig.map fun c => perspViewRay c.1 c.2 x) = .ok pt ∧
      distance (pt.data 0) x ≤
        η / (1 - absCos (x - a.2.camcenter) (x - b.2.camcenter) - η) * len x := by
  have hall : ∀ c ∈ rig, (perspViewRay c.1 c.2 x).center = c.2.camcenter ∧
      (perspViewRay c.1 c.2 x).direction ≠ 0 ∧ x - c.2.camcenter =
        (c.2.worldToCamera (.single x)).data 0 2 • (perspViewRay c.1 c.2 x).direction := fun c hc =>
    perspViewRay_spec (hrig c hc).1 (hrig c hc).2.1 (hrig c hc).2.2.1 (hrig c hc).2.2.2
  have hcos : absCos (x - a.2.camcenter) (x - b.2.camcenter) =
      absCos (perspViewRay a.1 a.2 x).direction (perspViewRay b.1 b.2 x).direction := by
    obtain ⟨-, -, e1⟩ := hall a ha
    obtain ⟨-, -, e2⟩ := hall b hb
    rw [e1, e2, absCos_smul (hrig a ha).2.2.2 (hrig b hb).2.2.2]
  rw [hcos] at hc ⊢
  generalize hv : perspViewRay a.1 a.2 x = ra at *
  generalize hw : perspViewRay b.1 b.2 x = rb at *
  refine c82_common_point (a := ra) (b := rb) (fun r hr => ?_) (List.mem_map.2 ⟨a, ha, hv⟩)
    (List.mem_map.2 ⟨b, hb, hw⟩) (by rw [List.length_map]; exact hη) hc (fun r hr => ?_)
  · obtain ⟨c, hc, rfl⟩ := List.mem_map.1 hr
    exact (hall c hc).2.1
  · obtain ⟨c, hc, rfl⟩ := List.mem_map.1 hr
    obtain ⟨h1, -, h3⟩ := hall c hc
    refine ⟨(c.2.worldToCamera (.single x)).data 0 2, ?_⟩
    rw [h1, ← h3, add_sub_cancel]

/-- Parallel rays: their matrix annihilates the common direction, and the least-squares point closest to the origin
has no component along it. -/
theorem parallel_axis {rays : List (Ray F ℝ)} (h0 : ∀ r ∈ rays, r.direction ≠ 0) (hl : 2 ≤ rays.length) {d : Vec}
    (hpar : ∀ r ∈ rays, ∃ k : ℝ, r.direction = k • d) : ∃ u : Vec, len u = 1 ∧ sMat rays *ᵥ u = 0 ∧
    ∀ x, LeastSquares rays x → (∀ y, LeastSquares rays y → len x ≤ len y) → u ⬝ᵥ x = 0 := by
  have hd : d ≠ 0 := by
    rintro rfl
    obtain ⟨r, hr⟩ := List.exists_mem_of_length_pos (by omega : 0 < rays.length)
    obtain ⟨k, hk⟩ := hpar r hr
    exact h0 r hr (by rw [hk, smul_zero])
  set u := V3.normalize d with hu
  have hu1 : len u = 1 := len_normalize hd
  have hSu : sMat rays *ᵥ u = 0 := by
    have : ∀ l : List (Ray F ℝ), (∀ r ∈ l, r ∈ rays) → sMat l *ᵥ u = 0 := by
      intro l hl
      induction l with
      | nil => simp [sMat]
      | cons r l ih =>
        have hr := hl r (List.mem_cons_self ..)
        rw [sMat_cons, add_mulVec, ih fun r hr => hl r (List.mem_cons_of_mem _ hr), add_zero, dm_mulVec]
        obtain ⟨k, hk⟩ := hpar r hr
        have hk0 : k ≠ 0 := by rintro rfl; exact h0 r hr (by rw [hk, zero_smul])
        have hn : V3.normalize r.direction = (k / |k|) • u := by
          rw [hu, normalize_eq, normalize_eq, hk, len_smul, smul_smul, smul_smul]
          congr 1
          have := abs_pos.2 hk0
          have := len_pos.2 hd
          field_simp
        have hs : (k / |k|) * (k / |k|) = 1 := by
          rw [div_mul_div_comm, abs_mul_abs_self, div_self (mul_ne_zero hk0 hk0)]
        rw [hn, smul_dotProduct, smul_smul, ← len_sq, hu1, smul_eq_mul, one_pow, mul_one, hs, one_smul, sub_self]
    exact this rays fun r hr => hr
  refine ⟨u, hu1, hSu, fun x hx hmin => ?_⟩
  have h1 := hmin (x - (u ⬝ᵥ x) • u) ((leastSquares_iff h0 _).2 (by
    rw [mulVec_sub, mulVec_smul, hSu, smul_zero, sub_zero]; exact (leastSquares_iff h0 x).1 hx))
  have h2 := pow_le_pow_left₀ (len_nonneg _) h1 2
  rw [len_sq, len_sq] at h2
  have huu : u ⬝ᵥ u = 1 := by rw [← len_sq, hu1, one_pow]
  simp only [sub_dotProduct, dotProduct_sub, smul_dotProduct, dotProduct_smul, smul_eq_mul, huu,
    dotProduct_comm x u] at h2
  have : (u ⬝ᵥ x) ^ 2 ≤ 0 := by nlinarith
  exact pow_eq_zero_iff (two_ne_zero) |>.1 (le_antisymm this (sq_nonneg _))

/-- C82: when the directions are all parallel, the point found is, up to a relative error of 1e-5, the
least-squares point closest to the origin. -/
theorem c82_parallel {rays : List (Ray F ℝ)} (h0 : ∀ r ∈ rays, r.direction ≠ 0) (hl : 2 ≤ rays.length) {d : Vec}
    (hpar : ∀ r ∈ rays, ∃ k : ℝ, r.direction = k • d) {x : Vec} (hx : LeastSquares rays x)
    (hmin : ∀ y, LeastSquares rays y → len x ≤ len y) :
    ∃ pt, bestIntersectionOfRays (Svd3.svd : TrySvd ℝ) rays = .ok pt ∧ distance (pt.data 0) x ≤ 1 / 100000 * len x := by
  obtain ⟨u, hu1, hSu, hmin'⟩ := parallel_axis h0 hl hpar
  have hux := hmin' x hx hmin
  obtain ⟨p, hp, hx'⟩ := pinv_dropped (twoBig_sMat h0 hl) (by exact_mod_cast hl) hu1
    (by rw [hSu, len_eq_zero.2 rfl]; norm_num)
  rw [best_eq _ _ hl, hp]
  refine ⟨_, rfl, ?_⟩
  have := hx' x
  rw [hux, zero_smul, sub_zero, (leastSquares_iff h0 x).1 hx] at this
  exact this

/-- Two rays: the bisector of the directions is an eigenvector of their matrix. -/
theorem bisector {r₁ r₂ : Ray F ℝ} (h₁ : r₁.direction ≠ 0) (h₂ : r₂.direction ≠ 0)
    (hc : 0 ≤ V3.normalize r₁.direction ⬝ᵥ V3.normalize r₂.direction) :
    let c := V3.normalize r₁.direction ⬝ᵥ V3.normalize r₂.direction
    let b : Vec := V3.normalize r₁.direction + V3.normalize r₂.direction
    len (V3.normalize b) = 1 ∧ len (sMat [r₁, r₂] *ᵥ V3.normalize b) = 1 - c ∧
      ∀ x : Vec, (V3.normalize b ⬝ᵥ x) • V3.normalize b = ((b ⬝ᵥ x) / (b ⬝ᵥ b)) • b := by
  intro c b
  set d := V3.normalize r₁.direction with hd
  set e := V3.normalize r₂.direction with he
  have dd : d ⬝ᵥ d = 1 := by rw [← len_sq, hd, len_normalize h₁, one_pow]
  have ee : e ⬝ᵥ e = 1 := by rw [← len_sq, he, len_normalize h₂, one_pow]
  have hb : b = d + e := rfl
  have hcd : c = d ⬝ᵥ e := rfl
  clear_value b c
  rw [← hcd] at hc
  have hcle : c ≤ 1 := by
    have := cauchy d e
    rw [dd, ee, ← hcd] at this
    nlinarith
  have hbb : b ⬝ᵥ b = 2 * (1 + c) := by
    simp only [hb, add_dotProduct, dotProduct_add, dd, ee, dotProduct_comm e d, ← hcd]; ring
  have hbpos : 0 < b ⬝ᵥ b := by rw [hbb]; linarith
  have hb0 : b ≠ 0 := by rintro h; rw [h] at hbpos; simp at hbpos
  have hlb := len_pos.2 hb0
  have hSb : sMat [r₁, r₂] *ᵥ b = -((1 - c) • b) := by
    rw [sMat_cons, sMat_cons, add_mulVec, add_mulVec, dm_mulVec, dm_mulVec, ← hd, ← he]
    simp only [hb, dotProduct_add, dd, ee, dotProduct_comm e d, sMat_nil, zero_mulVec, ← hcd]
    funext i
    simp only [Pi.add_apply, Pi.sub_apply, Pi.smul_apply, Pi.neg_apply, Pi.zero_apply, smul_eq_mul]
    ring
  have hβ : len (V3.normalize b) = 1 := len_normalize hb0
  refine ⟨hβ, ?_, fun x => ?_⟩
  · rw [normalize_eq, mulVec_smul, hSb, smul_neg, len_neg, smul_comm, ← normalize_eq, len_smul, hβ, mul_one,
      abs_of_nonneg (by linarith)]
  · rw [normalize_eq, smul_dotProduct, smul_smul, smul_eq_mul]
    congr 1
    rw [← len_sq]; field_simp

/-- C82: two rays that cross in `x` under a very small angle: the depth of `x` along the bisector of the rays
is lost. -/
theorem c82_narrow {r₁ r₂ : Ray F ℝ} (h₁ : r₁.direction ⬝ᵥ r₁.direction = 1)
    (h₂ : r₂.direction ⬝ᵥ r₂.direction = 1) (hc : 1 - 99 / 1000000000 ≤ r₁.direction ⬝ᵥ r₂.direction) {x : Vec}
    (hx₁ : x ∈ line r₁.center r₁.direction) (hx₂ : x ∈ line r₂.center r₂.direction) :
    let b := r₁.direction + r₂.direction
    ∃ pt, bestIntersectionOfRays (Svd3.svd : TrySvd ℝ) [r₁, r₂] = .ok pt ∧
      distance (pt.data 0) (x - ((b ⬝ᵥ x) / (b ⬝ᵥ b)) • b) ≤ 1 / 100000 * len x := by
  intro b
  have hne : ∀ {v : V3 ℝ}, v ⬝ᵥ v = 1 → v ≠ 0 := by
    rintro v h rfl; simp at h
  have hn : ∀ {v : V3 ℝ}, v ⬝ᵥ v = 1 → V3.normalize v = v := fun {v} h => by
    have : len v = 1 := by rw [len_eq, h, Real.sqrt_one]
    rw [normalize_eq, this, inv_one, one_smul]
  have h0 : ∀ r ∈ [r₁, r₂], r.direction ≠ 0 := by
    intro r hr
    simp only [List.mem_cons, List.not_mem_nil, or_false] at hr
    rcases hr with rfl | rfl
    · exact hne h₁
    · exact hne h₂
  obtain ⟨hβ, hSb, hproj⟩ := bisector (hne h₁) (hne h₂) (by rw [hn h₁, hn h₂]; linarith)
  rw [hn h₁, hn h₂] at hβ hSb hproj
  obtain ⟨p, hp, hx'⟩ := pinv_dropped (twoBig_sMat h0 (by simp)) (by simp) hβ (by rw [hSb]; linarith)
  rw [best_eq _ _ (by simp), hp]
  refine ⟨_, rfl, ?_⟩
  have hls : LeastSquares [r₁, r₂] x := fun y => by
    rw [cost_eq_zero (rays := [r₁, r₂])]
    · exact cost_nonneg _ y
    · intro r hr
      simp only [List.mem_cons, List.not_mem_nil, or_false] at hr
      rcases hr with rfl | rfl
      · exact hx₁
      · exact hx₂
  have := hx' x
  rw [(leastSquares_iff h0 x).1 hls, hproj] at this
  exact this

/-- C82: at any distance `L` there are two rays that cross in exactly one point, at distance `L` from the
origin, for which the function returns a point next to the origin. -/
theorem c82_counterexample (L : ℝ) (hL : 0 < L) :
    ∃ r₁ r₂ : Ray F ℝ, r₁.direction ≠ 0 ∧ r₂.direction ≠ 0 ∧
      line r₁.center r₁.direction ∩ line r₂.center r₂.direction = {![L, 0, 0]} ∧
      ∃ pt, bestIntersectionOfRays (Svd3.svd : TrySvd ℝ) [r₁, r₂] = .ok pt ∧ len (pt.data 0) ≤ 1 / 100000 * L := by
  let d : Vec := ![99999999 / 100000001, 20000 / 100000001, 0]
  let e : Vec := ![99999999 / 100000001, -20000 / 100000001, 0]
  let x : Vec := ![L, 0, 0]
  have hd : d ⬝ᵥ d = 1 := by simp [d, dotProduct, Fin.sum_univ_three]; norm_num
  have he : e ⬝ᵥ e = 1 := by simp [e, dotProduct, Fin.sum_univ_three]; norm_num
  have hde : 1 - 99 / 1000000000 ≤ d ⬝ᵥ e := by
    simp [d, e, dotProduct, Fin.sum_univ_three]; norm_num
  refine ⟨⟨x - L • d, d⟩, ⟨x - L • e, e⟩, ?_, ?_, ?_, ?_⟩
  · intro h; rw [show d = 0 from h] at hd; simp at hd
  · intro h; rw [show e = 0 from h] at he; simp at he
  · ext y
    constructor
    · rintro ⟨⟨t, ht⟩, ⟨s, hs⟩⟩
      have h0 := congrFun (ht.symm.trans hs) 0
      have h1 := congrFun (ht.symm.trans hs) 1
      simp [d, e, x] at h0 h1
      have hst : t = L := by linarith
      rw [Set.mem_singleton_iff, ht, hst]
      simp [x]
    · rintro rfl
      exact ⟨⟨L, by simp [x]⟩, ⟨L, by simp [x]⟩⟩
  · obtain ⟨pt, h1, h2⟩ := c82_narrow (F := F) (r₁ := ⟨x - L • d, d⟩) (r₂ := ⟨x - L • e, e⟩) hd he hde (x := x)
      ⟨L, by simp⟩ ⟨L, by simp⟩
    refine ⟨pt, h1, ?_⟩
    have h0 : x - (((d + e) ⬝ᵥ x) / ((d + e) ⬝ᵥ (d + e))) • (d + e) = 0 := by
      funext i
      fin_cases i <;> simp [d, e, x, dotProduct, Fin.sum_univ_three] <;> (field_simp; norm_num)
    have hx : len x = L := by
      simp [len, x, Fin.sum_univ_three, Real.sqrt_sq hL.le]
    simp only at h2
    rw [h0, hx, distance, sub_zero] at h2
    exact h2

/-! ### Non-vacuity -/

/-- Perpendicular skew rays: the point found is within 3e-6 of the middle of their common perpendicular. -/
example : ∃ pt, bestIntersectionOfRays (Svd3.svd : TrySvd ℝ)
      ([⟨![0, 0, 0], ![2, 0, 0]⟩, ⟨![0, 0, 1], ![0, 3, 0]⟩] : List (Ray WorldFrame ℝ)) = .ok pt ∧
    distance (pt.data 0) ![0, 0, 1 / 2] ≤ 3 / 1000000 := by
  have h0 : ∀ r ∈ ([⟨![0, 0, 0], ![2, 0, 0]⟩, ⟨![0, 0, 1], ![0, 3, 0]⟩] : List (Ray WorldFrame ℝ)),
      r.direction ≠ 0 := by
    intro r hr
    simp only [List.mem_cons, List.not_mem_nil, or_false] at hr
    rcases hr with rfl | rfl
    · intro h; have := congrFun h 0; simp at this
    · intro h; have := congrFun h 1; simp at this
  have e1 : V3.normalize ![(2 : ℝ), 0, 0] = ![1, 0, 0] := by
    have : len ![(2 : ℝ), 0, 0] = 2 := by
      simp [len, Fin.sum_univ_three]
    rw [normalize_eq, this]; simp
  have e2 : V3.normalize ![(0 : ℝ), 3, 0] = ![0, 1, 0] := by
    have : len ![(0 : ℝ), 3, 0] = 3 := by
      simp [len, Fin.sum_univ_three]
    rw [normalize_eq, this]; simp
  have hcos : absCos ![(2 : ℝ), 0, 0] ![0, 3, 0] = 0 := by
    simp [absCos, dotProduct, Fin.sum_univ_three]
  obtain ⟨pt, h1, h2⟩ := c82_accuracy_angle h0 (List.mem_cons_self ..)
    (List.mem_cons_of_mem _ (List.mem_cons_self ..)) rfl (by simp only [hcos]; norm_num)
    (x := ![0, 0, 1 / 2]) ((leastSquares_iff h0 _).2 (by
      simp only [sMat_cons, cVec_cons, add_mulVec, dm_mulVec, e1, e2, sMat_nil, cVec_nil, zero_mulVec]
      funext i
      fin_cases i <;> simp [dotProduct, Fin.sum_univ_three]
      norm_num))
  refine ⟨pt, h1, h2.trans ?_⟩
  have hx : len ![(0 : ℝ), 0, 1 / 2] = 1 / 2 := by
    simp [len, Fin.sum_univ_three]
  simp only [hcos, hx]
  norm_num

/-- Parallel rays. -/
example : ∃ pt, bestIntersectionOfRays (Svd3.svd : TrySvd ℝ)
      ([⟨![0, 1, 5], ![0, 0, 1]⟩, ⟨![0, 3, -7], ![0, 0, -2]⟩] : List (Ray WorldFrame ℝ)) = .ok pt ∧
    distance (pt.data 0) ![0, 2, 0] ≤ 2 / 100000 := by
  have h0 : ∀ r ∈ ([⟨![0, 1, 5], ![0, 0, 1]⟩, ⟨![0, 3, -7], ![0, 0, -2]⟩] : List (Ray WorldFrame ℝ)),
      r.direction ≠ 0 := by
    intro r hr
    simp only [List.mem_cons, List.not_mem_nil, or_false] at hr
    rcases hr with rfl | rfl
    · intro h; have := congrFun h 2; simp at this
    · intro h; have := congrFun h 2; simp at this
  have e1 : V3.normalize ![(0 : ℝ), 0, 1] = ![0, 0, 1] := by
    have : len ![(0 : ℝ), 0, 1] = 1 := by simp [len, Fin.sum_univ_three]
    rw [normalize_eq, this]; simp
  have e2 : V3.normalize ![(0 : ℝ), 0, -2] = ![0, 0, -1] := by
    have : len ![(0 : ℝ), 0, -2] = 2 := by simp [len, Fin.sum_univ_three]
    rw [normalize_eq, this]; simp
  have hls : ∀ x : Vec, LeastSquares ([⟨![0, 1, 5], ![0, 0, 1]⟩, ⟨![0, 3, -7], ![0, 0, -2]⟩] :
      List (Ray WorldFrame ℝ)) x ↔ x 0 = 0 ∧ x 1 = 2 := by
    intro x
    rw [leastSquares_iff h0]
    simp only [sMat_cons, cVec_cons, add_mulVec, dm_mulVec, e1, e2, sMat_nil, cVec_nil, zero_mulVec]
    constructor
    · intro h
      have a := congrFun h 0
      have b := congrFun h 1
      simp [dotProduct, Fin.sum_univ_three, vecHead, vecTail] at a b
      exact ⟨by linarith, by linarith⟩
    · rintro ⟨a, b⟩
      funext i
      fin_cases i <;> simp [dotProduct, Fin.sum_univ_three, vecHead, vecTail, a, b]
      norm_num
  have hx : len ![(0 : ℝ), 2, 0] = 2 := by simp [len, Fin.sum_univ_three]
  obtain ⟨pt, h1, h2⟩ := c82_parallel h0 (by simp) (d := ![0, 0, 1]) (fun r hr => by
    simp only [List.mem_cons, List.not_mem_nil, or_false] at hr
    rcases hr with rfl | rfl
    · exact ⟨1, by simp⟩
    · exact ⟨-2, by simp⟩) (x := ![0, 2, 0]) ((hls _).2 ⟨rfl, rfl⟩) (fun y hy => by
      obtain ⟨a, b⟩ := (hls y).1 hy
      refine le_of_sq_le_sq ?_ (len_nonneg y)
      rw [hx, len_sq]
      simp only [dotProduct, Fin.sum_univ_three, a, b]
      nlinarith [sq_nonneg (y 2)])
  refine ⟨pt, h1, h2.trans ?_⟩
  rw [hx]; norm_num

end CamGeom
