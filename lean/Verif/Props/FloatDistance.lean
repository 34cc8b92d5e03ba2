import Verif.Lemmas.RaysRange
import Verif.Props.FloatOrthographic

/-!
# C91: `point_on_ray_at_distance` in floating point
-/

namespace CamGeom
open Spec Matrix Rounding ExtrinsicParameters

section
variable {R : Type} [Scalar R] {fl : Rounding R} {k l : ℕ}

/-- A direction with coordinates of magnitude at most `2^k`, at least one of them `2^-l` or more. -/
structure SafeDirection (fl : Rounding R) (k l : ℕ) (d : V3 R) : Prop where
  range : ∀ a, InRange fl k (d a)
  big : ∃ a, 1 / 2 ^ l ≤ |fl.val (d a)|

variable {d : V3 R}

theorem SafeDirection.len (h : SafeDirection fl k l d) : 1 / 2 ^ l ≤ len (vvec fl d) := by
  obtain ⟨a, ha⟩ := h.big
  exact ha.trans (abs_coord_le (vvec fl d) a)

theorem SafeDirection.safeRay (h : SafeDirection fl k l d) (hω : 3 * fl.ω ≤ (1 / 2 ^ l) ^ 2) :
    SafeRay (Coords := Unit) fl k ⟨fun _ => 0, d⟩ where
  center _ := InRange.zero fl
  direction := h.range
  ne := by
    obtain ⟨a, ha⟩ := h.big
    refine ⟨a, fun h0 => ?_⟩
    rw [h0, abs_zero] at ha
    have : (0 : ℝ) < 1 / 2 ^ l := by positivity
    linarith
  big := hω.trans (pow_le_pow_left₀ (by positivity) h.len 2)

/-- The scaled direction `distance / |d| * d`. -/
theorem scaled_near (m : RoundingMore fl) (g : RoundingRange fl) (hu : fl.u ≤ 1 / 1000) (hω : fl.ω ≤ 1)
    (hω' : 3 * fl.ω ≤ (1 / 2 ^ l) ^ 2) (hk : 2 * k + 2 ≤ g.top) (hkl : k + l + 1 ≤ g.top)
    (h : SafeDirection fl k l d) {t : R} (ht : InRange fl k t) (a : Fin 3) :
    InRange fl (k + 1) (t / V3.norm d * d a) ∧
      |fl.val (t / V3.norm d * d a) - fl.val t / len (vvec fl d) * fl.val (d a)| ≤
        12 * fl.u * |fl.val t| + 2 * fl.u * fl.ω * (1 + len (vvec fl d)) := by
  have hu0 := fl.u_nonneg
  have hω0 := fl.ω_nonneg
  have hs := h.safeRay hω'
  have hg := hs.good g le_rfl (by linarith) hk
  have h3 := norm_near m le_rfl (by linarith) d hg.big hg.ne hg.norm
  have hN : fl.isFinite (V3.norm d) := hg.norm
  have hL := h.len
  have hLmax : len (vvec fl d) ≤ 2 * 2 ^ k := len_le_entries fun a => (h.range a).2
  have hD : |fl.val (d a)| ≤ len (vvec fl d) := abs_coord_le (vvec fl d) a
  set L := len (vvec fl d) with hLd
  set N := fl.val (V3.norm d) with hNd
  set T := fl.val t with hT
  set D := fl.val (d a) with hDd
  have hLp : 0 < L := lt_of_lt_of_le (by positivity) hL
  have hNL : 99 / 100 * L ≤ N := by
    have := (abs_le.1 h3).1
    nlinarith
  have hNp : 0 < N := by linarith
  have hNl : 1 / 2 ^ (l + 1) ≤ |N| := by
    rw [abs_of_pos hNp, pow_succ, ← div_div]
    have : (0 : ℝ) < 1 / 2 ^ l := by positivity
    linarith
  have hsR := ht.div g hN hNl (l := l + 1) (by omega)
  have hs1 := ((fl.div hsR.1).2 hN).2
  rw [← hT, ← hNd] at hs1
  have hTL : 0 ≤ |T| / L := by positivity
  have e1 : |T / N - T / L| ≤ 81 / 10 * fl.u * (|T| / L) := by
    have e : T / N - T / L = T * (L - N) / (N * L) := by field_simp
    rw [e, abs_div, abs_mul, abs_of_pos (mul_pos hNp hLp), div_le_iff₀ (mul_pos hNp hLp)]
    rw [abs_sub_comm] at h3
    calc |T| * |L - N| ≤ |T| * (8 * fl.u * L) := by gcongr
      _ ≤ 81 / 10 * fl.u * (|T| * (99 / 100 * L)) := by nlinarith [mul_nonneg hu0 (mul_nonneg (abs_nonneg T) hLp.le)]
      _ ≤ 81 / 10 * fl.u * (|T| * N) := by gcongr
      _ = _ := by field_simp
  have e2 : |T / N| ≤ 102 / 100 * (|T| / L) := by
    have := abs_add_le (T / N - T / L) (T / L)
    rw [sub_add_cancel, abs_div T L, abs_of_pos hLp] at this
    have : 81 / 10 * fl.u * (|T| / L) ≤ 81 / 10 * (1 / 1000) * (|T| / L) := by gcongr
    linarith
  have e3 : |fl.val (t / V3.norm d) - T / L| ≤ 92 / 10 * fl.u * (|T| / L) + fl.u * fl.ω := by
    have h1 := abs_add_le (fl.val (t / V3.norm d) - T / N) (T / N - T / L)
    rw [sub_add_sub_cancel] at h1
    have h2 : fl.u * (|T / N| + fl.ω) ≤ fl.u * (102 / 100 * (|T| / L) + fl.ω) := by gcongr
    have h3 : 0 ≤ fl.u * (|T| / L) := by positivity
    linarith
  have huω : fl.u * fl.ω ≤ 1 / 1000 := by nlinarith
  have hTD : |T| / L * |D| ≤ |T| := by
    rw [div_mul_eq_mul_div, div_le_iff₀ hLp]
    exact mul_le_mul_of_nonneg_left hD (abs_nonneg _)
  have hS : |fl.val (t / V3.norm d)| ≤ 101 / 100 * (|T| / L) + fl.u * fl.ω := by
    have := abs_add_le (fl.val (t / V3.norm d) - T / L) (T / L)
    rw [sub_add_cancel, abs_div T L, abs_of_pos hLp] at this
    have : 92 / 10 * fl.u * (|T| / L) ≤ 92 / 10 * (1 / 1000) * (|T| / L) := by gcongr
    linarith
  have hSD : |fl.val (t / V3.norm d) * D| ≤ 101 / 100 * |T| + fl.u * fl.ω * L := by
    rw [abs_mul]
    calc _ ≤ (101 / 100 * (|T| / L) + fl.u * fl.ω) * |D| := by gcongr
      _ = 101 / 100 * (|T| / L * |D|) + fl.u * fl.ω * |D| := by ring
      _ ≤ _ := by gcongr
  have hprod : InRange fl (k + 1) (t / V3.norm d * d a) := by
    refine g.mul hsR.1 (h.range a).1 (by omega) (hSD.trans ?_)
    have hT2 : |T| ≤ 2 ^ k := ht.2
    have : fl.u * fl.ω * L ≤ 1 / 1000 * (2 * 2 ^ k) := by gcongr
    rw [pow_succ]
    linarith
  refine ⟨hprod, ?_⟩
  have h4 := (fl.mul hprod.1).2.2
  have h5 : |fl.val (t / V3.norm d) * D - T / L * D| ≤ 92 / 10 * fl.u * |T| + fl.u * fl.ω * L := by
    rw [← sub_mul, abs_mul]
    calc _ ≤ (92 / 10 * fl.u * (|T| / L) + fl.u * fl.ω) * |D| := by gcongr
      _ = 92 / 10 * fl.u * (|T| / L * |D|) + fl.u * fl.ω * |D| := by ring
      _ ≤ _ := by gcongr
  have h6 := abs_add_le (fl.val (t / V3.norm d * d a) - fl.val (t / V3.norm d) * D)
    (fl.val (t / V3.norm d) * D - T / L * D)
  rw [sub_add_sub_cancel] at h6
  have h7 : fl.u * (|fl.val (t / V3.norm d) * D| + fl.ω) ≤
      fl.u * (101 / 100 * |T| + fl.u * fl.ω * L + fl.ω) := by gcongr
  have h8 : fl.u * (fl.u * fl.ω * L) ≤ 1 / 1000 * (fl.u * fl.ω * L) := by gcongr
  have h9 : 0 ≤ fl.u * |T| := by positivity
  have h10 : 0 ≤ fl.u * fl.ω * L := by positivity
  have h11 : 0 ≤ fl.u * fl.ω := by positivity
  linarith

/-- Adding the starting point. -/
theorem start_near (g : RoundingRange fl) (hu : fl.u ≤ 1 / 1000) (hk : k + 2 ≤ g.top) {c s : R}
    {T L S : ℝ} (hL : 0 ≤ L) (hc : InRange fl k c) (hs : InRange fl (k + 1) s) (hS : |S| ≤ |T|)
    (he : |fl.val s - S| ≤ 12 * fl.u * |T| + 2 * fl.u * fl.ω * (1 + L)) :
    (fl.isFinite (c + s) ∧
      |fl.val (c + s) - (fl.val c + S)| ≤ 14 * fl.u * (|fl.val c| + |T| + fl.ω * (1 + L))) ∧
    fl.isFinite (s + c) ∧
      |fl.val (s + c) - (fl.val c + S)| ≤ 14 * fl.u * (|fl.val c| + |T| + fl.ω * (1 + L)) := by
  have hu0 := fl.u_nonneg
  have hω0 := fl.ω_nonneg
  have f1 := ((hc.mono (Nat.le_succ k)).add g hs hk).1
  have f2 := (hs.add g (hc.mono (Nat.le_succ k)) hk).1
  have hcS : |fl.val c + S| ≤ |fl.val c| + |T| := (abs_add_le _ _).trans (by linarith)
  have n1 := add_near f1 (X := fl.val c) (a := 0) (by simp) he hcS
  have n2 := add_near f2 (Y := fl.val c) (b := 0) he (by simp) (add_comm (fl.val c) S ▸ hcS)
  rw [add_comm S] at n2
  have x1 : 0 ≤ fl.u * |T| := by positivity
  have x2 : 0 ≤ fl.u * (fl.ω * (1 + L)) := by positivity
  have x3 : 0 ≤ fl.u * |fl.val c| := by positivity
  have key : 12 * fl.u * |T| + 2 * fl.u * fl.ω * (1 + L) + fl.u * (|fl.val c| + |T| +
      (12 * fl.u * |T| + 2 * fl.u * fl.ω * (1 + L))) ≤ 14 * fl.u * (|fl.val c| + |T| + fl.ω * (1 + L)) := by
    have y1 : fl.u * (fl.u * |T|) ≤ 1 / 1000 * (fl.u * |T|) := by gcongr
    have y2 : fl.u * (fl.u * (fl.ω * (1 + L))) ≤ 1 / 1000 * (fl.u * (fl.ω * (1 + L))) := by gcongr
    linarith
  refine ⟨⟨f1, n1.trans (le_trans (le_of_eq (by ring)) key)⟩, f2, n2.trans (le_trans (le_of_eq (by ring)) key)⟩

/-- The exact point at distance `t` along a ray. -/
noncomputable def pointAt (c d : Vec) (t : ℝ) : Vec := c + (t / len d) • d

/-- The exact point is on the line of the ray, `|t|` from its origin, and ahead of it if `t` is positive. -/
theorem pointAt_spec (c : Vec) {d : Vec} (hd : d ≠ 0) (t : ℝ) :
    pointAt c d t ∈ line c d ∧ distance (pointAt c d t) c = |t| ∧ (0 < t → pointAt c d t ∈ halfLine c d) := by
  have hl := len_pos.2 hd
  refine ⟨⟨_, rfl⟩, ?_, fun ht => ⟨_, div_pos ht hl, rfl⟩⟩
  rw [distance, pointAt, add_sub_cancel_left, len_smul, abs_div, abs_of_pos hl, div_mul_cancel₀ _ hl.ne']

theorem scaled_le {t : ℝ} (d : Vec) (a : Fin 3) : |t / len d * d a| ≤ |t| := by
  rcases eq_or_ne d 0 with rfl | h
  · simp
  · have hl := len_pos.2 h
    rw [abs_mul, abs_div, abs_of_pos hl, div_mul_eq_mul_div, div_le_iff₀ hl]
    exact mul_le_mul_of_nonneg_left (abs_coord_le d a) (abs_nonneg t)

variable {Coords : Type} {n : ℕ}

theorem so_rows (b : RayBundle Coords (SharedOriginRayBundle R) R n) (i : Fin n) :
    b.centers i = b.bundleType.center ∧ b.directions i = b.data i := by
  simp only [RayBundle.centers, RayBundle.directions, Bundle.centers, Bundle.directions, so_centers,
    so_directions, and_self]

theorem sd_rows (b : RayBundle Coords (SharedDirectionRayBundle R) R n) (i : Fin n) :
    b.centers i = b.data i ∧ b.directions i = b.bundleType.direction := by
  simp only [RayBundle.centers, RayBundle.directions, Bundle.centers, Bundle.directions, sd_centers,
    sd_directions, and_self]

/-- C91 for bundles sharing an origin: the point at distance `t` on ray `i` is finite and, coordinate by coordinate,
within `14 u (|c| + |t| + ω (1 + |d|))` of the exact one. -/
theorem c91_shared_origin (m : RoundingMore fl) (g : RoundingRange fl) (hu : fl.u ≤ 1 / 1000) (hω : fl.ω ≤ 1)
    (hω' : 3 * fl.ω ≤ (1 / 2 ^ l) ^ 2) (hk : 2 * k + 2 ≤ g.top) (hkl : k + l + 1 ≤ g.top)
    (b : RayBundle Coords (SharedOriginRayBundle R) R n) (i : Fin n) (hd : SafeDirection fl k l (b.directions i))
    (hc : ∀ a, InRange fl k (b.centers i a)) {t : R} (ht : InRange fl k t) (a : Fin 3) :
    fl.isFinite ((b.pointOnRayAtDistance t).data i a) ∧
      |fl.val ((b.pointOnRayAtDistance t).data i a) -
        pointAt (vvec fl (b.centers i)) (vvec fl (b.directions i)) (fl.val t) a| ≤
        14 * fl.u * (|fl.val (b.centers i a)| + |fl.val t| + fl.ω * (1 + len (vvec fl (b.directions i)))) := by
  rw [(so_rows b i).2] at hd ⊢
  rw [(so_rows b i).1] at hc ⊢
  obtain ⟨h1, h2⟩ := scaled_near m g hu hω hω' hk hkl hd ht a
  have e : (b.pointOnRayAtDistance t).data i a = b.bundleType.center a + t / V3.norm (b.data i) * b.data i a := by
    simp only [RayBundle.pointOnRayAtDistance, Bundle.pointOnRayAtDistance, so_pointOnRayAtDistance]
  rw [e]
  exact (start_near g hu (by omega) (len_nonneg _) (hc a) h1 (scaled_le _ _) h2).1

/-- C91 for bundles sharing a direction. -/
theorem c91_shared_direction (m : RoundingMore fl) (g : RoundingRange fl) (hu : fl.u ≤ 1 / 1000) (hω : fl.ω ≤ 1)
    (hω' : 3 * fl.ω ≤ (1 / 2 ^ l) ^ 2) (hk : 2 * k + 2 ≤ g.top) (hkl : k + l + 1 ≤ g.top)
    (b : RayBundle Coords (SharedDirectionRayBundle R) R n) (i : Fin n) (hd : SafeDirection fl k l (b.directions i))
    (hc : ∀ a, InRange fl k (b.centers i a)) {t : R} (ht : InRange fl k t) (a : Fin 3) :
    fl.isFinite ((b.pointOnRayAtDistance t).data i a) ∧
      |fl.val ((b.pointOnRayAtDistance t).data i a) -
        pointAt (vvec fl (b.centers i)) (vvec fl (b.directions i)) (fl.val t) a| ≤
        14 * fl.u * (|fl.val (b.centers i a)| + |fl.val t| + fl.ω * (1 + len (vvec fl (b.directions i)))) := by
  rw [(sd_rows b i).2] at hd ⊢
  rw [(sd_rows b i).1] at hc ⊢
  obtain ⟨h1, h2⟩ := scaled_near m g hu hω hω' hk hkl hd ht a
  have e : (b.pointOnRayAtDistance t).data i a =
      t / V3.norm b.bundleType.direction * b.bundleType.direction a + b.data i a := by
    simp only [RayBundle.pointOnRayAtDistance, Bundle.pointOnRayAtDistance, sd_pointOnRayAtDistance]
  rw [e]
  exact (start_near g hu (by omega) (len_nonneg _) (hc a) h1 (scaled_le _ _) h2).2

end

/-! ### `f64` and `f32` -/

section
variable {lib : Libm Format.b64} {lib32 : Libm Format.b32} {Coords : Type} {n : ℕ}

theorem small_f64 {L : ℝ} (h0 : 0 ≤ L) (hL : L ≤ 2 * 2 ^ 510) :
    14 * Format.b64.u * (Format.b64.ω * (1 + L)) ≤ 1 / 2 ^ 500 := by
  rw [Format.u_b64, Format.ω_b64']
  have h2 : (1 : ℝ) + L ≤ 2 ^ 512 := by
    have : (1 : ℝ) ≤ 2 ^ 510 := one_le_pow₀ (by norm_num)
    rw [show (512 : ℕ) = 510 + 2 by norm_num, pow_add]
    generalize (2 : ℝ) ^ 510 = y at *
    linarith
  have h3 : (14 : ℝ) * (1 / 2 ^ 53) ≤ 1 := by norm_num
  calc (14 : ℝ) * (1 / 2 ^ 53) * (1 / 2 ^ 1022 * (1 + L)) ≤ 1 * (1 / 2 ^ 1022 * 2 ^ 512) := by gcongr
    _ = 1 / 2 ^ 510 := by
      rw [show (1022 : ℕ) = 510 + 512 by norm_num, pow_add]
      field_simp
    _ ≤ _ := one_div_le_one_div_of_le (by positivity) (pow_le_pow_right₀ (by norm_num) (by norm_num))

theorem small_f32 {L : ℝ} (hL : L ≤ 2 * 2 ^ 62) : 14 * Format.b32.u * (Format.b32.ω * (1 + L)) ≤ 1 / 2 ^ 80 := by
  rw [Format.u_b32, Format.ω_b32]
  calc (14 : ℝ) * (1 / 2 ^ 24) * (1 / 2 ^ 126 * (1 + L)) ≤ 14 * (1 / 2 ^ 24) * (1 / 2 ^ 126 * (1 + 2 * 2 ^ 62)) := by gcongr
    _ ≤ _ := by norm_num

theorem total_f64 {A L : ℝ} (hA : 0 ≤ A) (h0 : 0 ≤ L) (hL : L ≤ 2 * 2 ^ 510) :
    14 * Format.b64.u * (A + Format.b64.ω * (1 + L)) ≤ 16 / 10 ^ 16 * A + 1 / 2 ^ 500 := by
  rw [mul_add]
  refine add_le_add (mul_le_mul_of_nonneg_right ?_ hA) (small_f64 h0 hL)
  rw [Format.u_b64]
  norm_num

theorem total_f32 {A L : ℝ} (hA : 0 ≤ A) (_h0 : 0 ≤ L) (hL : L ≤ 2 * 2 ^ 62) :
    14 * Format.b32.u * (A + Format.b32.ω * (1 + L)) ≤ 9 / 10 ^ 7 * A + 1 / 2 ^ 80 := by
  rw [mul_add]
  refine add_le_add (mul_le_mul_of_nonneg_right ?_ hA) (small_f32 hL)
  rw [Format.u_b32]
  norm_num

theorem tiny_f64 (lib : Libm Format.b64) : (RustFloat.rounding .b64 lib).u ≤ 1 / 1000 ∧ (RustFloat.rounding .b64 lib).ω ≤ 1 ∧
    3 * (RustFloat.rounding .b64 lib).ω ≤ (1 / 2 ^ 510) ^ 2 := by
  have e1 : (RustFloat.rounding .b64 lib).u = 1 / 2 ^ 53 := Format.u_b64
  have e2 : (RustFloat.rounding .b64 lib).ω = 1 / 2 ^ 1022 := Format.ω_b64'
  refine ⟨by rw [e1]; norm_num, (RustFloat.fine lib).ω1.trans (by norm_num), ?_⟩
  rw [e2, _root_.one_div_pow, ← pow_mul, show (1022 : ℕ) = 510 * 2 + 2 by norm_num, pow_add, ← div_div]
  have : (0 : ℝ) < 1 / 2 ^ (510 * 2) := by positivity
  generalize (1 : ℝ) / 2 ^ (510 * 2) = y at *
  linarith

theorem tiny_f32 (lib : Libm Format.b32) : (RustFloat.rounding .b32 lib).u ≤ 1 / 1000 ∧ (RustFloat.rounding .b32 lib).ω ≤ 1 ∧
    3 * (RustFloat.rounding .b32 lib).ω ≤ (1 / 2 ^ 62) ^ 2 := by
  have e1 : (RustFloat.rounding .b32 lib).u = 1 / 2 ^ 24 := Format.u_b32
  have e2 : (RustFloat.rounding .b32 lib).ω = 1 / 2 ^ 126 := Format.ω_b32
  rw [e1, e2]
  norm_num

/-- C91 in `f64`, rays sharing an origin: with coordinates and distance up to `2^510`, and a direction with a coordinate of
at least `2^-510`, the coordinates of the point are finite and within `1.6e-15 (|c| + |t|) + 2^-500` of the exact ones. -/
theorem c91_f64_shared_origin (b : RayBundle Coords (SharedOriginRayBundle (F64 lib)) (F64 lib) n) (i : Fin n)
    (hd : SafeDirection (RustFloat.rounding .b64 lib) 510 510 (b.directions i))
    (hc : ∀ a, Flt.Bounded (f := .b64) (2 ^ 510) (b.centers i a)) {t : F64 lib}
    (ht : Flt.Bounded (f := .b64) (2 ^ 510) t) (a : Fin 3) :
    Flt.isFinite (f := .b64) ((b.pointOnRayAtDistance t).data i a) ∧
      |Flt.val (f := .b64) ((b.pointOnRayAtDistance t).data i a) -
        pointAt (fun j => Flt.val (f := .b64) (b.centers i j)) (fun j => Flt.val (f := .b64) (b.directions i j))
          (Flt.val (f := .b64) t) a| ≤
        16 / 10 ^ 16 * (|Flt.val (f := .b64) (b.centers i a)| + |Flt.val (f := .b64) t|) + 1 / 2 ^ 500 := by
  obtain ⟨h1, h2⟩ := c91_shared_origin (RustFloat.roundingMore lib Format.cutoff_b64) (RustFloat.range .b64 lib)
    (tiny_f64 lib).1 (tiny_f64 lib).2.1 (tiny_f64 lib).2.2 (by show _ ≤ 1023; norm_num)
    (by show _ ≤ 1023; norm_num) b i hd (fun a => (hc a).inRange le_rfl)
    (ht.inRange le_rfl) a
  refine ⟨h1, h2.trans ?_⟩
  exact total_f64 (add_nonneg (abs_nonneg _) (abs_nonneg _)) (len_nonneg _) (len_le_entries fun a => (hd.range a).2)

/-- C91 in `f64`, rays sharing a direction: with coordinates and distance up to `2^510`, and a direction with a coordinate of
at least `2^-510`, the coordinates of the point are finite and within `1.6e-15 (|c| + |t|) + 2^-500` of the exact ones. -/
theorem c91_f64_shared_direction (b : RayBundle Coords (SharedDirectionRayBundle (F64 lib)) (F64 lib) n) (i : Fin n)
    (hd : SafeDirection (RustFloat.rounding .b64 lib) 510 510 (b.directions i))
    (hc : ∀ a, Flt.Bounded (f := .b64) (2 ^ 510) (b.centers i a)) {t : F64 lib}
    (ht : Flt.Bounded (f := .b64) (2 ^ 510) t) (a : Fin 3) :
    Flt.isFinite (f := .b64) ((b.pointOnRayAtDistance t).data i a) ∧
      |Flt.val (f := .b64) ((b.pointOnRayAtDistance t).data i a) -
        pointAt (fun j => Flt.val (f := .b64) (b.centers i j)) (fun j => Flt.val (f := .b64) (b.directions i j))
          (Flt.val (f := .b64) t) a| ≤
        16 / 10 ^ 16 * (|Flt.val (f := .b64) (b.centers i a)| + |Flt.val (f := .b64) t|) + 1 / 2 ^ 500 := by
  obtain ⟨h1, h2⟩ := c91_shared_direction (RustFloat.roundingMore lib Format.cutoff_b64) (RustFloat.range .b64 lib)
    (tiny_f64 lib).1 (tiny_f64 lib).2.1 (tiny_f64 lib).2.2 (by show _ ≤ 1023; norm_num)
    (by show _ ≤ 1023; norm_num) b i hd (fun a => (hc a).inRange le_rfl)
    (ht.inRange le_rfl) a
  refine ⟨h1, h2.trans ?_⟩
  exact total_f64 (add_nonneg (abs_nonneg _) (abs_nonneg _)) (len_nonneg _) (len_le_entries fun a => (hd.range a).2)

/-- C91 in `f32`, rays sharing an origin: with coordinates and distance up to `2^62`, and a direction with a coordinate of
at least `2^-62`, the coordinates of the point are finite and within `9e-7 (|c| + |t|) + 2^-80` of the exact ones. -/
theorem c91_f32_shared_origin (b : RayBundle Coords (SharedOriginRayBundle (F32 lib32)) (F32 lib32) n) (i : Fin n)
    (hd : SafeDirection (RustFloat.rounding .b32 lib32) 62 62 (b.directions i))
    (hc : ∀ a, Flt.Bounded (f := .b32) (2 ^ 62) (b.centers i a)) {t : F32 lib32}
    (ht : Flt.Bounded (f := .b32) (2 ^ 62) t) (a : Fin 3) :
    Flt.isFinite (f := .b32) ((b.pointOnRayAtDistance t).data i a) ∧
      |Flt.val (f := .b32) ((b.pointOnRayAtDistance t).data i a) -
        pointAt (fun j => Flt.val (f := .b32) (b.centers i j)) (fun j => Flt.val (f := .b32) (b.directions i j))
          (Flt.val (f := .b32) t) a| ≤
        9 / 10 ^ 7 * (|Flt.val (f := .b32) (b.centers i a)| + |Flt.val (f := .b32) t|) + 1 / 2 ^ 80 := by
  obtain ⟨h1, h2⟩ := c91_shared_origin (RustFloat.roundingMore lib32 Format.cutoff_b32) (RustFloat.range .b32 lib32)
    (tiny_f32 lib32).1 (tiny_f32 lib32).2.1 (tiny_f32 lib32).2.2 (by show _ ≤ 127; norm_num)
    (by show _ ≤ 127; norm_num) b i hd (fun a => (hc a).inRange le_rfl)
    (ht.inRange le_rfl) a
  refine ⟨h1, h2.trans ?_⟩
  exact total_f32 (add_nonneg (abs_nonneg _) (abs_nonneg _)) (len_nonneg _) (len_le_entries fun a => (hd.range a).2)

/-- C91 in `f32`, rays sharing a direction: with coordinates and distance up to `2^62`, and a direction with a coordinate of
at least `2^-62`, the coordinates of the point are finite and within `9e-7 (|c| + |t|) + 2^-80` of the exact ones. -/
theorem c91_f32_shared_direction (b : RayBundle Coords (SharedDirectionRayBundle (F32 lib32)) (F32 lib32) n) (i : Fin n)
    (hd : SafeDirection (RustFloat.rounding .b32 lib32) 62 62 (b.directions i))
    (hc : ∀ a, Flt.Bounded (f := .b32) (2 ^ 62) (b.centers i a)) {t : F32 lib32}
    (ht : Flt.Bounded (f := .b32) (2 ^ 62) t) (a : Fin 3) :
    Flt.isFinite (f := .b32) ((b.pointOnRayAtDistance t).data i a) ∧
      |Flt.val (f := .b32) ((b.pointOnRayAtDistance t).data i a) -
        pointAt (fun j => Flt.val (f := .b32) (b.centers i j)) (fun j => Flt.val (f := .b32) (b.directions i j))
          (Flt.val (f := .b32) t) a| ≤
        9 / 10 ^ 7 * (|Flt.val (f := .b32) (b.centers i a)| + |Flt.val (f := .b32) t|) + 1 / 2 ^ 80 := by
  obtain ⟨h1, h2⟩ := c91_shared_direction (RustFloat.roundingMore lib32 Format.cutoff_b32) (RustFloat.range .b32 lib32)
    (tiny_f32 lib32).1 (tiny_f32 lib32).2.1 (tiny_f32 lib32).2.2 (by show _ ≤ 127; norm_num)
    (by show _ ≤ 127; norm_num) b i hd (fun a => (hc a).inRange le_rfl)
    (ht.inRange le_rfl) a
  refine ⟨h1, h2.trans ?_⟩
  exact total_f32 (add_nonneg (abs_nonneg _) (abs_nonneg _)) (len_nonneg _) (len_le_entries fun a => (hd.range a).2)

/-! ### A pixel and a distance determine the point -/

theorem safeDirection_of_len {d : V3 (F64 lib)} (hd : ∀ a, InRange (RustFloat.rounding .b64 lib) 500 (d a))
    (hl : 8 / 10 ≤ len (vvec (RustFloat.rounding .b64 lib) d)) :
    SafeDirection (RustFloat.rounding .b64 lib) 510 510 d := by
  refine ⟨fun a => (hd a).mono (by norm_num), ?_⟩
  by_contra hn
  push Not at hn
  have h1 := len_le_entries (v := vvec (RustFloat.rounding .b64 lib) d) fun a => (hn a).le
  have h2 : (1 : ℝ) / 2 ^ 510 ≤ 1 / 2 ^ 2 :=
    one_div_le_one_div_of_le (by norm_num) (pow_le_pow_right₀ (by norm_num) (by norm_num))
  generalize (1 : ℝ) / 2 ^ 510 = y at *
  norm_num at h2
  linarith

/-- The point at distance `t` along a ray through the neighbourhood of `x`. -/
theorem pointAt_near {c d x : Vec} {Z : ℝ} (hd : d ≠ 0) (t : ℝ) :
    distance (pointAt c d t) x ≤ distance x (c + Z • d) + |t - Z * len d| := by
  have hl := len_pos.2 hd
  have e : pointAt c d t - x = (t / len d - Z) • d + (c + Z • d - x) := by
    rw [pointAt, sub_smul]; abel
  rw [distance, e]
  refine (len_add_le _ _).trans ?_
  rw [len_smul, distance, len_sub_comm x, add_comm]
  refine add_le_add_right ?_ _
  rw [← abs_of_pos hl, ← abs_mul, abs_of_pos hl, sub_mul, div_mul_cancel₀ _ hl.ne']

theorem len_sub_len_le (v w : Vec) : |len v - len w| ≤ len (v - w) := by
  have h1 := len_add_le (v - w) w
  have h2 := len_add_le (w - v) v
  rw [sub_add_cancel] at h1 h2
  rw [len_sub_comm] at h2
  rw [abs_le]
  constructor <;> linarith

variable {M σ : ℝ} {x : Vec}

/-- The rounding errors of a point whose coordinates are within the bounds of C91. -/
theorem round_len {p e c : Vec} {T : ℝ} (hM1 : 1 ≤ M) (hT : |T| ≤ 100 * M) (hc : ∀ a, |c a| ≤ 6 * M)
    (h : ∀ a, |p a - e a| ≤ 16 / 10 ^ 16 * (|c a| + |T|) + 1 / 2 ^ 500) : distance p e ≤ 4 / 10 ^ 13 * M := by
  have h1 : len (p - e) ≤ 2 * (18 / 10 ^ 14 * M) := by
    refine len_le_entries fun a => (h a).trans ?_
    have h2 : (1 : ℝ) / 2 ^ 500 ≤ 1 / 2 ^ 60 :=
      one_div_le_one_div_of_le (by norm_num) (pow_le_pow_right₀ (by norm_num) (by norm_num))
    have h3 := hc a
    generalize (1 : ℝ) / 2 ^ 500 = y at *
    norm_num at h2 ⊢
    linarith
  rw [distance]
  norm_num at h1 ⊢
  linarith

/-- C91: a pixel of a perspective camera measured within `σ` focal lengths and a distance from the camera give the
point.  The error is at most the error of the distance plus `(26 σ + 6e-12) M`. -/
theorem c91_f64_perspective {o : Observation (F64 lib)} (h : Measured σ x o) (g : GoodView M x o) (hσ : σ ≤ 1 / 100)
    (hM1 : 1 ≤ M) (hM2 : M ≤ 2 ^ 20) (hx : ∀ a, |x a| ≤ M) (hfront : 0 < o.position x 2) {t : F64 lib}
    (ht : Flt.Bounded (f := .b64) (100 * M) t) {pt : Points WorldFrame (F64 lib) 1}
    (hpt : pt = RayBundle.pointOnRayAtDistance (B := SharedOriginRayBundle (F64 lib))
      ((Camera.mk (IntrinsicParametersPerspective.ofParams o.params)
        (fromRotationAndCamcenter o.rotation o.camcenter)).pixelToWorld o.pixel) t) :
    (∀ a, Flt.isFinite (f := .b64) (pt.data 0 a)) ∧
    distance (fun a => Flt.val (f := .b64) (pt.data 0 a)) x ≤
      |Flt.val (f := .b64) t - distance x o.center| + (26 * σ + 6 / 10 ^ 12) * M := by
  obtain ⟨h1, h2, h3, h4, -, h6, -, h8, h9⟩ := h.rayAt g hσ hM1 hM2 hx _ rfl
  set fl := RustFloat.rounding .b64 lib with hfl
  set b : RayBundle WorldFrame (SharedOriginRayBundle (F64 lib)) (F64 lib) 1 :=
    (Camera.mk (IntrinsicParametersPerspective.ofParams o.params)
        (fromRotationAndCamcenter o.rotation o.camcenter)).pixelToWorld o.pixel with hb
  have bc : b.centers 0 = o.ray.center := (so_rows b 0).1
  have bd : b.directions 0 = o.ray.direction := (so_rows b 0).2
  have hrow : ∀ a, _ := c91_f64_shared_origin b 0 (by rw [bd]; exact safeDirection_of_len h1.direction h9)
    (fun a => by rw [bc]; exact ⟨(h1.center a).1, (h1.center a).2.trans (pow_le_pow_right₀ (by norm_num) (by norm_num))⟩)
    (t := t) ⟨ht.1, ht.2.trans (le_trans (mul_le_mul_of_nonneg_left hM2 (by norm_num))
      (le_trans (by norm_num) (pow_le_pow_right₀ (by norm_num) (by norm_num) : (2 : ℝ) ^ 27 ≤ 2 ^ 510)))⟩
  rw [← hpt, bc, bd] at hrow
  refine ⟨fun a => (hrow a).1, ?_⟩
  have e1 := round_len hM1 ht.2 (fun a => (h2 a).trans (by norm_num; linarith)) fun a => (hrow a).2
  have e2 := pointAt_near (c := vvec fl o.ray.center) (d := vvec fl o.ray.direction) (x := x) (Z := o.position x 2) h4 (Flt.val (f := .b64) t)
  have e3 := distance_triangle (fun a => Flt.val (f := .b64) (pt.data 0 a))
    (pointAt (vvec fl o.ray.center) (vvec fl o.ray.direction) (Flt.val (f := .b64) t)) x
  have e4 : o.position x 2 * len (vvec fl o.ray.direction) = len (o.position x 2 • vvec fl o.ray.direction) := by
    rw [len_smul, abs_of_pos hfront]
  have e5 := len_sub_len_le (x - o.center) (o.position x 2 • vvec fl o.ray.direction)
  have e6 : len (x - o.center - o.position x 2 • vvec fl o.ray.direction) ≤
      distance x (vvec fl o.ray.center + o.position x 2 • vvec fl o.ray.direction) + len (vvec fl o.ray.center - o.center) := by
    refine le_trans (le_of_eq (congrArg len ?_)) (len_add_le _ _)
    abel
  have e7 := abs_sub_le (Flt.val (f := .b64) t) (distance x o.center) (o.position x 2 * len (vvec fl o.ray.direction))
  rw [e4] at e7 e2
  have e8 : |distance x o.center - len (o.position x 2 • vvec fl o.ray.direction)| ≤ _ := e5.trans e6
  change distance x (vvec fl o.ray.center + o.position x 2 • vvec fl o.ray.direction) ≤ _ at h6
  change len (vvec fl o.ray.center - o.center) ≤ _ at h8
  refine e3.trans ((add_le_add e1 (e2.trans (add_le_add h6 (e7.trans (add_le_add_right (e8.trans (add_le_add h6 h8)) _))))).trans ?_)
  norm_num
  linarith
/-- C91 for the pixel computed by the crate: a point in front of the camera is recovered from its pixel and its
distance, up to the error of the distance and `3e-9 M`. -/
theorem c91_f64_computed {o : Observation (F64 lib)} (g : GoodView M x o) (hM1 : 1 ≤ M) (hM2 : M ≤ 2 ^ 20)
    (w : Points WorldFrame (F64 lib) 1) (hw : ∀ a, Flt.Bounded (f := .b64) M (w.data 0 a))
    (hx : x = (RustFloat.rounding .b64 lib).vec (w.data 0))
    (hp : o.pixel = (Camera.mk (IntrinsicParametersPerspective.ofParams o.params)
      (fromRotationAndCamcenter o.rotation o.camcenter)).worldToPixel w)
    (hfront : 0 < o.position x 2) {t : F64 lib}
    (ht : Flt.Bounded (f := .b64) (100 * M) t) {pt : Points WorldFrame (F64 lib) 1}
    (hpt : pt = RayBundle.pointOnRayAtDistance (B := SharedOriginRayBundle (F64 lib))
      ((Camera.mk (IntrinsicParametersPerspective.ofParams o.params)
        (fromRotationAndCamcenter o.rotation o.camcenter)).pixelToWorld o.pixel) t) :
    (∀ a, Flt.isFinite (f := .b64) (pt.data 0 a)) ∧
    distance (fun a => Flt.val (f := .b64) (pt.data 0 a)) x ≤
      |Flt.val (f := .b64) t - distance x o.center| + 3 / 10 ^ 9 * M := by
  obtain ⟨h1, h2⟩ := c91_f64_perspective (computed_measured g (by norm_num) hM1 hM2 w hw hx hp) g (by norm_num) hM1 hM2
    (fun a => by rw [hx]; exact (hw a).2) hfront ht hpt
  refine ⟨h1, h2.trans ?_⟩
  norm_num
  linarith

theorem len_view_axis (o : ParallelView (F64 lib)) (g : GoodParallel M o) : |len o.axis - 1| ≤ 1 / 10 ^ 15 := by
  have hq := g.rotation.quatNormSq
  have e : len o.axis = |quatNormSq ((RustFloat.rounding .b64 lib).quat o.rotation)| := by
    rw [← Real.sqrt_sq_eq_abs, len]
    congr 1
    simp only [Fin.sum_univ_three, ParallelView.axis, Quat.toRotationMatrix, quatNormSq]
    simp
    ring
  rw [e, abs_of_nonneg (a := quatNormSq _)]
  · exact hq
  · rw [quatNormSq]; positivity

/-- C91: a pixel of an orthographic camera and a depth give the point.  The error is at most the error of the depth
plus `(13 σ + 8e-12) M`. -/
theorem c91_f64_orthographic {o : ParallelView (F64 lib)} (h : MeasuredParallel σ M x o) (g : GoodParallel M o)
    (hσ : σ ≤ 1 / 100) (hM1 : 1 ≤ M) (hM2 : M ≤ 2 ^ 20) (hx : ∀ a, |x a| ≤ M) {t : F64 lib}
    (ht : Flt.Bounded (f := .b64) (100 * M) t) {pt : Points WorldFrame (F64 lib) 1}
    (hpt : pt = RayBundle.pointOnRayAtDistance (B := SharedDirectionRayBundle (F64 lib)) (o.camera.pixelToWorld o.pixel) t) :
    (∀ a, Flt.isFinite (f := .b64) (pt.data 0 a)) ∧
    distance (fun a => Flt.val (f := .b64) (pt.data 0 a)) x ≤
      |Flt.val (f := .b64) t - o.position x 2| + (13 * σ + 8 / 10 ^ 12) * M := by
  obtain ⟨h1, h2, h3, h4, h6, h7⟩ := h.ray g hσ hM1 hM2 hx _ rfl
  have hA := len_view_axis o g
  have hZ := g.position_le hx 2
  set fl := RustFloat.rounding .b64 lib with hfl
  set b : RayBundle WorldFrame (SharedDirectionRayBundle (F64 lib)) (F64 lib) 1 := o.camera.pixelToWorld o.pixel with hb
  have bc : b.centers 0 = o.ray.center := (sd_rows b 0).1
  have bd : b.directions 0 = o.ray.direction := (sd_rows b 0).2
  have hD : |len (vvec fl o.ray.direction) - 1| ≤ 11 / 10 ^ 13 := by
    have e1 := (len_sub_len_le _ _).trans h7
    have e2 := abs_sub_le (len (vvec fl o.ray.direction)) (len o.axis) 1
    have e3 := (abs_le.1 hA).2
    change |len (vvec fl o.ray.direction) - len o.axis| ≤ _ at e1
    norm_num at e1 e3 hA ⊢
    linarith
  have h9 : 8 / 10 ≤ len (vvec fl o.ray.direction) := by
    have := (abs_le.1 hD).1
    norm_num at this
    linarith
  have hrow : ∀ a, _ := c91_f64_shared_direction b 0 (by rw [bd]; exact safeDirection_of_len h1.direction h9)
    (fun a => by rw [bc]; exact ⟨(h1.center a).1, (h1.center a).2.trans (pow_le_pow_right₀ (by norm_num) (by norm_num))⟩)
    (t := t) ⟨ht.1, ht.2.trans (le_trans (mul_le_mul_of_nonneg_left hM2 (by norm_num))
      (le_trans (by norm_num) (pow_le_pow_right₀ (by norm_num) (by norm_num) : (2 : ℝ) ^ 27 ≤ 2 ^ 510)))⟩
  rw [← hpt, bc, bd] at hrow
  refine ⟨fun a => (hrow a).1, ?_⟩
  have e1 := round_len hM1 ht.2 h2 fun a => (hrow a).2
  have e2 := pointAt_near (c := vvec fl o.ray.center) (d := vvec fl o.ray.direction) (x := x) (Z := o.position x 2) h4
    (Flt.val (f := .b64) t)
  have e3 := distance_triangle (fun a => Flt.val (f := .b64) (pt.data 0 a))
    (pointAt (vvec fl o.ray.center) (vvec fl o.ray.direction) (Flt.val (f := .b64) t)) x
  have e7 := abs_sub_le (Flt.val (f := .b64) t) (o.position x 2) (o.position x 2 * len (vvec fl o.ray.direction))
  have e8 : |o.position x 2 - o.position x 2 * len (vvec fl o.ray.direction)| ≤ 4001 / 1000 * M * (11 / 10 ^ 13) := by
    rw [show o.position x 2 - o.position x 2 * len (vvec fl o.ray.direction) =
      o.position x 2 * (1 - len (vvec fl o.ray.direction)) by ring, abs_mul, abs_sub_comm 1]
    exact mul_le_mul hZ hD (abs_nonneg _) (by linarith)
  change distance x (vvec fl o.ray.center + o.position x 2 • vvec fl o.ray.direction) ≤ _ at h6
  refine e3.trans ((add_le_add e1 (e2.trans (add_le_add h6 (e7.trans (add_le_add_right e8 _))))).trans ?_)
  norm_num
  linarith

/-! ### Non-vacuity -/

theorem bounded_digit (k : Fin 10) {B : ℝ} (hk : ((k : ℕ) : ℝ) ≤ B) : Flt.Bounded (f := .b64) B (digit lib k) :=
  ⟨trivial, by rw [val_digit lib, abs_of_nonneg (Nat.cast_nonneg _)]; exact hk⟩

/-- Non-vacuity of C91: the point 5 units along the ray from (1, 2, 3) in the direction (3, 0, 4) is (4, 2, 7) up to
`2e-14`. -/
example (b : RayBundle WorldFrame (SharedOriginRayBundle (F64 lib)) (F64 lib) 1)
    (hb : b = ⟨fun _ => ![digit lib 3, digit lib 0, digit lib 4], ⟨![digit lib 1, digit lib 2, digit lib 3]⟩⟩) (a : Fin 3) :
    |Flt.val (f := .b64) ((b.pointOnRayAtDistance (digit lib 5)).data 0 a) - (![4, 2, 7] : Vec) a| ≤ 2 / 10 ^ 14 := by
  have v : ∀ k : Fin 10, Flt.val (f := .b64) (digit lib k) = ((k : ℕ) : ℝ) := val_digit lib
  have big : (9 : ℝ) ≤ 2 ^ 510 := le_trans (by norm_num) (pow_le_pow_right₀ (by norm_num) (show 4 ≤ 510 by norm_num) : (2 : ℝ) ^ 4 ≤ _)
  have hk : ∀ k : Fin 10, Flt.Bounded (f := .b64) (2 ^ 510) (digit lib k) := fun k =>
    bounded_digit k (le_trans (by exact_mod_cast Nat.lt_succ_iff.1 k.2) big)
  have hd : b.directions 0 = ![digit lib 3, digit lib 0, digit lib 4] := by rw [(so_rows b 0).2, hb]
  have hc : b.centers 0 = ![digit lib 1, digit lib 2, digit lib 3] := by rw [(so_rows b 0).1, hb]
  have key := (c91_f64_shared_origin b 0 ⟨fun a => by
      rw [hd]; fin_cases a <;> exact (hk _).inRange le_rfl, 0, by
      rw [hd]
      show _ ≤ |Flt.val (f := .b64) (digit lib 3)|
      rw [v]
      refine le_trans ((div_le_one (by positivity)).2 (one_le_pow₀ (by norm_num))) (by norm_num)⟩
    (fun a => by rw [hc]; fin_cases a <;> exact hk _) (hk 5) a).2
  have small : (1 : ℝ) / 2 ^ 500 ≤ 1 / 2 ^ 60 :=
    one_div_le_one_div_of_le (by norm_num) (pow_le_pow_right₀ (by norm_num) (by norm_num))
  have e1 : (fun j => Flt.val (f := .b64) (b.directions 0 j)) = ![3, 0, 4] := by
    rw [hd]; funext j; fin_cases j
    · exact (v 3).trans (by norm_num)
    · exact (v 0).trans (by norm_num)
    · exact (v 4).trans (by norm_num)
  have e2 : (fun j => Flt.val (f := .b64) (b.centers 0 j)) = ![1, 2, 3] := by
    rw [hc]; funext j; fin_cases j
    · exact (v 1).trans (by norm_num)
    · exact (v 2).trans (by norm_num)
    · exact (v 3).trans (by norm_num)
  have l : len ![(3 : ℝ), 0, 4] = 5 := by
    rw [len, Real.sqrt_eq_iff_mul_self_eq (Finset.sum_nonneg fun i _ => sq_nonneg _) (by norm_num)]
    simp [Fin.sum_univ_three]; norm_num
  have e3 : pointAt ![1, 2, 3] ![3, 0, 4] 5 = ![4, 2, 7] := by
    rw [pointAt, l]; funext j; fin_cases j <;> norm_num
  have e4 : |Flt.val (f := .b64) (b.centers 0 a)| ≤ 3 := by
    rw [show Flt.val (f := .b64) (b.centers 0 a) = _ from congrFun e2 a]
    fin_cases a <;> norm_num
  rw [e1, e2, v, show ((5 : Fin 10) : ℕ) = 5 from rfl, Nat.cast_ofNat, e3] at key
  refine key.trans ?_
  generalize (1 : ℝ) / 2 ^ 500 = y at *
  norm_num at small ⊢
  linarith

/-- Non-vacuity of C91: the pixel (2, 0) of the sample camera and the distance 6 give a point near (4, 0, 4), whose
distance is 5.66. -/
example (pt : Points WorldFrame (F64 lib) 1)
    (hpt : pt = RayBundle.pointOnRayAtDistance (B := SharedOriginRayBundle (F64 lib))
      ((Camera.mk (IntrinsicParametersPerspective.ofParams (sampleView lib 0 2).params)
        (fromRotationAndCamcenter (sampleView lib 0 2).rotation (sampleView lib 0 2).camcenter)).pixelToWorld
          (sampleView lib 0 2).pixel) (digit lib 6)) :
    distance (fun a => Flt.val (f := .b64) (pt.data 0 a)) ![4, 0, 4] ≤ 6 / 10 := by
  refine (c91_f64_perspective (M := 8) (σ := 1 / 1000) (sampleView_measured (Or.inl ⟨rfl, rfl⟩))
    (sampleView_good 0 2 (Or.inl rfl)) (by norm_num) (by norm_num) (by norm_num)
    (fun a => by fin_cases a <;> norm_num) (by rw [sampleView_position]; simp) (bounded_digit 6 (by norm_num))
    hpt).2.trans ?_
  have e : distance ![4, 0, 4] (sampleView lib 0 2).center = √32 := by
    rw [sampleView_center, distance, len]
    congr 1
    simp [Fin.sum_univ_three]
    norm_num
  have l : 565 / 100 ≤ √32 := Real.le_sqrt_of_sq_le (by norm_num)
  have l2 : √32 ≤ 6 := Real.sqrt_le_iff.2 (by norm_num)
  rw [e, val_digit lib, show (((6 : Fin 10) : ℕ) : ℝ) = 6 by norm_num, abs_of_nonneg (by linarith)]
  norm_num
  linarith

/-- Non-vacuity of C91: the pixel (5, 0) of the sample orthographic camera and the depth 4 give (4, 0, 4). -/
example (pt : Points WorldFrame (F64 lib) 1)
    (hpt : pt = RayBundle.pointOnRayAtDistance (B := SharedDirectionRayBundle (F64 lib))
      ((sampleParallel lib 5).camera.pixelToWorld (sampleParallel lib 5).pixel) (digit lib 4)) :
    distance (fun a => Flt.val (f := .b64) (pt.data 0 a)) ![4, 0, 4] ≤ 11 / 100 := by
  refine (c91_f64_orthographic (M := 8) (σ := 1 / 1000) sampleParallel_measured (sampleParallel_good 5) (by norm_num)
    (by norm_num) (by norm_num) (fun a => by fin_cases a <;> norm_num) (bounded_digit 4 (by norm_num)) hpt).2.trans ?_
  rw [sampleParallel_position, val_digit lib, show (![4, 0, 4] : Vec) 2 = 4 from rfl]
  norm_num

end

end CamGeom
