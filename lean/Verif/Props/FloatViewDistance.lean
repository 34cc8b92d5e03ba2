import Verif.Props.FloatDistance32
import Verif.Props.FloatViewTriangulation32

/-!
# C104 and C106: a pixel and a distance, with cameras placed by `from_view`
-/

namespace CamGeom
open Rounding ExtrinsicParameters Spec Matrix

section
variable {M σ : ℝ} {x : Vec}

/-- C104: a pixel measured within `σ` focal lengths of the exact view and a distance from the camera give the point,
for an `f64` camera placed by `from_view`.  The error is at most the error of the distance plus `(24 σ + 1.02e-10) M`. -/
theorem c104_f64_distance {lib : Libm Format.b64} {s : Sighting (F64 lib)} (hl : lib.Accurate)
    (h : Sighted σ x s) (g : GoodSight M x s) (hσ : σ ≤ 1 / 100) (hM1 : 1 ≤ M) (hM2 : M ≤ 2 ^ 20) (hx : ∀ a, |x a| ≤ M)
    (hfront : 0 < s.position x 2) {t : F64 lib} (ht : Flt.Bounded (f := .b64) (100 * M) t)
    {pt : Points WorldFrame (F64 lib) 1}
    (hpt : pt = RayBundle.pointOnRayAtDistance (B := SharedOriginRayBundle (F64 lib)) (s.camera.pixelToWorld s.pixel) t) :
    (∀ a, Flt.isFinite (f := .b64) (pt.data 0 a)) ∧
    distance (fun a => Flt.val (f := .b64) (pt.data 0 a)) x ≤
      |Flt.val (f := .b64) t - distance x s.center| + (24 * σ + 102 / 10 ^ 12) * M := by
  have H := h.rayAlong hl g hσ hM1 hM2 hx
  have hσ0 := h.nonneg g
  set fl := RustFloat.rounding .b64 lib with hfl
  set b : RayBundle WorldFrame (SharedOriginRayBundle (F64 lib)) (F64 lib) 1 := s.camera.pixelToWorld s.pixel with hb
  have bc : b.centers 0 = s.ray.center := (so_rows b 0).1
  have bd : b.directions 0 = s.ray.direction := (so_rows b 0).2
  have hrow : ∀ a, _ := c91_f64_shared_origin b 0 (by rw [bd]; exact safeDirection_of_len H.safe.direction H.length)
    (fun a => by rw [bc]; exact ⟨(H.safe.center a).1, (H.safe.center a).2.trans (pow_le_pow_right₀ (by norm_num) (by norm_num))⟩)
    (t := t) ⟨ht.1, ht.2.trans (le_trans (mul_le_mul_of_nonneg_left hM2 (by norm_num))
      (le_trans (by norm_num) (pow_le_pow_right₀ (by norm_num) (by norm_num) : (2 : ℝ) ^ 27 ≤ 2 ^ 510)))⟩
  rw [← hpt, bc, bd] at hrow
  refine ⟨fun a => (hrow a).1, ?_⟩
  have e1 := round_len hM1 ht.2 (fun a => (H.center a).trans (by norm_num; linarith)) fun a => (hrow a).2
  have e2 := pointAt_near (c := vvec fl s.ray.center) (d := vvec fl s.ray.direction) (x := x) (Z := s.position x 2)
    (len_pos.1 (lt_of_lt_of_le (by norm_num) H.length)) (Flt.val (f := .b64) t)
  have e3 := distance_triangle (fun a => Flt.val (f := .b64) (pt.data 0 a))
    (pointAt (vvec fl s.ray.center) (vvec fl s.ray.direction) (Flt.val (f := .b64) t)) x
  have e4 : s.position x 2 * len (vvec fl s.ray.direction) = len (s.position x 2 • vvec fl s.ray.direction) := by
    rw [len_smul, abs_of_pos hfront]
  have e5 := len_sub_len_le (s.position x 2 • vvec fl s.ray.direction) (x - s.center)
  have hL : len (x - s.center) ≤ 4 * M := by
    have := len_add_le x (-s.center)
    rw [len_neg, ← sub_eq_add_neg] at this
    have lx : len x ≤ 2 * M := len_le_entries hx
    have lc : len s.center ≤ 2 * M := len_le_entries fun a => (g.center a).2
    exact this.trans (by linarith)
  have e6 : |len (s.position x 2 • vvec fl s.ray.direction) - len (x - s.center)| ≤ (3 * σ + 12 / 10 ^ 12) * (4 * M) :=
    e5.trans (H.along.trans (mul_le_mul_of_nonneg_left hL (by positivity)))
  have e7 := abs_sub_le (Flt.val (f := .b64) t) (distance x s.center) (s.position x 2 * len (vvec fl s.ray.direction))
  rw [e4] at e7 e2
  rw [abs_sub_comm] at e6
  refine e3.trans ((add_le_add e1 (e2.trans (add_le_add H.near (e7.trans (add_le_add_right e6 _))))).trans ?_)
  norm_num
  linarith

/-- C106: a pixel measured within `σ` focal lengths of the exact view and a distance from the camera give the point,
for an `f32` camera placed by `from_view`.  The error is at most the error of the distance plus `(24 σ + 0.0034) M`. -/
theorem c106_f32_distance {lib : Libm Format.b32} {s : Sighting (F32 lib)} (hl : lib.Accurate)
    (h : Sighted σ x s) (g : GoodSight32 M x s) (hσ : σ ≤ 1 / 100) (hM1 : 1 ≤ M) (hM2 : M ≤ 2 ^ 20) (hx : ∀ a, |x a| ≤ M)
    (hfront : 0 < s.position x 2) {t : F32 lib} (ht : Flt.Bounded (f := .b32) (10 * M) t)
    {pt : Points WorldFrame (F32 lib) 1}
    (hpt : pt = RayBundle.pointOnRayAtDistance (B := SharedOriginRayBundle (F32 lib)) (s.camera.pixelToWorld s.pixel) t) :
    (∀ a, Flt.isFinite (f := .b32) (pt.data 0 a)) ∧
    distance (fun a => Flt.val (f := .b32) (pt.data 0 a)) x ≤
      |Flt.val (f := .b32) t - distance x s.center| + (24 * σ + 34 / 10 ^ 4) * M := by
  have H := h.rayAlong32 hl g hσ hM1 hM2 hx
  have hσ0 := h.nonneg32 g
  set fl := RustFloat.rounding .b32 lib with hfl
  set b : RayBundle WorldFrame (SharedOriginRayBundle (F32 lib)) (F32 lib) 1 := s.camera.pixelToWorld s.pixel with hb
  have bc : b.centers 0 = s.ray.center := (so_rows b 0).1
  have bd : b.directions 0 = s.ray.direction := (so_rows b 0).2
  have hrow : ∀ a, _ := c91_f32_shared_origin b 0 (by rw [bd]; exact safeDirection_of_len32 H.safe.direction H.length)
    (fun a => by rw [bc]; exact ⟨(H.safe.center a).1, (H.safe.center a).2.trans (pow_le_pow_right₀ (by norm_num) (by norm_num))⟩)
    (t := t) ⟨ht.1, ht.2.trans (le_trans (mul_le_mul_of_nonneg_left hM2 (by norm_num))
      (le_trans (by norm_num) (pow_le_pow_right₀ (by norm_num) (by norm_num) : (2 : ℝ) ^ 27 ≤ 2 ^ 62)))⟩
  rw [← hpt, bc, bd] at hrow
  refine ⟨fun a => (hrow a).1, ?_⟩
  have e1 := round_len32 hM1 ht.2 (fun a => (H.center a).trans (by norm_num; linarith)) fun a => (hrow a).2
  have e2 := pointAt_near (c := vvec fl s.ray.center) (d := vvec fl s.ray.direction) (x := x) (Z := s.position x 2)
    (len_pos.1 (lt_of_lt_of_le (by norm_num) H.length)) (Flt.val (f := .b32) t)
  have e3 := distance_triangle (fun a => Flt.val (f := .b32) (pt.data 0 a))
    (pointAt (vvec fl s.ray.center) (vvec fl s.ray.direction) (Flt.val (f := .b32) t)) x
  have e4 : s.position x 2 * len (vvec fl s.ray.direction) = len (s.position x 2 • vvec fl s.ray.direction) := by
    rw [len_smul, abs_of_pos hfront]
  have e5 := len_sub_len_le (s.position x 2 • vvec fl s.ray.direction) (x - s.center)
  have hL : len (x - s.center) ≤ 4 * M := by
    have := len_add_le x (-s.center)
    rw [len_neg, ← sub_eq_add_neg] at this
    have lx : len x ≤ 2 * M := len_le_entries hx
    have lc : len s.center ≤ 2 * M := len_le_entries fun a => (g.center a).2
    exact this.trans (by linarith)
  have e6 : |len (s.position x 2 • vvec fl s.ray.direction) - len (x - s.center)| ≤ (3 * σ + 25 / 10 ^ 5) * (4 * M) :=
    e5.trans (H.along.trans (mul_le_mul_of_nonneg_left hL (by positivity)))
  have e7 := abs_sub_le (Flt.val (f := .b32) t) (distance x s.center) (s.position x 2 * len (vvec fl s.ray.direction))
  rw [e4] at e7 e2
  rw [abs_sub_comm] at e6
  refine e3.trans ((add_le_add e1 (e2.trans (add_le_add H.near (e7.trans (add_le_add_right e6 _))))).trans ?_)
  norm_num
  linarith

/-- Non-vacuity: the middle pixel of the sample camera and the distance 6 give a point near (4, 0, 4), whose
distance is 5.66. -/
example {lib : Libm Format.b64} (hl : lib.Accurate) (pt : Points WorldFrame (F64 lib) 1)
    (hpt : pt = RayBundle.pointOnRayAtDistance (B := SharedOriginRayBundle (F64 lib))
      ((sampleSight lib 0).camera.pixelToWorld (sampleSight lib 0).pixel) (digit lib 6)) :
    distance (fun a => Flt.val (f := .b64) (pt.data 0 a)) ![4, 0, 4] ≤ 4 / 10 := by
  refine (c104_f64_distance (M := 8) (σ := 0) hl (sampleSight_sighted (Or.inl rfl)) (sampleSight_good (Or.inl rfl))
    (by norm_num) (by norm_num) (by norm_num) (fun a => by fin_cases a <;> norm_num)
    (by rw [sampleSight_position (Or.inl rfl)]; exact Real.sqrt_pos.2 (by norm_num)) (bounded_digit 6 (by norm_num))
    hpt).2.trans ?_
  have e : distance ![4, 0, 4] (sampleSight lib 0).center = √32 := by
    rw [sampleSight_center, distance, (sampleSight_dir (Or.inl rfl)).1]
  have l : 565 / 100 ≤ √32 := Real.le_sqrt_of_sq_le (by norm_num)
  have l2 : √32 ≤ 6 := Real.sqrt_le_iff.2 (by norm_num)
  rw [e, val_digit lib, show (((6 : Fin 10) : ℕ) : ℝ) = 6 by norm_num, abs_of_nonneg (by linarith)]
  norm_num
  linarith

/-- Non-vacuity: the middle pixel of the sample camera and the distance 6 give a point near (4, 0, 4), whose
distance is 5.66. -/
example {lib : Libm Format.b32} (hl : lib.Accurate) (pt : Points WorldFrame (F32 lib) 1)
    (hpt : pt = RayBundle.pointOnRayAtDistance (B := SharedOriginRayBundle (F32 lib))
      ((sampleSight32 lib 0).camera.pixelToWorld (sampleSight32 lib 0).pixel) (digit32 lib 6)) :
    distance (fun a => Flt.val (f := .b32) (pt.data 0 a)) ![4, 0, 4] ≤ 4 / 10 := by
  refine (c106_f32_distance (M := 8) (σ := 0) hl (sampleSight32_sighted (Or.inl rfl)) (sampleSight32_good (Or.inl rfl))
    (by norm_num) (by norm_num) (by norm_num) (fun a => by fin_cases a <;> norm_num)
    (by rw [sampleSight32_position (Or.inl rfl)]; exact Real.sqrt_pos.2 (by norm_num)) (bounded_digit32 6 (by norm_num))
    hpt).2.trans ?_
  have e : distance ![4, 0, 4] (sampleSight32 lib 0).center = √32 := by
    rw [sampleSight32_center, distance, (sampleSight_dir (Or.inl rfl)).1]
  have l : 565 / 100 ≤ √32 := Real.le_sqrt_of_sq_le (by norm_num)
  have l2 : √32 ≤ 6 := Real.sqrt_le_iff.2 (by norm_num)
  rw [e, val_digit32 lib, show (((6 : Fin 10) : ℕ) : ℝ) = 6 by norm_num, abs_of_nonneg (by linarith)]
  norm_num
  linarith

end

end CamGeom
