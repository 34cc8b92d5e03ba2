import Verif.Props.FloatDistance
import Verif.Props.FloatOrthographic32

/-!
# C91 in `f32`: a pixel and a distance give the point
-/

namespace CamGeom
open Rounding ExtrinsicParameters Spec Matrix

section
variable {lib : Libm Format.b32}

theorem safeDirection_of_len32 {d : V3 (F32 lib)} (hd : ∀ a, InRange (RustFloat.rounding .b32 lib) 60 (d a))
    (hl : 8 / 10 ≤ len (vvec (RustFloat.rounding .b32 lib) d)) :
    SafeDirection (RustFloat.rounding .b32 lib) 62 62 d := by
  refine ⟨fun a => (hd a).mono (by norm_num), ?_⟩
  by_contra hn
  push Not at hn
  have h1 := len_le_entries (v := vvec (RustFloat.rounding .b32 lib) d) fun a => (hn a).le
  have h2 : (1 : ℝ) / 2 ^ 62 ≤ 1 / 2 ^ 2 :=
    one_div_le_one_div_of_le (by norm_num) (pow_le_pow_right₀ (by norm_num) (by norm_num))
  generalize (1 : ℝ) / 2 ^ 62 = y at *
  norm_num at h2
  linarith

variable {D M σ : ℝ} {x : Vec}

/-- The rounding errors of a point whose coordinates are within the bounds of C91. -/
theorem round_len32 {p e c : Vec} {T : ℝ} (hM1 : 1 ≤ M) (hT : |T| ≤ 10 * M) (hc : ∀ a, |c a| ≤ 6 * M)
    (h : ∀ a, |p a - e a| ≤ 9 / 10 ^ 7 * (|c a| + |T|) + 1 / 2 ^ 80) : distance p e ≤ 29 / 10 ^ 6 * M := by
  have h1 : len (p - e) ≤ 2 * (145 / 10 ^ 7 * M) := by
    refine len_le_entries fun a => (h a).trans ?_
    have h2 : (1 : ℝ) / 2 ^ 80 ≤ 1 / 2 ^ 60 :=
      one_div_le_one_div_of_le (by norm_num) (pow_le_pow_right₀ (by norm_num) (by norm_num))
    have h3 := hc a
    generalize (1 : ℝ) / 2 ^ 80 = y at *
    norm_num at h2 ⊢
    linarith
  rw [distance]
  norm_num at h1 ⊢
  linarith

/-- C91: a pixel of a perspective camera measured within `σ` focal lengths and a distance from the camera give the
point.  The error is at most the error of the distance plus `(26 σ + 7.4e-4) M`. -/
theorem c91_f32_perspective {o : Observation (F32 lib)} (h : Measured σ x o) (g : GoodView32 D M x o) (hσ : σ ≤ 1 / 100)
    (hD1 : 1 ≤ D) (hD2 : D ≤ 300)
    (hM1 : 1 ≤ M) (hM2 : M ≤ 2 ^ 20) (hx : ∀ a, |x a| ≤ M) (hfront : 0 < o.position x 2) {t : F32 lib}
    (ht : Flt.Bounded (f := .b32) (10 * M) t) {pt : Points WorldFrame (F32 lib) 1}
    (hpt : pt = RayBundle.pointOnRayAtDistance (B := SharedOriginRayBundle (F32 lib))
      ((Camera.mk (IntrinsicParametersPerspective.ofParams o.params)
        (fromRotationAndCamcenter o.rotation o.camcenter)).pixelToWorld o.pixel) t) :
    (∀ a, Flt.isFinite (f := .b32) (pt.data 0 a)) ∧
    distance (fun a => Flt.val (f := .b32) (pt.data 0 a)) x ≤
      |Flt.val (f := .b32) t - distance x o.center| + (26 * σ + 74 / 10 ^ 5) * M := by
  obtain ⟨h1, h2, h3, h4, -, h6, -, h8, h9⟩ := h.rayAt32 g hσ hD1 hD2 hM1 hM2 hx _ rfl
  set fl := RustFloat.rounding .b32 lib with hfl
  set b : RayBundle WorldFrame (SharedOriginRayBundle (F32 lib)) (F32 lib) 1 :=
    (Camera.mk (IntrinsicParametersPerspective.ofParams o.params)
        (fromRotationAndCamcenter o.rotation o.camcenter)).pixelToWorld o.pixel with hb
  have bc : b.centers 0 = o.ray.center := (so_rows b 0).1
  have bd : b.directions 0 = o.ray.direction := (so_rows b 0).2
  have hrow : ∀ a, _ := c91_f32_shared_origin b 0 (by rw [bd]; exact safeDirection_of_len32 h1.direction h9)
    (fun a => by rw [bc]; exact ⟨(h1.center a).1, (h1.center a).2.trans (pow_le_pow_right₀ (by norm_num) (by norm_num))⟩)
    (t := t) ⟨ht.1, ht.2.trans (le_trans (mul_le_mul_of_nonneg_left hM2 (by norm_num))
      (le_trans (by norm_num) (pow_le_pow_right₀ (by norm_num) (by norm_num) : (2 : ℝ) ^ 27 ≤ 2 ^ 62)))⟩
  rw [← hpt, bc, bd] at hrow
  refine ⟨fun a => (hrow a).1, ?_⟩
  have e1 := round_len32 hM1 ht.2 (fun a => (h2 a).trans (by norm_num; linarith)) fun a => (hrow a).2
  have e2 := pointAt_near (c := vvec fl o.ray.center) (d := vvec fl o.ray.direction) (x := x) (Z := o.position x 2) h4 (Flt.val (f := .b32) t)
  have e3 := distance_triangle (fun a => Flt.val (f := .b32) (pt.data 0 a))
    (pointAt (vvec fl o.ray.center) (vvec fl o.ray.direction) (Flt.val (f := .b32) t)) x
  have e4 : o.position x 2 * len (vvec fl o.ray.direction) = len (o.position x 2 • vvec fl o.ray.direction) := by
    rw [len_smul, abs_of_pos hfront]
  have e5 := len_sub_len_le (x - o.center) (o.position x 2 • vvec fl o.ray.direction)
  have e6 : len (x - o.center - o.position x 2 • vvec fl o.ray.direction) ≤
      distance x (vvec fl o.ray.center + o.position x 2 • vvec fl o.ray.direction) + len (vvec fl o.ray.center - o.center) := by
    refine le_trans (le_of_eq (congrArg len ?_)) (len_add_le _ _)
    abel
  have e7 := abs_sub_le (Flt.val (f := .b32) t) (distance x o.center) (o.position x 2 * len (vvec fl o.ray.direction))
  rw [e4] at e7 e2
  have e8 : |distance x o.center - len (o.position x 2 • vvec fl o.ray.direction)| ≤ _ := e5.trans e6
  change distance x (vvec fl o.ray.center + o.position x 2 • vvec fl o.ray.direction) ≤ _ at h6
  change len (vvec fl o.ray.center - o.center) ≤ _ at h8
  refine e3.trans ((add_le_add e1 (e2.trans (add_le_add h6 (e7.trans (add_le_add_right (e8.trans (add_le_add h6 h8)) _))))).trans ?_)
  norm_num
  linarith
/-- C91 for the pixel computed by the crate: a point in front of the camera is recovered from its pixel and its
distance, up to the error of the distance and `0.0052 D M`. -/
theorem c91_f32_computed {o : Observation (F32 lib)} (g : GoodView32 D M x o) (hD1 : 1 ≤ D) (hD2 : D ≤ 50) (hM1 : 1 ≤ M) (hM2 : M ≤ 2 ^ 20)
    (w : Points WorldFrame (F32 lib) 1) (hw : ∀ a, Flt.Bounded (f := .b32) M (w.data 0 a))
    (hx : x = (RustFloat.rounding .b32 lib).vec (w.data 0))
    (hp : o.pixel = (Camera.mk (IntrinsicParametersPerspective.ofParams o.params)
      (fromRotationAndCamcenter o.rotation o.camcenter)).worldToPixel w)
    (hfront : 0 < o.position x 2) {t : F32 lib}
    (ht : Flt.Bounded (f := .b32) (10 * M) t) {pt : Points WorldFrame (F32 lib) 1}
    (hpt : pt = RayBundle.pointOnRayAtDistance (B := SharedOriginRayBundle (F32 lib))
      ((Camera.mk (IntrinsicParametersPerspective.ofParams o.params)
        (fromRotationAndCamcenter o.rotation o.camcenter)).pixelToWorld o.pixel) t) :
    (∀ a, Flt.isFinite (f := .b32) (pt.data 0 a)) ∧
    distance (fun a => Flt.val (f := .b32) (pt.data 0 a)) x ≤
      |Flt.val (f := .b32) t - distance x o.center| + 52 / 10 ^ 4 * D * M := by
  obtain ⟨h1, h2⟩ := c91_f32_perspective (computed_measured32 g hD1 hD2 hM1 hM2 w hw hx hp) g (by linarith) hD1 (by linarith) hM1 hM2
    (fun a => by rw [hx]; exact (hw a).2) hfront ht hpt
  refine ⟨h1, h2.trans ?_⟩
  have := mul_le_mul_of_nonneg_right hD1 (show 0 ≤ M by linarith)
  norm_num
  linarith

theorem len_view_axis32 (o : ParallelView (F32 lib)) (g : GoodParallel32 M o) : |len o.axis - 1| ≤ 1 / 10 ^ 6 := by
  have hq := g.rotation.quatNormSq
  have e : len o.axis = |quatNormSq ((RustFloat.rounding .b32 lib).quat o.rotation)| := by
    rw [← Real.sqrt_sq_eq_abs, len]
    congr 1
    simp only [Fin.sum_univ_three, ParallelView.axis, Quat.toRotationMatrix, quatNormSq]
    simp
    ring
  rw [e, abs_of_nonneg (a := quatNormSq _)]
  · exact hq
  · rw [quatNormSq]; positivity

/-- C91: a pixel of an orthographic camera and a depth give the point.  The error is at most the error of the depth
plus `(13 σ + 4e-4) M`. -/
theorem c91_f32_orthographic {o : ParallelView (F32 lib)} (h : MeasuredParallel σ M x o) (g : GoodParallel32 M o)
    (hσ : σ ≤ 1 / 100) (hM1 : 1 ≤ M) (hM2 : M ≤ 2 ^ 20) (hx : ∀ a, |x a| ≤ M) {t : F32 lib}
    (ht : Flt.Bounded (f := .b32) (10 * M) t) {pt : Points WorldFrame (F32 lib) 1}
    (hpt : pt = RayBundle.pointOnRayAtDistance (B := SharedDirectionRayBundle (F32 lib)) (o.camera.pixelToWorld o.pixel) t) :
    (∀ a, Flt.isFinite (f := .b32) (pt.data 0 a)) ∧
    distance (fun a => Flt.val (f := .b32) (pt.data 0 a)) x ≤
      |Flt.val (f := .b32) t - o.position x 2| + (13 * σ + 4 / 10 ^ 4) * M := by
  obtain ⟨h1, h2, h3, h4, h6, h7⟩ := h.ray32 g hσ hM1 hM2 hx _ rfl
  have hA := len_view_axis32 o g
  have hZ := g.position_le hx 2
  set fl := RustFloat.rounding .b32 lib with hfl
  set b : RayBundle WorldFrame (SharedDirectionRayBundle (F32 lib)) (F32 lib) 1 := o.camera.pixelToWorld o.pixel with hb
  have bc : b.centers 0 = o.ray.center := (sd_rows b 0).1
  have bd : b.directions 0 = o.ray.direction := (sd_rows b 0).2
  have hD : |len (vvec fl o.ray.direction) - 1| ≤ 71 / 10 ^ 7 := by
    have e1 := (len_sub_len_le _ _).trans h7
    have e2 := abs_sub_le (len (vvec fl o.ray.direction)) (len o.axis) 1
    have e3 := (abs_le.1 hA).2
    change |len (vvec fl o.ray.direction) - len o.axis| ≤ _ at e1
    norm_num at e1 e3 hA ⊢
    linarith
  have h9 : 8 / 10 ≤ len (vvec fl o.ray.direction) := by
    have := (abs_le.1 hD).1
    norm_num at this
    linarith
  have hrow : ∀ a, _ := c91_f32_shared_direction b 0 (by rw [bd]; exact safeDirection_of_len32 h1.direction h9)
    (fun a => by rw [bc]; exact ⟨(h1.center a).1, (h1.center a).2.trans (pow_le_pow_right₀ (by norm_num) (by norm_num))⟩)
    (t := t) ⟨ht.1, ht.2.trans (le_trans (mul_le_mul_of_nonneg_left hM2 (by norm_num))
      (le_trans (by norm_num) (pow_le_pow_right₀ (by norm_num) (by norm_num) : (2 : ℝ) ^ 27 ≤ 2 ^ 62)))⟩
  rw [← hpt, bc, bd] at hrow
  refine ⟨fun a => (hrow a).1, ?_⟩
  have e1 := round_len32 hM1 ht.2 h2 fun a => (hrow a).2
  have e2 := pointAt_near (c := vvec fl o.ray.center) (d := vvec fl o.ray.direction) (x := x) (Z := o.position x 2) h4
    (Flt.val (f := .b32) t)
  have e3 := distance_triangle (fun a => Flt.val (f := .b32) (pt.data 0 a))
    (pointAt (vvec fl o.ray.center) (vvec fl o.ray.direction) (Flt.val (f := .b32) t)) x
  have e7 := abs_sub_le (Flt.val (f := .b32) t) (o.position x 2) (o.position x 2 * len (vvec fl o.ray.direction))
  have e8 : |o.position x 2 - o.position x 2 * len (vvec fl o.ray.direction)| ≤ 4001 / 1000 * M * (71 / 10 ^ 7) := by
    rw [show o.position x 2 - o.position x 2 * len (vvec fl o.ray.direction) =
      o.position x 2 * (1 - len (vvec fl o.ray.direction)) by ring, abs_mul, abs_sub_comm 1]
    exact mul_le_mul hZ hD (abs_nonneg _) (by linarith)
  change distance x (vvec fl o.ray.center + o.position x 2 • vvec fl o.ray.direction) ≤ _ at h6
  refine e3.trans ((add_le_add e1 (e2.trans (add_le_add h6 (e7.trans (add_le_add_right e8 _))))).trans ?_)
  norm_num
  linarith

/-! ### Non-vacuity -/

theorem bounded_digit32 (k : Fin 10) {B : ℝ} (hk : ((k : ℕ) : ℝ) ≤ B) : Flt.Bounded (f := .b32) B (digit32 lib k) :=
  ⟨trivial, by rw [val_digit32 lib, abs_of_nonneg (Nat.cast_nonneg _)]; exact hk⟩

/-- Non-vacuity of C91: the pixel (2, 0) of the sample camera and the distance 6 give a point near (4, 0, 4), whose
distance is 5.66. -/
example (pt : Points WorldFrame (F32 lib) 1)
    (hpt : pt = RayBundle.pointOnRayAtDistance (B := SharedOriginRayBundle (F32 lib))
      ((Camera.mk (IntrinsicParametersPerspective.ofParams (sampleView32 lib 0 2).params)
        (fromRotationAndCamcenter (sampleView32 lib 0 2).rotation (sampleView32 lib 0 2).camcenter)).pixelToWorld
          (sampleView32 lib 0 2).pixel) (digit32 lib 6)) :
    distance (fun a => Flt.val (f := .b32) (pt.data 0 a)) ![4, 0, 4] ≤ 6 / 10 := by
  refine (c91_f32_perspective (D := 2) (M := 8) (σ := 1 / 1000) (sampleView32_measured (Or.inl ⟨rfl, rfl⟩))
    (sampleView32_good 0 2 (Or.inl rfl)) (by norm_num) (by norm_num) (by norm_num) (by norm_num) (by norm_num)
    (fun a => by fin_cases a <;> norm_num) (by rw [sampleView32_position]; simp) (bounded_digit32 6 (by norm_num))
    hpt).2.trans ?_
  have e : distance ![4, 0, 4] (sampleView32 lib 0 2).center = √32 := by
    rw [sampleView32_center, distance, len]
    congr 1
    simp [Fin.sum_univ_three]
    norm_num
  have l : 565 / 100 ≤ √32 := Real.le_sqrt_of_sq_le (by norm_num)
  have l2 : √32 ≤ 6 := Real.sqrt_le_iff.2 (by norm_num)
  rw [e, val_digit32 lib, show (((6 : Fin 10) : ℕ) : ℝ) = 6 by norm_num, abs_of_nonneg (by linarith)]
  norm_num
  linarith

/-- Non-vacuity of C91: the pixel (5, 0) of the sample orthographic camera and the depth 4 give (4, 0, 4). -/
example (pt : Points WorldFrame (F32 lib) 1)
    (hpt : pt = RayBundle.pointOnRayAtDistance (B := SharedDirectionRayBundle (F32 lib))
      ((sampleParallel32 lib 5).camera.pixelToWorld (sampleParallel32 lib 5).pixel) (digit32 lib 4)) :
    distance (fun a => Flt.val (f := .b32) (pt.data 0 a)) ![4, 0, 4] ≤ 11 / 100 := by
  refine (c91_f32_orthographic (M := 8) (σ := 1 / 1000) sampleParallel32_measured (sampleParallel32_good 5) (by norm_num)
    (by norm_num) (by norm_num) (fun a => by fin_cases a <;> norm_num) (bounded_digit32 4 (by norm_num)) hpt).2.trans ?_
  rw [sampleParallel32_position, val_digit32 lib, show (![4, 0, 4] : Vec) 2 = 4 from rfl]
  norm_num

end

end CamGeom
