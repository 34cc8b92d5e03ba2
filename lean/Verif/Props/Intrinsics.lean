import Verif.Lemmas.Pose
import Mathlib.Tactic.FieldSimp

/-!
# C10–C12: the two intrinsic models
-/

namespace CamGeom
open Spec Matrix

/-- The intrinsics of the crate's documentation (`/repo/src/lib.rs`, `/repo/src/camera.rs`). -/
noncomputable def exPersp : PerspectiveParams ℝ := ⟨100, 100, 0, 640, 480⟩
/-- Orthographic intrinsics for the examples. -/
noncomputable def exOrtho : OrthographicParams ℝ := ⟨100, 120, 10, 20⟩

/-- C11: perspective projection is the pinhole formula. -/
theorem c11_pinhole (p : PerspectiveParams ℝ) {n : ℕ} (w : Points CameraFrame ℝ n) (i : Fin n)
    (hz : w.data i 2 ≠ 0) :
    ((IntrinsicParametersPerspective.ofParams p).cameraToPixel w).data i =
      pinhole p.fx p.fy p.skew p.cx p.cy (w.data i) := by
  rw [persp_cameraToPixel]
  funext a
  fin_cases a <;>
    simp [IntrinsicParametersPerspective.ofParams, Mat.mulVec4, V3.toHomogeneous, pinhole] <;>
    field_simp

/-- C11: scaling the point by a nonzero factor does not change the pixel. -/
theorem c11_scale_invariant (p : PerspectiveParams ℝ) {n : ℕ} (w w' : Points CameraFrame ℝ n)
    (i : Fin n) (hz : w.data i 2 ≠ 0) (s : ℝ) (hs : s ≠ 0) (hw : w'.data i = s • w.data i) :
    ((IntrinsicParametersPerspective.ofParams p).cameraToPixel w').data i =
      ((IntrinsicParametersPerspective.ofParams p).cameraToPixel w).data i := by
  have hz' : w'.data i 2 ≠ 0 := by rw [hw]; simp [hs, hz]
  rw [c11_pinhole p w i hz, c11_pinhole p w' i hz', hw]
  funext a
  fin_cases a <;> simp only [pinhole, Pi.smul_apply, smul_eq_mul] <;>
    rw [mul_div_mul_left _ _ hs, mul_div_mul_left _ _ hs]

theorem pinhole_injective {p : PerspectiveParams ℝ} (hx : p.fx ≠ 0) (hy : p.fy ≠ 0) {x y : Vec}
    (hxz : x 2 ≠ 0) (hyz : y 2 ≠ 0)
    (h : pinhole p.fx p.fy p.skew p.cx p.cy x = pinhole p.fx p.fy p.skew p.cx p.cy y) :
    y = (y 2 / x 2) • x := by
  have h0 := congrFun h 0
  have h1 := congrFun h 1
  simp only [pinhole, Matrix.cons_val] at h0 h1
  have e1 : x 1 / x 2 = y 1 / y 2 := mul_left_cancel₀ hy (by linarith)
  have e0 : x 0 / x 2 = y 0 / y 2 := by
    rw [e1] at h0; exact mul_left_cancel₀ hx (by linarith)
  funext a
  fin_cases a
  · simp; field_simp at e0 ⊢; linarith
  · simp; field_simp at e1 ⊢; linarith
  · simp; field_simp

/-- C11: two points at nonzero depth have the same pixel iff they are on one line through the camera
centre (the origin of the camera frame). -/
theorem c11_same_pixel_iff (p : PerspectiveParams ℝ) (hx : p.fx ≠ 0) (hy : p.fy ≠ 0) {n : ℕ}
    (w : Points CameraFrame ℝ n) (i j : Fin n) (hi : w.data i 2 ≠ 0) (hj : w.data j 2 ≠ 0) :
    ((IntrinsicParametersPerspective.ofParams p).cameraToPixel w).data i =
        ((IntrinsicParametersPerspective.ofParams p).cameraToPixel w).data j ↔
      ∃ d : Vec, w.data i ∈ line 0 d ∧ w.data j ∈ line 0 d := by
  rw [c11_pinhole p w i hi, c11_pinhole p w j hj]
  constructor
  · intro h
    exact ⟨w.data i, ⟨1, by simp⟩, ⟨w.data j 2 / w.data i 2, by
      rw [zero_add]; exact pinhole_injective hx hy hi hj h⟩⟩
  · rintro ⟨d, ⟨s, hs⟩, ⟨t, ht⟩⟩
    rw [hs] at hi ⊢
    rw [ht] at hj ⊢
    simp only [zero_add, Pi.smul_apply, smul_eq_mul, ne_eq, mul_eq_zero, not_or] at hi hj
    obtain ⟨hs0, hd⟩ := hi
    obtain ⟨ht0, -⟩ := hj
    funext a
    fin_cases a <;> simp only [pinhole, zero_add, Pi.smul_apply, smul_eq_mul] <;>
      rw [mul_div_mul_left _ _ hs0, mul_div_mul_left _ _ hs0, mul_div_mul_left _ _ ht0,
        mul_div_mul_left _ _ ht0]

theorem persp_dir_z (p : PerspectiveParams ℝ) {n : ℕ} (px : Pixels ℝ n) (i : Fin n) :
    ((IntrinsicParametersPerspective.ofParams p).pixelToCamera px).data i 2 = 1 := by
  rw [persp_pixelToCamera]; simp

/-- Projecting any nonzero multiple of the pixel's camera direction gives the pixel. -/
theorem pinhole_of_direction {p : PerspectiveParams ℝ} (hx : p.fx ≠ 0) (hy : p.fy ≠ 0) {n : ℕ}
    (px : Pixels ℝ n) (i : Fin n) {s : ℝ} (hs : s ≠ 0) :
    pinhole p.fx p.fy p.skew p.cx p.cy
        (s • ((IntrinsicParametersPerspective.ofParams p).pixelToCamera px).data i) = px.data i := by
  rw [persp_pixelToCamera]
  funext a
  fin_cases a <;> simp [pinhole, IntrinsicParametersPerspective.ofParams] <;> field_simp <;> ring

theorem persp_center (p : PerspectiveParams ℝ) {n : ℕ} (px : Pixels ℝ n) :
    ((IntrinsicParametersPerspective.ofParams p).pixelToCamera px).bundleType.center = 0 := by
  rw [persp_pixelToCamera]
  funext a; fin_cases a <;> simp [SharedOriginRayBundle.newSharedZeroOrigin]

/-- C10, `point_on_ray`. -/
theorem c10_roundtrip (p : PerspectiveParams ℝ) (hx : p.fx ≠ 0) (hy : p.fy ≠ 0) {n : ℕ}
    (px : Pixels ℝ n) :
    (IntrinsicParametersPerspective.ofParams p).cameraToPixel
      ((IntrinsicParametersPerspective.ofParams p).pixelToCamera px).pointOnRay = px := by
  ext1; funext i
  have hpt : ((IntrinsicParametersPerspective.ofParams p).pixelToCamera px).pointOnRay.data i =
      (1 : ℝ) • ((IntrinsicParametersPerspective.ofParams p).pixelToCamera px).data i := by
    simp only [RayBundle.pointOnRay, Bundle.pointOnRay, so_pointOnRay, persp_center]
    funext a; simp
  rw [c11_pinhole, hpt, pinhole_of_direction hx hy _ _ one_ne_zero]
  rw [hpt]; simp [persp_dir_z]

/-- C10, `point_on_ray_at_distance` at any nonzero distance. -/
theorem c10_roundtrip_at_distance (p : PerspectiveParams ℝ) (hx : p.fx ≠ 0) (hy : p.fy ≠ 0) {n : ℕ}
    (px : Pixels ℝ n) (s : ℝ) (hs : s ≠ 0) :
    (IntrinsicParametersPerspective.ofParams p).cameraToPixel
      (((IntrinsicParametersPerspective.ofParams p).pixelToCamera px).pointOnRayAtDistance s) =
      px := by
  ext1; funext i
  have hd : ((IntrinsicParametersPerspective.ofParams p).pixelToCamera px).data i ≠ 0 := fun h => by
    have := persp_dir_z p px i
    rw [h] at this; simp at this
  have hl := (len_pos.2 hd).ne'
  have hpt : (((IntrinsicParametersPerspective.ofParams p).pixelToCamera px).pointOnRayAtDistance
      s).data i = (s / len (((IntrinsicParametersPerspective.ofParams p).pixelToCamera px).data i)) •
        ((IntrinsicParametersPerspective.ofParams p).pixelToCamera px).data i := by
    simp only [RayBundle.pointOnRayAtDistance, Bundle.pointOnRayAtDistance, so_pointOnRayAtDistance,
      persp_center, norm_eq_len]
    funext a; simp
  rw [c11_pinhole, hpt, pinhole_of_direction hx hy _ _ (div_ne_zero hs hl)]
  rw [hpt]; simp [persp_dir_z, hs, hl]

/-- The documented camera meets the hypotheses of C10/C11, and its pinhole formula is as expected. -/
example : exPersp.fx ≠ 0 ∧ exPersp.fy ≠ 0 ∧
    ((IntrinsicParametersPerspective.ofParams exPersp).cameraToPixel
      (.single ![1, 2, 4])).data 0 = ![665, 530] := by
  refine ⟨by norm_num [exPersp], by norm_num [exPersp], ?_⟩
  rw [c11_pinhole _ _ _ (by simp [Points.single])]
  funext a; fin_cases a <;> simp [pinhole, exPersp, Points.single] <;> norm_num

/-- C12: the orthographic formula; `z` is ignored. -/
theorem c12_formula (p : OrthographicParams ℝ) {n : ℕ} (w : Points CameraFrame ℝ n) (i : Fin n) :
    ((IntrinsicParametersOrthographic.ofParams p).cameraToPixel w).data i =
      orthographic p.sx p.sy p.cx p.cy (w.data i) := by
  rw [ortho_cameraToPixel]
  funext a
  fin_cases a <;> simp [IntrinsicParametersOrthographic.ofParams, orthographic] <;> ring

/-- C12: two points have the same pixel iff they differ only in `z`. -/
theorem c12_same_pixel_iff (p : OrthographicParams ℝ) (hx : p.sx ≠ 0) (hy : p.sy ≠ 0) {n : ℕ}
    (w : Points CameraFrame ℝ n) (i j : Fin n) :
    ((IntrinsicParametersOrthographic.ofParams p).cameraToPixel w).data i =
        ((IntrinsicParametersOrthographic.ofParams p).cameraToPixel w).data j ↔
      w.data i 0 = w.data j 0 ∧ w.data i 1 = w.data j 1 := by
  rw [c12_formula, c12_formula]
  constructor
  · intro h
    have h0 := congrFun h 0
    have h1 := congrFun h 1
    simp only [orthographic, Matrix.cons_val] at h0 h1
    exact ⟨mul_left_cancel₀ hx (by linarith), mul_left_cancel₀ hy (by linarith)⟩
  · rintro ⟨h0, h1⟩
    simp only [orthographic, h0, h1]

theorem ortho_of_ray {p : OrthographicParams ℝ} (hx : p.sx ≠ 0) (hy : p.sy ≠ 0) {n : ℕ}
    (px : Pixels ℝ n) (i : Fin n) (t : ℝ) :
    orthographic p.sx p.sy p.cx p.cy
        (((IntrinsicParametersOrthographic.ofParams p).pixelToCamera px).data i + t • ![0, 0, 1]) =
      px.data i := by
  rw [ortho_pixelToCamera]
  funext a
  fin_cases a <;> simp [orthographic, IntrinsicParametersOrthographic.ofParams] <;> field_simp <;>
    ring

theorem ortho_direction (p : OrthographicParams ℝ) {n : ℕ} (px : Pixels ℝ n) :
    ((IntrinsicParametersOrthographic.ofParams p).pixelToCamera px).bundleType.direction =
      ![0, 0, 1] := by
  rw [ortho_pixelToCamera]; rfl

/-- C12: round trip through any point `centre + t * direction` of the ray. -/
theorem c12_roundtrip_any_point (p : OrthographicParams ℝ) (hx : p.sx ≠ 0) (hy : p.sy ≠ 0) {n : ℕ}
    (px : Pixels ℝ n) (t : Fin n → ℝ) :
    (IntrinsicParametersOrthographic.ofParams p).cameraToPixel
      ⟨fun i => ((IntrinsicParametersOrthographic.ofParams p).pixelToCamera px).centers i +
        t i • ((IntrinsicParametersOrthographic.ofParams p).pixelToCamera px).directions i⟩ = px := by
  ext1; funext i
  rw [c12_formula]
  simp only [RayBundle.centers, RayBundle.directions, Bundle.centers, Bundle.directions, sd_centers,
    sd_directions, ortho_direction]
  exact ortho_of_ray hx hy px i (t i)

/-- C12: round trip through `point_on_ray` and `point_on_ray_at_distance` (any distance). -/
theorem c12_roundtrip (p : OrthographicParams ℝ) (hx : p.sx ≠ 0) (hy : p.sy ≠ 0) {n : ℕ}
    (px : Pixels ℝ n) (s : ℝ) :
    (IntrinsicParametersOrthographic.ofParams p).cameraToPixel
      ((IntrinsicParametersOrthographic.ofParams p).pixelToCamera px).pointOnRay = px ∧
    (IntrinsicParametersOrthographic.ofParams p).cameraToPixel
      (((IntrinsicParametersOrthographic.ofParams p).pixelToCamera px).pointOnRayAtDistance s) =
      px := by
  constructor
  · ext1; funext i
    rw [c12_formula]
    simp only [RayBundle.pointOnRay, Bundle.pointOnRay, sd_pointOnRay, ortho_direction]
    rw [← ortho_of_ray hx hy px i 1]; congr 1; funext a; simp; ring
  · ext1; funext i
    rw [c12_formula]
    simp only [RayBundle.pointOnRayAtDistance, Bundle.pointOnRayAtDistance, sd_pointOnRayAtDistance,
      ortho_direction]
    rw [← ortho_of_ray hx hy px i (s / V3.norm (![0, 0, 1] : V3 ℝ))]; congr 1; funext a
    simp only [Pi.add_apply, Pi.smul_apply, smul_eq_mul]; ring

example : exOrtho.sx ≠ 0 ∧ exOrtho.sy ≠ 0 ∧
    ((IntrinsicParametersOrthographic.ofParams exOrtho).cameraToPixel
      (.single ![1, 2, 4])).data 0 = ![110, 260] := by
  refine ⟨by norm_num [exOrtho], by norm_num [exOrtho], ?_⟩
  rw [c12_formula]
  funext a; fin_cases a <;> norm_num [orthographic, exOrtho, Points.single]

end CamGeom
