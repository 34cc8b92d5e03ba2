import Verif.Lemmas.XReal
import Verif.Lemmas.Loops
import Verif.Model.Linearize
import Verif.Spec.Geometry

/-!
# C22, C29, C45, C46: zeros, infinities and NaN

All theorems hold for every scalar type with IEEE special values (`Ieee R`), whatever its precision:
`f32` and `f64` included.
-/

namespace CamGeom
open ExtrinsicParameters

variable {R : Type} [Scalar R]

/-- The last row of the intrinsic matrix picks the third component: the (2,3) entry before
normalization. -/
theorem entry23_zero (fc : Ieee R) (t : V3 R) (h0 : fc.isFinite (t 0))
    (h1 : fc.isFinite (t 1)) (h2 : fc.isZero (t 2)) :
    fc.isZero (Scalar.lit 0 * t 0 + Scalar.lit 0 * t 1 + Scalar.lit 1 * t 2) :=
  fc.zero_add (fc.zero_add (fc.zero_mul fc.lit_zero h0) (fc.zero_mul fc.lit_zero h1))
    (fc.mul_zero fc.lit_one_finite h2)

theorem matrix_col3 (q : Quat R) (c : V3 R) (a : Fin 3) :
    (fromRotationAndCamcenter q c).cache.qt a 3 = (fromRotationAndCamcenter q c).translation a := by
  fin_cases a <;> rfl

/-- C22: if the world origin has camera-frame `z = 0` (the third component of the translation, i.e. of
`world_to_camera` of the origin), then the (2,3) entry of `as_camera_matrix` is NaN. -/
theorem c22_origin_in_principal_plane (fc : Ieee R) (p : PerspectiveParams R) (q : Quat R) (c : V3 R)
    (h0 : fc.isFinite ((fromRotationAndCamcenter q c).translation 0))
    (h1 : fc.isFinite ((fromRotationAndCamcenter q c).translation 1))
    (h2 : fc.isZero ((fromRotationAndCamcenter q c).translation 2)) :
    fc.isNan ((Camera.mk (IntrinsicParametersPerspective.ofParams p)
      (fromRotationAndCamcenter q c)).asCameraMatrix 2 3) := by
  have hz := entry23_zero fc _ h0 h1 h2
  unfold Camera.asCameraMatrix
  simp only [Mat.divScalar]
  split
  · exact fc.zero_div_zero (fc.zero_neg hz) (fc.zero_neg hz)
  · exact fc.zero_div_zero hz hz

theorem translation_of_zero (fc : Ieee R) (q : Quat R) (c : V3 R)
    (hq : ∀ a b, fc.isFinite (q.toRotationMatrix a b)) (hc : ∀ a, fc.isZero (c a)) (a : Fin 3) :
    fc.isZero ((fromRotationAndCamcenter q c).translation a) :=
  fc.zero_neg (fc.zero_add (fc.zero_add (fc.mul_zero (hq a 0) (hc 0)) (fc.mul_zero (hq a 1) (hc 1)))
    (fc.mul_zero (hq a 2) (hc 2)))

/-- C22: a camera located at the world origin, with any finite rotation and any intrinsics, has a NaN
in its camera matrix. -/
theorem c22_camera_at_origin (fc : Ieee R) (p : PerspectiveParams R) (q : Quat R) (c : V3 R)
    (hq : ∀ a b, fc.isFinite (q.toRotationMatrix a b)) (hc : ∀ a, fc.isZero (c a)) :
    fc.isNan ((Camera.mk (IntrinsicParametersPerspective.ofParams p)
      (fromRotationAndCamcenter q c)).asCameraMatrix 2 3) :=
  have ht := translation_of_zero fc q c hq hc
  c22_origin_in_principal_plane fc p q c (fc.zero_finite (ht 0)) (fc.zero_finite (ht 1)) (ht 2)

/-- C22, the other direction: if the third component of the translation is finite and not zero, the
(2,3) entry is exactly 1. -/
theorem c22_otherwise_one (fc : Ieee R) (p : PerspectiveParams R) (q : Quat R) (c : V3 R)
    (h0 : fc.isFinite ((fromRotationAndCamcenter q c).translation 0))
    (h1 : fc.isFinite ((fromRotationAndCamcenter q c).translation 1))
    (h2 : fc.isFinite ((fromRotationAndCamcenter q c).translation 2))
    (hn : ¬ fc.isZero ((fromRotationAndCamcenter q c).translation 2)) :
    (Camera.mk (IntrinsicParametersPerspective.ofParams p)
      (fromRotationAndCamcenter q c)).asCameraMatrix 2 3 = Scalar.lit 1 := by
  have hz : Scalar.lit 0 * (fromRotationAndCamcenter q c).translation 0 +
      Scalar.lit 0 * (fromRotationAndCamcenter q c).translation 1 +
      Scalar.lit 1 * (fromRotationAndCamcenter q c).translation 2 =
        (fromRotationAndCamcenter q c).translation 2 := by
    rw [fc.one_mul h2, fc.zero_add_eq (fc.zero_add (fc.zero_mul fc.lit_zero h0)
      (fc.zero_mul fc.lit_zero h1)) h2 hn]
  have hm : Mat.mul3 (IntrinsicParametersPerspective.ofParams p).asIntrinsicsMatrix
      (fromRotationAndCamcenter q c).cache.qt 2 3 = (fromRotationAndCamcenter q c).translation 2 := hz
  unfold Camera.asCameraMatrix
  simp only [Mat.divScalar]
  split
  · simp only [Mat.neg, hm]
    exact fc.div_self (fc.neg_finite h2) (fc.neg_not_zero hn)
  · simp only [hm]
    exact fc.div_self h2 hn

/-- C29: if the world origin has camera-frame `z = 0`, every entry of every Jacobian is NaN. -/
theorem c29_origin_in_principal_plane (fc : Ieee R) (p : PerspectiveParams R) (q : Quat R) (c : V3 R)
    (h0 : fc.isFinite ((fromRotationAndCamcenter q c).translation 0))
    (h1 : fc.isFinite ((fromRotationAndCamcenter q c).translation 1))
    (h2 : fc.isZero ((fromRotationAndCamcenter q c).translation 2)) (x : Points WorldFrame R 1)
    (a : Fin 2) (b : Fin 3) :
    fc.isNan ((JacobianPerspectiveCache.new (Camera.mk (IntrinsicParametersPerspective.ofParams p)
      (fromRotationAndCamcenter q c))).linearizeAt x a b) := by
  have hz := entry23_zero fc _ h0 h1 h2
  have hm : fc.isNan ((JacobianPerspectiveCache.new (Camera.mk
      (IntrinsicParametersPerspective.ofParams p) (fromRotationAndCamcenter q c))).m 2 3) := by
    unfold JacobianPerspectiveCache.new
    simp only [Mat.divScalar]
    split
    · exact fc.zero_div_zero (fc.zero_neg hz) (fc.zero_neg hz)
    · exact fc.zero_div_zero hz hz
  generalize JacobianPerspectiveCache.new (Camera.mk
      (IntrinsicParametersPerspective.ofParams p) (fromRotationAndCamcenter q c)) = cache at hm ⊢
  have key : ∀ m f n : R, fc.isNan
      (-m * Scalar.powi (cache.m 2 0 * x.data 0 0 + cache.m 2 1 * x.data 0 1 +
        cache.m 2 2 * x.data 0 2 + cache.m 2 3) (-2) * f + n) := fun m f n =>
    fc.add_nan_left (fc.mul_nan_left (fc.mul_nan_right (fc.powi_nan (by decide)
      (fc.add_nan_right hm))))
  fin_cases a <;> fin_cases b <;> exact key _ _ _

/-- C29: a camera located at the world origin. -/
theorem c29_camera_at_origin (fc : Ieee R) (p : PerspectiveParams R) (q : Quat R) (c : V3 R)
    (hq : ∀ a b, fc.isFinite (q.toRotationMatrix a b)) (hc : ∀ a, fc.isZero (c a))
    (x : Points WorldFrame R 1) (a : Fin 2) (b : Fin 3) :
    fc.isNan ((JacobianPerspectiveCache.new (Camera.mk (IntrinsicParametersPerspective.ofParams p)
      (fromRotationAndCamcenter q c))).linearizeAt x a b) :=
  have ht := translation_of_zero fc q c hq hc
  c29_origin_in_principal_plane fc p q c (fc.zero_finite (ht 0)) (fc.zero_finite (ht 1)) (ht 2) x a b

/-- Non-vacuity of C22/C29: identity rotation at the origin, in extended reals. -/
example : (∀ a b, XR.ieee.isFinite (Quat.toRotationMatrix ⟨XR.num 1, .num 0, .num 0, .num 0⟩ a b)) ∧
    ∀ a : Fin 3, XR.ieee.isZero ((fun _ => XR.num 0 : V3 XR) a) := by
  have hadd : ∀ x y, XR.IsFinite x → XR.IsFinite y → XR.IsFinite (x + y) := by
    intro x y; cases x <;> cases y <;> simp [XR.add_def, XR.add]
  have hneg : ∀ x, XR.IsFinite x → XR.IsFinite (XR.neg x) := by
    intro x; cases x <;> simp [XR.neg]
  have hsub : ∀ x y, XR.IsFinite x → XR.IsFinite y → XR.IsFinite (x - y) := fun x y hx hy =>
    hadd x _ hx (hneg y hy)
  have hmul : ∀ x y, XR.IsFinite x → XR.IsFinite y → XR.IsFinite (x * y) := by
    intro x y; cases x <;> cases y <;> simp [XR.mul_def, XR.mul]
  refine ⟨?_, fun a => ?_⟩
  · intro a b
    show XR.IsFinite _
    fin_cases a <;> fin_cases b <;>
      simp only [Quat.toRotationMatrix, Fin.zero_eta, Fin.mk_one, Fin.reduceFinMk, Matrix.cons_val] <;>
      repeat' first
        | apply hadd
        | apply hsub
        | apply hmul
        | apply hneg
        | exact trivial
  · exact (XR.isZero_num 0).2 rfl

/-! ### C45: non-finite input -/

/-- Rotating a vector with a non-finite component gives no finite component at all. -/
theorem rotate_not_finite (fc : Ieee R) (q : Quat R) (v : V3 R) {b : Fin 3}
    (hb : ¬ fc.isFinite (v b)) (a : Fin 3) : ¬ fc.isFinite (q.rotate v a) := by
  have cross1 : ∀ (x y : R) (u : R), ¬ fc.isFinite u → ¬ fc.isFinite ((x * u - y) * Scalar.lit 2) :=
    fun x y u hu => fc.mul_inf_left (fc.sub_inf_left (fc.mul_inf_right hu))
  have cross2 : ∀ (x y : R) (u : R), ¬ fc.isFinite u → ¬ fc.isFinite ((y - x * u) * Scalar.lit 2) :=
    fun x y u hu => fc.mul_inf_left (fc.sub_inf_right (fc.mul_inf_right hu))
  have out : ∀ (t w y z : R), ¬ fc.isFinite t → ¬ fc.isFinite (t * w + y + z) := fun t w y z ht =>
    fc.add_inf_left (fc.add_inf_left (fc.mul_inf_left ht))
  have self : ∀ (y z : R), ¬ fc.isFinite z → ¬ fc.isFinite (y + z) := fun y z hz =>
    fc.add_inf_right hz
  fin_cases a <;> fin_cases b <;>
    simp only [Quat.rotate, V3.add, V3.scale, V3.cross, Quat.vector, Fin.zero_eta, Fin.mk_one,
      Fin.reduceFinMk, Matrix.cons_val] at hb ⊢
  · exact self _ _ hb
  · exact out _ _ _ _ (cross2 _ _ _ hb)
  · exact out _ _ _ _ (cross1 _ _ _ hb)
  · exact out _ _ _ _ (cross1 _ _ _ hb)
  · exact self _ _ hb
  · exact out _ _ _ _ (cross2 _ _ _ hb)
  · exact out _ _ _ _ (cross2 _ _ _ hb)
  · exact out _ _ _ _ (cross1 _ _ _ hb)
  · exact self _ _ hb

variable {n : ℕ}

/-- C45: a world point with a non-finite coordinate has no finite camera coordinate. -/
theorem c45_world_to_camera (fc : Ieee R) (e : ExtrinsicParameters R) (w : Points WorldFrame R n)
    (i : Fin n) {b : Fin 3} (hb : ¬ fc.isFinite (w.data i b)) (a : Fin 3) :
    ¬ fc.isFinite ((e.worldToCamera w).data i a) := by
  rw [worldToCamera_data]
  exact fc.add_inf_left (rotate_not_finite fc _ _ hb a)

/-- C45: a camera point with a non-finite coordinate has no finite world coordinate. -/
theorem c45_camera_to_world (fc : Ieee R) (e : ExtrinsicParameters R) (w : Points CameraFrame R n)
    (i : Fin n) {b : Fin 3} (hb : ¬ fc.isFinite (w.data i b)) (a : Fin 3) :
    ¬ fc.isFinite ((e.cameraToWorld w).data i a) := by
  rw [cameraToWorld_data]
  exact fc.add_inf_left (rotate_not_finite fc _ _ hb a)

/-- C45, perspective: a camera point with a non-finite coordinate has both pixel coordinates NaN. -/
theorem c45_persp_camera_to_pixel (fc : Ieee R) (p : PerspectiveParams R)
    (w : Points CameraFrame R n) (i : Fin n) {b : Fin 3} (hb : ¬ fc.isFinite (w.data i b))
    (a : Fin 2) :
    fc.isNan (((IntrinsicParametersPerspective.ofParams p).cameraToPixel w).data i a) := by
  rw [persp_cameraToPixel]
  set v := w.data i with hv
  have main : fc.isNan (Scalar.lit 0 * v 0 + Scalar.lit 0 * v 1 + Scalar.lit 1 * v 2 +
        Scalar.lit 0 * 1) ∨
      (¬ fc.isFinite (Scalar.lit 0 * v 0 + Scalar.lit 0 * v 1 + Scalar.lit 1 * v 2 +
        Scalar.lit 0 * 1) ∧ ¬ fc.isFinite (v 2)) := by
    fin_cases b
    · left
      exact fc.add_nan_left (fc.add_nan_left (fc.add_nan_left (fc.zero_mul_inf fc.lit_zero hb)))
    · left
      exact fc.add_nan_left (fc.add_nan_left (fc.add_nan_right (fc.zero_mul_inf fc.lit_zero hb)))
    · right
      exact ⟨fc.add_inf_left (fc.add_inf_right (fc.mul_inf_right hb)), hb⟩
  rcases main with h | ⟨h, h2⟩
  · fin_cases a <;> exact fc.div_nan_right h
  · fin_cases a <;>
      exact fc.inf_div_inf (fc.add_inf_left (fc.add_inf_right (fc.mul_inf_right h2))) h

/-- C45, perspective `world_to_pixel`: a world point with a non-finite coordinate gives NaN twice. -/
theorem c45_persp_world_to_pixel (fc : Ieee R) (p : PerspectiveParams R) (e : ExtrinsicParameters R)
    (w : Points WorldFrame R n) (i : Fin n) {b : Fin 3} (hb : ¬ fc.isFinite (w.data i b))
    (a : Fin 2) :
    fc.isNan (((Camera.mk (IntrinsicParametersPerspective.ofParams p) e).worldToPixel w).data i a) :=
  c45_persp_camera_to_pixel fc p _ i (c45_world_to_camera fc e w i hb 0) a

/-- C45, orthographic `world_to_pixel`: no finite pixel coordinate. -/
theorem c45_ortho_world_to_pixel (fc : Ieee R) (p : OrthographicParams R) (e : ExtrinsicParameters R)
    (w : Points WorldFrame R n) (i : Fin n) {b : Fin 3} (hb : ¬ fc.isFinite (w.data i b))
    (a : Fin 2) :
    ¬ fc.isFinite (((Camera.mk (IntrinsicParametersOrthographic.ofParams p) e).worldToPixel
      w).data i a) := by
  have h := c45_world_to_camera fc e w i hb
  simp only [Camera.worldToPixel, IntrinsicParameters.cameraToPixel, ortho_cameraToPixel]
  fin_cases a
  · exact fc.add_inf_left (fc.mul_inf_left (h 0))
  · exact fc.add_inf_left (fc.mul_inf_left (h 1))

/-- C45, perspective: a pixel with a non-finite coordinate gives a world ray whose direction has no
finite component. -/
theorem c45_persp_pixel_to_world (fc : Ieee R) (p : PerspectiveParams R) (e : ExtrinsicParameters R)
    (px : Pixels R n) (i : Fin n) {b : Fin 2} (hb : ¬ fc.isFinite (px.data i b)) (a : Fin 3) :
    ¬ fc.isFinite (((Camera.mk (IntrinsicParametersPerspective.ofParams p) e).pixelToWorld
      px).directions i a) := by
  simp only [Camera.pixelToWorld, IntrinsicParameters.pixelToCamera, rayCameraToWorld,
    RayBundle.toPose, Bundle.toPose, so_toPose, RayBundle.directions, Bundle.directions,
    so_directions, persp_pixelToCamera]
  fin_cases b
  · exact rotate_not_finite fc _ _ (b := 0) (fc.div_inf_left (fc.sub_inf_left (fc.sub_inf_left hb))) a
  · exact rotate_not_finite fc _ _ (b := 1) (fc.div_inf_left (fc.sub_inf_left hb)) a

/-- C45, orthographic: a pixel with a non-finite coordinate gives a world ray whose centre has no
finite component. -/
theorem c45_ortho_pixel_to_world (fc : Ieee R) (p : OrthographicParams R) (e : ExtrinsicParameters R)
    (px : Pixels R n) (i : Fin n) {b : Fin 2} (hb : ¬ fc.isFinite (px.data i b)) (a : Fin 3) :
    ¬ fc.isFinite (((Camera.mk (IntrinsicParametersOrthographic.ofParams p) e).pixelToWorld
      px).centers i a) := by
  simp only [Camera.pixelToWorld, IntrinsicParameters.pixelToCamera, rayCameraToWorld,
    RayBundle.toPose, Bundle.toPose, sd_toPose, RayBundle.centers, Bundle.centers,
    sd_centers, ortho_pixelToCamera]
  fin_cases b
  · exact fc.add_inf_left
      (rotate_not_finite fc _ _ (b := 0) (fc.div_inf_left (fc.sub_inf_left hb)) a)
  · exact fc.add_inf_left
      (rotate_not_finite fc _ _ (b := 1) (fc.div_inf_left (fc.sub_inf_left hb)) a)

/-- Non-vacuity of C45: a NaN is not finite. -/
example : ¬ XR.ieee.isFinite ((![.nan, .num 1, .num 2] : V3 XR) 0) := id

/-! ### C46: degenerate cases give no finite result -/

/-- C46: a point in the principal plane (`z = 0`) has no finite pixel coordinate. -/
theorem c46_principal_plane (fc : Ieee R) (p : PerspectiveParams R) (w : Points CameraFrame R n)
    (i : Fin n) (hx : fc.isFinite (w.data i 0)) (hy : fc.isFinite (w.data i 1))
    (hz : fc.isZero (w.data i 2)) (a : Fin 2) :
    ¬ fc.isFinite (((IntrinsicParametersPerspective.ofParams p).cameraToPixel w).data i a) := by
  rw [persp_cameraToPixel]
  have h : fc.isZero (Scalar.lit 0 * w.data i 0 + Scalar.lit 0 * w.data i 1 +
      Scalar.lit 1 * w.data i 2 + Scalar.lit 0 * 1) :=
    fc.zero_add (fc.zero_add (fc.zero_add (fc.zero_mul fc.lit_zero hx) (fc.zero_mul fc.lit_zero hy))
      (fc.mul_zero fc.lit_one_finite hz)) (fc.zero_mul fc.lit_zero fc.one_finite)
  fin_cases a <;> exact fc.div_zero h

/-- C46: with a zero horizontal (vertical) focal length, which no constructor rejects, pixels map to
directions without finite x (and y) component. -/
theorem c46_zero_focal_length (fc : Ieee R) (p : PerspectiveParams R) (px : Pixels R n) (i : Fin n) :
    (fc.isZero p.fx → ¬ fc.isFinite
      (((IntrinsicParametersPerspective.ofParams p).pixelToCamera px).directions i 0)) ∧
    (fc.isZero p.fy →
      ¬ fc.isFinite
        (((IntrinsicParametersPerspective.ofParams p).pixelToCamera px).directions i 0) ∧
      ¬ fc.isFinite
        (((IntrinsicParametersPerspective.ofParams p).pixelToCamera px).directions i 1)) := by
  simp only [RayBundle.directions, Bundle.directions, so_directions, persp_pixelToCamera]
  refine ⟨fun h => fc.div_zero h, fun h => ⟨?_, fc.div_zero h⟩⟩
  exact fc.div_inf_left (fc.sub_inf_left (fc.sub_inf_right (fc.mul_inf_right (fc.div_zero h))))

/-- C46: with a zero scale of the orthographic model, ray centres are not finite. -/
theorem c46_zero_scale (fc : Ieee R) (p : OrthographicParams R) (px : Pixels R n) (i : Fin n) :
    (fc.isZero p.sx → ¬ fc.isFinite
      (((IntrinsicParametersOrthographic.ofParams p).pixelToCamera px).centers i 0)) ∧
    (fc.isZero p.sy → ¬ fc.isFinite
      (((IntrinsicParametersOrthographic.ofParams p).pixelToCamera px).centers i 1)) := by
  simp only [RayBundle.centers, Bundle.centers, sd_centers, ortho_pixelToCamera]
  exact ⟨fun h => fc.div_zero h, fun h => fc.div_zero h⟩

/-- Non-vacuity of C46: a point in the principal plane. -/
example : XR.ieee.isFinite ((![.num 3, .num 1, .negZero] : V3 XR) 0) ∧
    XR.ieee.isFinite ((![.num 3, .num 1, .negZero] : V3 XR) 1) ∧
    XR.ieee.isZero ((![.num 3, .num 1, .negZero] : V3 XR) 2) := ⟨trivial, trivial, trivial⟩

end CamGeom
