import Verif.Props.SpecialValues

/-!
# C75: singular and non-finite projection matrices

Every scalar type with IEEE special values, every linear algebra routine.
-/

namespace CamGeom
open ExtrinsicParameters

variable {R : Type} [Scalar R]

theorem det3_not_finite (fc : Ieee R) (m : Mat 3 3 R) {a b : Fin 3} (h : ¬ fc.isFinite (m a b)) :
    ¬ fc.isFinite (Mat.det3 m) := by
  have l := @Ieee.mul_inf_left R _ fc
  have r := @Ieee.mul_inf_right R _ fc
  have s1 := @Ieee.sub_inf_left R _ fc
  have s2 := @Ieee.sub_inf_right R _ fc
  have first : ∀ {x y z : R}, ¬ fc.isFinite x → ¬ fc.isFinite (x - y + z) := fun h =>
    fc.add_inf_left (fc.sub_inf_left h)
  have third : ∀ {x y z : R}, ¬ fc.isFinite z → ¬ fc.isFinite (x - y + z) := fun h => fc.add_inf_right h
  unfold Mat.det3
  dsimp only
  fin_cases a <;> fin_cases b
  · exact first (l h)
  · exact fc.add_inf_left (s2 (l h))
  · exact third (l h)
  · exact third (r (s1 (l h)))
  · exact first (r (s1 (l h)))
  · exact first (r (s2 (r h)))
  · exact third (r (s2 (l h)))
  · exact first (r (s2 (l h)))
  · exact first (r (s1 (r h)))

theorem camCenter_not_finite (fc : Ieee R) (P : Mat 3 4 R)
    (h : fc.isZero (Mat.det3 (Mat.removeColumn P 3)) ∨ ∃ a b, ¬ fc.isFinite (P a b)) :
    ∃ j, ¬ fc.isFinite (Camera.pmat2camCenter P j) := by
  rcases h with h | ⟨a, b, h⟩
  · exact ⟨0, fc.div_zero (fc.zero_neg h)⟩
  · have key : ∀ (c : Fin 4) (j : Fin 3), c.succAbove j = b →
        ¬ fc.isFinite (Mat.det3 (Mat.removeColumn P c)) := fun c j hj =>
      det3_not_finite fc _ (a := a) (b := j) (by
        change ¬ fc.isFinite (P a (c.succAbove j)); rw [hj]; exact h)
    fin_cases b
    · exact ⟨1, fc.div_inf_left (fc.neg_inf (key 1 0 rfl))⟩
    · exact ⟨0, fc.div_inf_left (key 0 0 rfl)⟩
    · exact ⟨0, fc.div_inf_left (key 0 1 rfl)⟩
    · exact ⟨0, fc.div_inf_left (key 0 2 rfl)⟩

/-- A camera with a NaN or infinity in its centre has no finite translation and no finite image: nothing it
computes from a point, and no ray origin, is finite. -/
theorem centre_not_finite (fc : Ieee R) (p : PerspectiveParams R) (q : Quat R) (c : V3 R) {j : Fin 3}
    (hj : ¬ fc.isFinite (c j)) :
    let cam := Camera.mk (IntrinsicParametersPerspective.ofParams p) (fromRotationAndCamcenter q c)
    (∀ a, ¬ fc.isFinite (cam.extrinsics.translation a)) ∧
    (∀ {n : ℕ} (w : Points WorldFrame R n) i a,
      ¬ fc.isFinite ((cam.extrinsics.worldToCamera w).data i a)) ∧
    (∀ {n : ℕ} (w : Points CameraFrame R n) i a,
      ¬ fc.isFinite ((cam.extrinsics.cameraToWorld w).data i a)) ∧
    (∀ {n : ℕ} (w : Points WorldFrame R n) i a, fc.isNan ((cam.worldToPixel w).data i a)) ∧
    (∀ {n : ℕ} (px : Pixels R n) i a, ¬ fc.isFinite ((cam.pixelToWorld px).centers i a)) ∧
    (∀ a b, fc.isNan (cam.asCameraMatrix a b)) := by
  intro cam
  have ht : ∀ a, ¬ fc.isFinite (cam.extrinsics.translation a) := by
    intro a
    have hm : ¬ fc.isFinite (q.toRotationMatrix a j * c j) := fc.mul_inf_right hj
    change ¬ fc.isFinite (-(q.toRotationMatrix a 0 * c 0 + q.toRotationMatrix a 1 * c 1 +
      q.toRotationMatrix a 2 * c 2))
    apply fc.neg_inf
    fin_cases j
    · exact fc.add_inf_left (fc.add_inf_left hm)
    · exact fc.add_inf_left (fc.add_inf_right hm)
    · exact fc.add_inf_right hm
  have hti : ∀ a, ¬ fc.isFinite (cam.extrinsics.cache.poseInv.translation a) :=
    rotate_not_finite fc _ _ (b := 0) (fc.neg_inf (ht 0))
  have hw : ∀ {n : ℕ} (w : Points WorldFrame R n) i a,
      ¬ fc.isFinite ((cam.extrinsics.worldToCamera w).data i a) := by
    intro n w i a
    rw [worldToCamera_data]
    exact fc.add_inf_right (ht a)
  refine ⟨ht, hw, ?_, fun w i a => c45_persp_camera_to_pixel fc p _ i (hw w i 0) a, ?_, ?_⟩
  · intro n w i a
    rw [cameraToWorld_data]
    exact fc.add_inf_right (hti a)
  · intro n px i a
    simp only [Camera.pixelToWorld, IntrinsicParameters.pixelToCamera, rayCameraToWorld,
      RayBundle.toPose, Bundle.toPose, so_toPose, RayBundle.centers, Bundle.centers, so_centers]
    exact fc.add_inf_right (hti a)
  · intro a b
    have h23 : fc.isNan (Mat.mul3 (IntrinsicParametersPerspective.ofParams p).asIntrinsicsMatrix
        cam.extrinsics.cache.qt 2 3) :=
      fc.add_nan_left (fc.add_nan_left (fc.zero_mul_inf fc.lit_zero (ht 0)))
    unfold Camera.asCameraMatrix
    dsimp only
    split
    · exact fc.div_nan_right (fc.neg_nan h23)
    · exact fc.div_nan_right h23

/-- C75: if the determinant of the left 3x3 block of the projection matrix is computed as zero, or the
matrix has a NaN or infinite entry, then `from_perspective_matrix` returns a camera without finite
translation, which maps no point to anything finite, every pixel being NaN, whose ray origins are not
finite and whose camera matrix is NaN. -/
theorem c75_singular (fc : Ieee R) (na : Linalg R) (P : Mat 3 4 R)
    (h : fc.isZero (Mat.det3 (Mat.removeColumn P 3)) ∨ ∃ a b, ¬ fc.isFinite (P a b)) :
    ∃ cam, Camera.fromPerspectiveMatrix na P = .ok cam ∧
      (∃ a, ¬ fc.isFinite (cam.extrinsics.camcenter a)) ∧
      (∀ a, ¬ fc.isFinite (cam.extrinsics.translation a)) ∧
      (∀ {n : ℕ} (w : Points WorldFrame R n) i a,
        ¬ fc.isFinite ((cam.extrinsics.worldToCamera w).data i a)) ∧
      (∀ {n : ℕ} (w : Points CameraFrame R n) i a,
        ¬ fc.isFinite ((cam.extrinsics.cameraToWorld w).data i a)) ∧
      (∀ {n : ℕ} (w : Points WorldFrame R n) i a, fc.isNan ((cam.worldToPixel w).data i a)) ∧
      (∀ {n : ℕ} (px : Pixels R n) i a, ¬ fc.isFinite ((cam.pixelToWorld px).centers i a)) ∧
      (∀ a b, fc.isNan (cam.asCameraMatrix a b)) := by
  obtain ⟨j, hj⟩ := camCenter_not_finite fc P h
  obtain ⟨p, q, hcam⟩ : ∃ p q, Camera.fromPerspectiveMatrix na P = .ok
      (Camera.mk (IntrinsicParametersPerspective.ofParams p)
        (fromRotationAndCamcenter q (Camera.pmat2camCenter P))) := by
    unfold Camera.fromPerspectiveMatrix Camera.rqDecomposition
    dsimp only
    split <;> exact ⟨_, _, rfl⟩
  exact ⟨_, hcam, ⟨j, hj⟩, centre_not_finite fc p q _ hj⟩

/-- Non-vacuity: a matrix with two equal rows in its left block (singular), in extended reals. -/
example : XR.ieee.isZero (Mat.det3 (Mat.removeColumn
    ![![XR.num 1, .num 2, .num 3, .num 4], ![.num 1, .num 2, .num 3, .num 5],
      ![.num 0, .num 0, .num 1, .num 6]] 3)) := by
  have h : Mat.removeColumn
      ![![XR.num 1, .num 2, .num 3, .num 4], ![.num 1, .num 2, .num 3, .num 5],
      ![.num 0, .num 0, .num 1, .num 6]] 3 =
      ![![.num 1, .num 2, .num 3], ![.num 1, .num 2, .num 3], ![.num 0, .num 0, .num 1]] := by
    funext a b; fin_cases a <;> fin_cases b <;> rfl
  rw [h]
  simp [Mat.det3, XR.mul_def, XR.sub_def, XR.add_def, XR.mul, XR.add, XR.neg, XR.mk, XR.val, XR.neg?, XR.ieee]
  norm_num

end CamGeom
