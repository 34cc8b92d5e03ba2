import Verif.Props.SpecialValues
import Verif.Props.InvalidRays
import Verif.Lemmas.RotationToQuat

/-!
# C74: a view that does not determine a camera is never silently finite

Every scalar type with IEEE special values (`f32`, `f64`), whatever its precision.
-/

namespace CamGeom
open ExtrinsicParameters

variable {R : Type} [Scalar R]

/-- No component of the quaternion is finite. -/
def Quat.NoneFinite (fc : Ieee R) (q : Quat R) : Prop :=
  ¬ fc.isFinite q.w ∧ ¬ fc.isFinite q.i ∧ ¬ fc.isFinite q.j ∧ ¬ fc.isFinite q.k

/-- Some component of the quaternion is not finite. -/
def Quat.SomeNotFinite (fc : Ieee R) (q : Quat R) : Prop :=
  ¬ fc.isFinite q.w ∨ ¬ fc.isFinite q.i ∨ ¬ fc.isFinite q.j ∨ ¬ fc.isFinite q.k

theorem sum4_not_finite (fc : Ieee R) {a b c d : R}
    (h : ¬ fc.isFinite a ∨ ¬ fc.isFinite b ∨ ¬ fc.isFinite c ∨ ¬ fc.isFinite d) :
    ¬ fc.isFinite (a - b - c - d) ∧ ¬ fc.isFinite (a + b + c - d) ∧ ¬ fc.isFinite (a - b + c + d) ∧
      ¬ fc.isFinite (a + b - c + d) := by
  rcases h with h | h | h | h
  · exact ⟨fc.sub_inf_left (fc.sub_inf_left (fc.sub_inf_left h)),
      fc.sub_inf_left (fc.add_inf_left (fc.add_inf_left h)),
      fc.add_inf_left (fc.add_inf_left (fc.sub_inf_left h)),
      fc.add_inf_left (fc.sub_inf_left (fc.add_inf_left h))⟩
  · exact ⟨fc.sub_inf_left (fc.sub_inf_left (fc.sub_inf_right h)),
      fc.sub_inf_left (fc.add_inf_left (fc.add_inf_right h)),
      fc.add_inf_left (fc.add_inf_left (fc.sub_inf_right h)),
      fc.add_inf_left (fc.sub_inf_left (fc.add_inf_right h))⟩
  · exact ⟨fc.sub_inf_left (fc.sub_inf_right h), fc.sub_inf_left (fc.add_inf_right h),
      fc.add_inf_left (fc.add_inf_right h), fc.add_inf_left (fc.sub_inf_right h)⟩
  · exact ⟨fc.sub_inf_right h, fc.sub_inf_right h, fc.add_inf_right h, fc.add_inf_right h⟩

/-- A product of quaternions with a non-finite component in one factor has no finite component. -/
theorem quat_mul_noneFinite (fc : Ieee R) {a b : Quat R}
    (h : a.SomeNotFinite fc ∨ b.SomeNotFinite fc) : (a.mul b).NoneFinite fc := by
  have l := @Ieee.mul_inf_left R _ fc
  have r := @Ieee.mul_inf_right R _ fc
  refine ⟨(sum4_not_finite fc ?_).1, (sum4_not_finite fc ?_).2.1, (sum4_not_finite fc ?_).2.2.1,
    (sum4_not_finite fc ?_).2.2.2⟩ <;>
  · rcases h with (h | h | h | h) | (h | h | h | h) <;> simp [l h, r h]

theorem inverse_noneFinite (fc : Ieee R) {q : Quat R} (h : q.NoneFinite fc) :
    q.inverse.NoneFinite fc :=
  ⟨h.1, fc.neg_inf h.2.1, fc.neg_inf h.2.2.1, fc.neg_inf h.2.2.2⟩

theorem inverse_someNotFinite (fc : Ieee R) {q : Quat R} (h : q.SomeNotFinite fc) :
    q.inverse.SomeNotFinite fc := by
  rcases h with h | h | h | h
  · exact .inl h
  · exact .inr (.inl (fc.neg_inf h))
  · exact .inr (.inr (.inl (fc.neg_inf h)))
  · exact .inr (.inr (.inr (fc.neg_inf h)))

/-- A quaternion without finite components sends no vector to anything finite. -/
theorem rotate_noneFinite (fc : Ieee R) {q : Quat R} (h : q.NoneFinite fc) (v : V3 R) (a : Fin 3) :
    ¬ fc.isFinite (q.rotate v a) := by
  obtain ⟨hw, -, -, -⟩ := h
  exact fc.add_inf_left (fc.add_inf_left (fc.mul_inf_right hw))

theorem toRotationMatrix_noneFinite (fc : Ieee R) {q : Quat R} (h : q.NoneFinite fc) (a b : Fin 3) :
    ¬ fc.isFinite (q.toRotationMatrix a b) := by
  obtain ⟨hw, hi, hj, hk⟩ := h
  have l : ∀ {x : R} (y z : R), ¬ fc.isFinite x → ¬ fc.isFinite (x * y * z) :=
    fun y z hx => fc.mul_inf_left (fc.mul_inf_left hx)
  have s : ∀ {x : R}, ¬ fc.isFinite x → ¬ fc.isFinite (x * x) := fun hx => fc.mul_inf_left hx
  fin_cases a <;> fin_cases b
  · exact fc.sub_inf_right (s hk)
  · exact fc.sub_inf_left (l _ _ hi)
  · exact fc.add_inf_left (l _ _ hw)
  · exact fc.add_inf_left (l _ _ hw)
  · exact fc.sub_inf_right (s hk)
  · exact fc.sub_inf_left (l _ _ hj)
  · exact fc.sub_inf_left (l _ _ hi)
  · exact fc.add_inf_left (l _ _ hw)
  · exact fc.add_inf_right (s hk)

/-- Nothing a camera pose reports is finite, apart from the camera centre it was given: neither the pose,
nor the rotation, the translation or the axes, nor any point mapped through it. -/
structure NothingFinite (fc : Ieee R) (e : ExtrinsicParameters R) : Prop where
  pose_rotation : e.pose.rotation.NoneFinite fc
  rotation : ∀ a b, ¬ fc.isFinite (e.rotation a b)
  translation : ∀ a, ¬ fc.isFinite (e.translation a)
  matrix : ∀ a b, ¬ fc.isFinite (e.matrix a b)
  forward : ∀ a, ¬ fc.isFinite (e.forward a)
  up : ∀ a, ¬ fc.isFinite (e.up a)
  right : ∀ a, ¬ fc.isFinite (e.right a)
  world_to_camera : ∀ {n : ℕ} (w : Points WorldFrame R n) i a,
    ¬ fc.isFinite ((e.worldToCamera w).data i a)
  camera_to_world : ∀ {n : ℕ} (w : Points CameraFrame R n) i a,
    ¬ fc.isFinite ((e.cameraToWorld w).data i a)

theorem nothingFinite (fc : Ieee R) {q : Quat R} (h : q.NoneFinite fc) (c : V3 R) :
    NothingFinite fc (fromRotationAndCamcenter q c) := by
  have hr := toRotationMatrix_noneFinite fc h
  have ht : ∀ a, ¬ fc.isFinite ((fromRotationAndCamcenter q c).translation a) := fun a =>
    fc.neg_inf (fc.add_inf_left (fc.add_inf_left (fc.mul_inf_left (hr a 0))))
  have hl : ∀ (v : V3 R) a, ¬ fc.isFinite ((fromRotationAndCamcenter q c).lookdir v a) := fun v a =>
    fc.div_inf_left (fc.sub_inf_left (fc.add_inf_left (rotate_noneFinite fc (inverse_noneFinite fc h) v a)))
  refine ⟨h, hr, ht, ?_, hl _, hl _, hl _, ?_, ?_⟩
  · intro a b
    have h2 : ∀ a, ¬ fc.isFinite ((fromRotationAndCamcenter q c).matrix a 3) := by
      intro a; fin_cases a <;> exact ht _
    fin_cases b
    · fin_cases a; exacts [hr 0 0, hr 1 0, hr 2 0]
    · fin_cases a; exacts [hr 0 1, hr 1 1, hr 2 1]
    · fin_cases a; exacts [hr 0 2, hr 1 2, hr 2 2]
    · exact h2 a
  · intro n w i a
    rw [worldToCamera_data]
    exact fc.add_inf_left (rotate_noneFinite fc h _ _)
  · intro n w i a
    rw [cameraToWorld_data]
    exact fc.add_inf_left (rotate_noneFinite fc (inverse_noneFinite fc h) _ _)

/-- C74: a camera whose pose reports nothing finite has no finite pixel, ray direction or camera matrix
entry. -/
theorem c74_perspective {fc : Ieee R} {q : Quat R} {c : V3 R}
    (h : NothingFinite fc (fromRotationAndCamcenter q c)) (p : PerspectiveParams R) :
    let cam := Camera.mk (IntrinsicParametersPerspective.ofParams p) (fromRotationAndCamcenter q c)
    (∀ {n : ℕ} (w : Points WorldFrame R n) i a, fc.isNan ((cam.worldToPixel w).data i a)) ∧
    (∀ {n : ℕ} (px : Pixels R n) i a, ¬ fc.isFinite ((cam.pixelToWorld px).directions i a)) ∧
    (∀ a b, ¬ fc.isFinite (cam.asCameraMatrix a b)) := by
  refine ⟨fun w i a => c45_persp_camera_to_pixel fc p _ i (h.world_to_camera w i 0) a, ?_, ?_⟩
  · intro n px i a
    simp only [Camera.pixelToWorld, IntrinsicParameters.pixelToCamera, rayCameraToWorld,
      RayBundle.toPose, Bundle.toPose, so_toPose, RayBundle.directions, Bundle.directions,
      so_directions]
    exact rotate_noneFinite fc (inverse_noneFinite fc h.pose_rotation) _ _
  · intro a b
    have hm : ∀ a b, ¬ fc.isFinite (Mat.mul3 (IntrinsicParametersPerspective.ofParams
        p).asIntrinsicsMatrix (fromRotationAndCamcenter q c).cache.qt a b) := fun a b =>
      fc.add_inf_left (fc.add_inf_left (fc.mul_inf_right (h.matrix 0 b)))
    unfold Camera.asCameraMatrix
    dsimp only
    split
    · exact fc.div_inf_left (fc.neg_inf (hm a b))
    · exact fc.div_inf_left (hm a b)

/-- C74, orthographic cameras. -/
theorem c74_orthographic {fc : Ieee R} {q : Quat R} {c : V3 R}
    (h : NothingFinite fc (fromRotationAndCamcenter q c)) (p : OrthographicParams R) :
    let cam := Camera.mk (IntrinsicParametersOrthographic.ofParams p) (fromRotationAndCamcenter q c)
    (∀ {n : ℕ} (w : Points WorldFrame R n) i a, ¬ fc.isFinite ((cam.worldToPixel w).data i a)) ∧
    (∀ {n : ℕ} (px : Pixels R n) i a, ¬ fc.isFinite ((cam.pixelToWorld px).directions i a) ∧
      ¬ fc.isFinite ((cam.pixelToWorld px).centers i a)) := by
  refine ⟨fun w i a => ?_, fun px i a => ⟨?_, ?_⟩⟩
  · have h := h.world_to_camera w i
    simp only [Camera.worldToPixel, IntrinsicParameters.cameraToPixel, ortho_cameraToPixel]
    fin_cases a
    · exact fc.add_inf_left (fc.mul_inf_left (h 0))
    · exact fc.add_inf_left (fc.mul_inf_left (h 1))
  · simp only [Camera.pixelToWorld, IntrinsicParameters.pixelToCamera, rayCameraToWorld,
      RayBundle.toPose, Bundle.toPose, sd_toPose, RayBundle.directions, Bundle.directions,
      sd_directions]
    exact rotate_noneFinite fc (inverse_noneFinite fc h.pose_rotation) _ _
  · simp only [Camera.pixelToWorld, IntrinsicParameters.pixelToCamera, rayCameraToWorld,
      RayBundle.toPose, Bundle.toPose, sd_toPose, RayBundle.centers, Bundle.centers,
      sd_centers]
    exact fc.add_inf_left (rotate_noneFinite fc (inverse_noneFinite fc h.pose_rotation) _ _)

theorem axisAngle_someNotFinite (fc : Ieee R) {u : V3 R} {a : Fin 3} (h : ¬ fc.isFinite (u a)) (t : R) :
    (Quat.fromAxisAngle u t).SomeNotFinite fc := by
  fin_cases a
  · exact .inr (.inl (fc.mul_inf_left h))
  · exact .inr (.inr (.inl (fc.mul_inf_left h)))
  · exact .inr (.inr (.inr (fc.mul_inf_left h)))

/-- C74: if the viewing direction `lookat - camcenter` is zero (the camera looks at its own centre), or
has a NaN or infinite component (as it has when `lookat` or `camcenter` does), or its length underflows
to zero, then nothing about the pose of `from_view` is finite, whatever the up vector and however a
rotation matrix is converted to a quaternion. -/
theorem c74_no_direction (fc : Ieee R) (na : Linalg R) (camcenter lookat up : V3 R)
    (h : (∀ a, fc.isZero (lookat a - camcenter a)) ∨ (∃ a, ¬ fc.isFinite (lookat a - camcenter a)) ∨
      fc.isZero (V3.norm (V3.sub lookat camcenter))) :
    NothingFinite fc (fromView na camcenter lookat up) := by
  have hu : ∃ a, ¬ fc.isFinite (V3.normalize (V3.sub lookat camcenter) a) := by
    rcases h with h | h | h
    · obtain ⟨a, ha⟩ := normalize_nan fc (V3.sub lookat camcenter) (.inl h)
      exact ⟨a, fc.nan_not_finite ha⟩
    · obtain ⟨a, ha⟩ := normalize_nan fc (V3.sub lookat camcenter) (.inr h)
      exact ⟨a, fc.nan_not_finite ha⟩
    · exact ⟨0, fc.div_zero h⟩
  obtain ⟨a, ha⟩ := hu
  exact nothingFinite fc (quat_mul_noneFinite fc (.inr (axisAngle_someNotFinite fc ha _))) _

/-- C74: coinciding camera centre and target, stated for the arguments. -/
theorem c74_looks_at_itself (fc : Ieee R) (hz : fc.Zeros) (na : Linalg R) (camcenter up : V3 R) :
    NothingFinite fc (fromView na camcenter camcenter up) := by
  by_cases h : ∃ a, ¬ fc.isFinite (camcenter a)
  · obtain ⟨a, ha⟩ := h
    exact c74_no_direction fc na _ _ _ (.inr (.inl ⟨a, fc.sub_inf_left ha⟩))
  · push Not at h
    exact c74_no_direction fc na _ _ _ (.inl fun a => hz.sub_self (h a))

/-- C74: a NaN or infinity in the camera centre or in the target. -/
theorem c74_not_finite_argument (fc : Ieee R) (na : Linalg R) (camcenter lookat up : V3 R)
    (h : (∃ a, ¬ fc.isFinite (camcenter a)) ∨ ∃ a, ¬ fc.isFinite (lookat a)) :
    NothingFinite fc (fromView na camcenter lookat up) := by
  rcases h with ⟨a, ha⟩ | ⟨a, ha⟩
  · exact c74_no_direction fc na _ _ _ (.inr (.inl ⟨a, fc.sub_inf_right ha⟩))
  · exact c74_no_direction fc na _ _ _ (.inr (.inl ⟨a, fc.sub_inf_left ha⟩))

/-- A matrix with a non-finite diagonal entry has a quaternion with a non-finite component. -/
theorem shepperd_someNotFinite (fc : Ieee R) {m : Mat 3 3 R}
    (h : ¬ fc.isFinite (m 0 0) ∨ ¬ fc.isFinite (m 1 1) ∨ ¬ fc.isFinite (m 2 2)) :
    (shepperd m).SomeNotFinite fc := by
  have den : ∀ {x : R}, ¬ fc.isFinite x →
      ¬ fc.isFinite (Scalar.lit (1 / 4) * (Scalar.sqrt x * Scalar.lit 2)) := fun hx =>
    fc.mul_inf_right (fc.mul_inf_left (fc.sqrt_inf hx))
  unfold shepperd
  dsimp only
  split
  · refine .inl (den (fc.add_inf_left ?_))
    rcases h with h | h | h
    · exact fc.add_inf_left (fc.add_inf_left h)
    · exact fc.add_inf_left (fc.add_inf_right h)
    · exact fc.add_inf_right h
  · split
    · refine .inr (.inl (den ?_))
      rcases h with h | h | h
      · exact fc.sub_inf_left (fc.sub_inf_left (fc.add_inf_right h))
      · exact fc.sub_inf_left (fc.sub_inf_right h)
      · exact fc.sub_inf_right h
    · split
      · refine .inr (.inr (.inl (den ?_)))
        rcases h with h | h | h
        · exact fc.sub_inf_left (fc.sub_inf_right h)
        · exact fc.sub_inf_left (fc.sub_inf_left (fc.add_inf_right h))
        · exact fc.sub_inf_right h
      · refine .inr (.inr (.inr (den ?_)))
        rcases h with h | h | h
        · exact fc.sub_inf_left (fc.sub_inf_right h)
        · exact fc.sub_inf_right h
        · exact fc.sub_inf_left (fc.sub_inf_left (fc.add_inf_right h))

/-- If the x axis is not finite in its first or third component, or the z axis is not in its third, no
component of the pose is finite. -/
theorem face_nothingFinite (fc : Ieee R) {na : Linalg R} (hna : na.fromRotationMatrix = shepperd)
    (camcenter lookat up : V3 R)
    (h : let z := V3.normalize (V3.normalize (V3.sub lookat camcenter))
      let x := V3.normalize (V3.cross up z)
      ¬ fc.isFinite (x 0) ∨ ¬ fc.isFinite (x 2) ∨ ¬ fc.isFinite (z 2)) :
    NothingFinite fc (fromView na camcenter lookat up) := by
  refine nothingFinite fc (quat_mul_noneFinite fc (.inl ?_)) _
  unfold lookAtLh
  rw [hna]
  refine inverse_someNotFinite fc (shepperd_someNotFinite fc ?_)
  rcases h with h | h | h
  · exact .inl h
  · exact .inr (.inl (fc.sub_inf_right (fc.mul_inf_right h)))
  · exact .inr (.inr h)

/-- C74: the up vector has a NaN or infinite component. -/
theorem c74_up_not_finite (fc : Ieee R) {na : Linalg R} (hna : na.fromRotationMatrix = shepperd)
    (camcenter lookat up : V3 R) (h : ∃ a, ¬ fc.isFinite (up a)) :
    NothingFinite fc (fromView na camcenter lookat up) := by
  obtain ⟨a, ha⟩ := h
  set z := V3.normalize (V3.normalize (V3.sub lookat camcenter)) with hz
  have hc : ¬ fc.isFinite (V3.cross up z 0) ∨ ¬ fc.isFinite (V3.cross up z 2) := by
    fin_cases a
    · exact .inr (fc.sub_inf_left (fc.mul_inf_left ha))
    · exact .inl (fc.sub_inf_left (fc.mul_inf_left ha))
    · exact .inl (fc.sub_inf_right (fc.mul_inf_left ha))
  apply face_nothingFinite fc hna
  rcases hc with h | h
  · exact .inl (fc.div_inf_left h)
  · exact .inr (.inl (fc.div_inf_left h))

/-- C74: the up vector is parallel to the viewing direction, in the sense that the computed cross product
has zero length. -/
theorem c74_up_parallel (fc : Ieee R) {na : Linalg R} (hna : na.fromRotationMatrix = shepperd)
    (camcenter lookat up : V3 R)
    (h : fc.isZero (V3.norm (V3.cross up
      (V3.normalize (V3.normalize (V3.sub lookat camcenter)))))) :
    NothingFinite fc (fromView na camcenter lookat up) :=
  face_nothingFinite fc hna _ _ _ (.inl (fc.div_zero h))

theorem norm_zero_of (fc : Ieee R) {v : V3 R} (h : ∀ a, fc.isZero (v a)) : fc.isZero (V3.norm v) := by
  have h1 : ∀ a, fc.isZero (v a * v a) := fun a => fc.zero_mul (h a) (fc.zero_finite (h a))
  exact fc.sqrt_zero (fc.zero_add (fc.zero_add (h1 0) (h1 1)) (h1 2))

/-- C74: the zero vector as up direction. -/
theorem c74_up_zero (fc : Ieee R) (hz : fc.Zeros) {na : Linalg R} (hna : na.fromRotationMatrix = shepperd)
    (camcenter lookat up : V3 R) (h : ∀ a, fc.isZero (up a)) :
    NothingFinite fc (fromView na camcenter lookat up) := by
  set z := V3.normalize (V3.normalize (V3.sub lookat camcenter)) with hzz
  by_cases hf : ∀ a, fc.isFinite (z a)
  · apply c74_up_parallel fc hna
    have m : ∀ a b, fc.isZero (up a * z b) := fun a b => fc.zero_mul (h a) (hf b)
    apply norm_zero_of
    intro a
    fin_cases a <;> exact hz.zero_sub (m _ _) (m _ _)
  · push Not at hf
    obtain ⟨a, ha⟩ := hf
    have hx : ¬ fc.isFinite (V3.cross up z 0) ∨ ¬ fc.isFinite (V3.cross up z 2) := by
      fin_cases a
      · exact .inr (fc.sub_inf_right (fc.mul_inf_right ha))
      · exact .inr (fc.sub_inf_left (fc.mul_inf_right ha))
      · exact .inl (fc.sub_inf_left (fc.mul_inf_right ha))
    apply face_nothingFinite fc hna
    rcases hx with h | h
    · exact .inl (fc.div_inf_left h)
    · exact .inr (.inl (fc.div_inf_left h))

/-- C74: looking straight along a coordinate axis with that axis as up direction, for example straight
down with `up = (0, 0, 1)`: whatever the distances, nothing of the pose is finite. -/
theorem c74_along_axis (fc : Ieee R) (hz : fc.Zeros) {na : Linalg R}
    (hna : na.fromRotationMatrix = shepperd) (camcenter lookat up : V3 R) (k : Fin 3)
    (hd : ∀ a, a ≠ k → lookat a = camcenter a) (hu : ∀ a, a ≠ k → fc.isZero (up a)) :
    NothingFinite fc (fromView na camcenter lookat up) := by
  by_cases hcf : ∃ a, ¬ fc.isFinite (camcenter a)
  · exact c74_not_finite_argument fc na _ _ _ (.inl hcf)
  push Not at hcf
  by_cases huf : ∃ a, ¬ fc.isFinite (up a)
  · exact c74_up_not_finite fc hna _ _ _ huf
  push Not at huf
  have hd0 : ∀ a, a ≠ k → fc.isZero (V3.sub lookat camcenter a) := fun a ha => by
    change fc.isZero (lookat a - camcenter a)
    rw [hd a ha]
    exact hz.sub_self (hcf a)
  set d := V3.sub lookat camcenter with hdd
  by_cases hu1 : ∃ a, ¬ fc.isFinite (V3.normalize d a)
  · obtain ⟨a, ha⟩ := hu1
    exact nothingFinite fc (quat_mul_noneFinite fc (.inr (axisAngle_someNotFinite fc ha _))) _
  push Not at hu1
  -- the unit direction: zeros off the axis
  have step : ∀ v : V3 R, (∀ a, a ≠ k → fc.isZero (v a)) → (∀ a, fc.isFinite (V3.normalize v a)) →
      ∀ a, a ≠ k → fc.isZero (V3.normalize v a) := by
    intro v hv hf a ha
    refine hz.zero_div (hv a ha) (fun h => fc.div_zero h (hf a)) fun h => ?_
    exact fc.nan_not_finite (fc.div_nan_right h) (hf a)
  have hu2 := step d hd0 hu1
  set u := V3.normalize d with huu
  set z := V3.normalize u with hzz
  by_cases hzf : ∀ a, fc.isFinite (z a)
  · have hz2 := step u hu2 hzf
    apply c74_up_parallel fc hna
    have m : ∀ a b, a ≠ k ∨ b ≠ k → fc.isZero (up a * z b) := by
      intro a b h
      rcases h with h | h
      · exact fc.zero_mul (hu a h) (hzf b)
      · exact fc.mul_zero (huf a) (hz2 b h)
    have ne : ∀ a b : Fin 3, a ≠ b → a ≠ k ∨ b ≠ k := by
      intro a b hab
      by_contra h
      push Not at h
      exact hab (h.1.trans h.2.symm)
    apply norm_zero_of
    intro a
    fin_cases a <;>
      exact hz.zero_sub (m _ _ (ne _ _ (by decide))) (m _ _ (ne _ _ (by decide)))
  · push Not at hzf
    obtain ⟨a, ha⟩ := hzf
    have hx : ¬ fc.isFinite (V3.cross up z 0) ∨ ¬ fc.isFinite (V3.cross up z 2) := by
      fin_cases a
      · exact .inr (fc.sub_inf_right (fc.mul_inf_right ha))
      · exact .inr (fc.sub_inf_left (fc.mul_inf_right ha))
      · exact .inl (fc.sub_inf_left (fc.mul_inf_right ha))
    apply face_nothingFinite fc hna
    rcases hx with h | h
    · exact .inl (fc.div_inf_left h)
    · exact .inr (.inl (fc.div_inf_left h))

/-- C74: camera centre and target so far apart that the length of the viewing direction overflows. -/
theorem c74_distance_overflows (fc : Ieee R) (hz : fc.Zeros) {na : Linalg R}
    (hna : na.fromRotationMatrix = shepperd) (camcenter lookat up : V3 R)
    (h : ¬ fc.isFinite (V3.norm (V3.sub lookat camcenter))) :
    NothingFinite fc (fromView na camcenter lookat up) := by
  set d := V3.sub lookat camcenter with hdd
  by_cases hu1 : ∃ a, ¬ fc.isFinite (V3.normalize d a)
  · obtain ⟨a, ha⟩ := hu1
    exact nothingFinite fc (quat_mul_noneFinite fc (.inr (axisAngle_someNotFinite fc ha _))) _
  push Not at hu1
  have hn : ¬ fc.isNan (V3.norm d) := fun hn => fc.nan_not_finite (fc.div_nan_right hn) (hu1 0)
  have hdf : ∀ a, fc.isFinite (d a) := fun a => by
    by_contra ha
    exact fc.div_inf_left ha (hu1 a)
  have hu0 : ∀ a, fc.isZero (V3.normalize d a) := fun a => hz.div_inf (hdf a) h hn
  exact face_nothingFinite fc hna _ _ _ (.inr (.inr (fc.div_zero (norm_zero_of fc hu0))))

/-- Non-vacuity: a camera at (1, 2, 10) looking straight down at (1, 2, 0) with up = (0, 0, 1), in
extended reals. -/
example : NothingFinite XR.ieee (fromView ⟨fun m => (m, m), shepperd⟩
    ![.num 1, .num 2, .num 10] ![.num 1, .num 2, .num 0] ![.num 0, .num 0, .num 1]) := by
  refine c74_along_axis XR.ieee XR.zeros rfl _ _ _ 2 ?_ ?_
  · intro a ha; fin_cases a
    · rfl
    · rfl
    · exact absurd rfl ha
  · intro a ha; fin_cases a
    · exact (rfl : (0 : ℝ) = 0)
    · exact (rfl : (0 : ℝ) = 0)
    · exact absurd rfl ha

end CamGeom
