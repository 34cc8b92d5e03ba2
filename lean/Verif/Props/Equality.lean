import Verif.Model.PartialEq
import Verif.Props.SpecialValues
import Verif.Props.CameraFacts

/-!
# C70: what `==` means

For exact arithmetic `==` of poses and cameras decides whether they behave alike; with IEEE special values
a NaN (also one arising in the precomputed part of a pose) makes a value unequal to everything.
-/

namespace CamGeom
open Spec Matrix ExtrinsicParameters

section
variable {R : Type} [Scalar R]

theorem beqVec_iff {n : ℕ} (a b : Fin n → R) : beqVec a b = true ↔ ∀ i, Scalar.beq (a i) (b i) = true := by
  simp [beqVec]

theorem beqMat_iff {m n : ℕ} (a b : Mat m n R) :
    beqMat a b = true ↔ ∀ i j, Scalar.beq (a i j) (b i j) = true := by
  simp [beqMat, beqVec_iff]
end

theorem beq_true_real (a b : ℝ) : Scalar.beq a b = true ↔ a = b := by
  show decide (a = b) = true ↔ _
  simp

theorem beqVec_real {n : ℕ} (a b : Fin n → ℝ) : beqVec a b = true ↔ a = b := by
  simp only [beqVec_iff, beq_true_real, funext_iff]

theorem beqMat_real {m n : ℕ} (a b : Mat m n ℝ) : beqMat a b = true ↔ a = b := by
  simp only [beqMat_iff, beq_true_real]
  exact ⟨fun h => funext fun i => funext fun j => h i j, fun h i j => by rw [h]⟩

/-- The quaternion with all components negated: the same rotation. -/
def Spec.negQuat (q : Quat ℝ) : Quat ℝ := ⟨-q.w, -q.i, -q.j, -q.k⟩

theorem beqQuat_real (p q : Quat ℝ) : beqQuat p q = true ↔ p = q ∨ p = negQuat q := by
  simp only [beqQuat, Bool.or_eq_true, beqVec_real, Quat.ext_iff, negQuat, funext_iff, Fin.forall_fin_succ]
  simp
  tauto

theorem negQuat_rotation (q : Quat ℝ) : (negQuat q).toRotationMatrix = q.toRotationMatrix := by
  funext a b
  fin_cases a <;> fin_cases b <;> simp [Quat.toRotationMatrix, negQuat]

theorem negQuat_rotate (q : Quat ℝ) (v : V3 ℝ) : (negQuat q).rotate v = q.rotate v := by
  rw [rotate_apply, rotate_apply]
  funext a; fin_cases a <;> simp [negQuat] <;> ring

theorem negQuat_inverse (q : Quat ℝ) : (negQuat q).inverse = negQuat q.inverse := by
  simp [negQuat, Quat.inverse]

/-- C70: two poses compare equal iff their centres agree and their quaternions agree up to sign. -/
theorem c70_extrinsics (q q' : Quat ℝ) (c c' : Vec) :
    beqExtrinsics (fromRotationAndCamcenter q c) (fromRotationAndCamcenter q' c') = true ↔
      c = c' ∧ (q = q' ∨ q = negQuat q') := by
  constructor
  · intro h
    simp only [beqExtrinsics, Bool.and_eq_true] at h
    exact ⟨(beqVec_real _ _).1 h.1.2, (beqQuat_real _ _).1 h.1.1⟩
  · rintro ⟨rfl, h | h⟩
    · subst h
      simp [beqExtrinsics, beqExtrinsicsCache, beqIsometry, (beqVec_real _ _).2 rfl,
        (beqMat_real _ _).2 rfl, beqQuat_real]
    · subst h
      simp [beqExtrinsics, beqExtrinsicsCache, beqIsometry, beqVec_real, beqMat_real, beqQuat_real,
        fromRotationAndCamcenter, negQuat_rotation, Isometry.inverse, negQuat_inverse, negQuat_rotate]

/-- C70: perspective intrinsics compare equal iff their five parameters agree. -/
theorem c70_perspective_intrinsics (p p' : PerspectiveParams ℝ) :
    beqPerspective (.ofParams p) (.ofParams p') = true ↔ p = p' := by
  constructor
  · intro h
    simp only [beqPerspective, beqPerspectiveParams, Bool.and_eq_true, beq_true_real] at h
    obtain ⟨⟨⟨⟨⟨h1, h2⟩, h3⟩, h4⟩, h5⟩, -⟩ := h
    exact PerspectiveParams.ext h1 h2 h3 h4 h5
  · rintro rfl
    simp [beqPerspective, beqPerspectiveParams, beqMat_real]

/-- C70: orthographic intrinsics compare equal iff their four parameters agree. -/
theorem c70_orthographic_intrinsics (p p' : OrthographicParams ℝ) :
    beqOrthographic (.ofParams p) (.ofParams p') = true ↔ p = p' := by
  constructor
  · intro h
    simp only [beqOrthographic, Bool.and_eq_true, beq_true_real] at h
    obtain ⟨⟨⟨h1, h2⟩, h3⟩, h4⟩ := h
    exact OrthographicParams.ext h1 h2 h3 h4
  · rintro rfl
    simp [beqOrthographic]

/-- C70: ray bundles compare equal iff they hold the same numbers. -/
theorem c70_ray_bundle {Coords : Type} {n : ℕ} :
    (∀ a b : RayBundle Coords (SharedOriginRayBundle ℝ) ℝ n,
      beqRayBundle beqSharedOrigin a b = true ↔ a = b) ∧
    ∀ a b : RayBundle Coords (SharedDirectionRayBundle ℝ) ℝ n,
      beqRayBundle beqSharedDirection a b = true ↔ a = b := by
  constructor <;> intro a b <;>
    simp only [beqRayBundle, beqSharedOrigin, beqSharedDirection, Bool.and_eq_true, beqMat_real,
      beqVec_real, RayBundle.ext_iff, SharedOriginRayBundle.ext_iff, SharedDirectionRayBundle.ext_iff]

/-- Two poses give the same results in every pose operation of the API. -/
structure Spec.SamePose (e e' : ExtrinsicParameters ℝ) : Prop where
  camcenter : e.camcenter = e'.camcenter
  rotation : e.rotation = e'.rotation
  translation : e.translation = e'.translation
  matrix : e.matrix = e'.matrix
  forward : e.forward = e'.forward
  up : e.up = e'.up
  right : e.right = e'.right
  worldToCamera : ∀ {n : ℕ} (w : Points WorldFrame ℝ n), e.worldToCamera w = e'.worldToCamera w
  cameraToWorld : ∀ {n : ℕ} (x : Points CameraFrame ℝ n), e.cameraToWorld x = e'.cameraToWorld x
  sharedOrigin : ∀ {n : ℕ} (b : RayBundle CameraFrame (SharedOriginRayBundle ℝ) ℝ n),
    e.rayCameraToWorld b = e'.rayCameraToWorld b
  sharedDirection : ∀ {n : ℕ} (b : RayBundle CameraFrame (SharedDirectionRayBundle ℝ) ℝ n),
    e.rayCameraToWorld b = e'.rayCameraToWorld b

/-- C70: poses which compare equal give the same results everywhere, unit quaternion or not. -/
theorem c70_same_pose {q q' : Quat ℝ} {c c' : Vec}
    (h : beqExtrinsics (fromRotationAndCamcenter q c) (fromRotationAndCamcenter q' c') = true) :
    SamePose (fromRotationAndCamcenter q c) (fromRotationAndCamcenter q' c') := by
  obtain ⟨rfl, h | h⟩ := (c70_extrinsics q q' c c').1 h
  · subst h; constructor <;> intros <;> rfl
  · subst h
    have t1 : ∀ v, (fromRotationAndCamcenter (negQuat q') c).cache.pose.transformPoint v =
        (fromRotationAndCamcenter q' c).cache.pose.transformPoint v := by
      intro v
      simp only [Isometry.transformPoint, fromRotationAndCamcenter, negQuat_rotate, negQuat_rotation]
    have t2 : ∀ v, (fromRotationAndCamcenter (negQuat q') c).cache.poseInv.transformPoint v =
        (fromRotationAndCamcenter q' c).cache.poseInv.transformPoint v := by
      intro v
      simp only [Isometry.transformPoint, fromRotationAndCamcenter, Isometry.inverse, negQuat_inverse,
        negQuat_rotate, negQuat_rotation]
    have t3 : ∀ v, (fromRotationAndCamcenter (negQuat q') c).cache.poseInv.transformVector v =
        (fromRotationAndCamcenter q' c).cache.poseInv.transformVector v := by
      intro v
      simp only [Isometry.transformVector, fromRotationAndCamcenter, Isometry.inverse, negQuat_inverse,
        negQuat_rotate]
    have hd : ∀ v, (fromRotationAndCamcenter (negQuat q') c).lookdir v =
        (fromRotationAndCamcenter q' c).lookdir v := by
      intro v; simp only [lookdir, t2]; rfl
    have hR : (fromRotationAndCamcenter (negQuat q') c).cache.q = (fromRotationAndCamcenter q' c).cache.q :=
      negQuat_rotation q'
    constructor
    · rfl
    · exact hR
    · simp only [ExtrinsicParameters.translation, fromRotationAndCamcenter, negQuat_rotation]
    · simp only [ExtrinsicParameters.matrix, fromRotationAndCamcenter, negQuat_rotation]
    · exact hd _
    · exact hd _
    · exact hd _
    · intro n w; simp only [ExtrinsicParameters.worldToCamera, t1]
    · intro n x; simp only [ExtrinsicParameters.cameraToWorld, t2]
    · intro n b
      simp only [rayCameraToWorld, RayBundle.toPose, Bundle.toPose, SharedOriginRayBundle.toPose, t2, t3]
    · intro n b
      simp only [rayCameraToWorld, RayBundle.toPose, Bundle.toPose, SharedDirectionRayBundle.toPose, t2, t3]

/-- C70: for valid poses, comparing equal is the same as mapping all points alike. -/
theorem c70_pose_iff {e e' : ExtrinsicParameters ℝ} (he : ValidExtrinsics e) (he' : ValidExtrinsics e') :
    beqExtrinsics e e' = true ↔
      ∀ x : Vec, (e.worldToCamera (.single x)).data 0 = (e'.worldToCamera (.single x)).data 0 := by
  rw [c51_same_iff he he']
  obtain ⟨q, c, hq, rfl⟩ := he
  obtain ⟨q', c', hq', rfl⟩ := he'
  constructor
  · intro h
    have := c70_same_pose h
    exact ⟨this.camcenter, this.rotation⟩
  · rintro ⟨hc, hr⟩
    have hc : c = c' := hc
    subst hc
    refine (c70_extrinsics _ _ _ _).2 ⟨rfl, ?_⟩
    rcases (c51_quaternion_sign hq' hq c).1 hr.symm with h | h
    · exact Or.inl h
    · exact Or.inr h

/-- C70: two perspective cameras with valid poses and positive focal lengths compare equal iff they take
the same images. -/
theorem c70_perspective_cameras {p p' : PerspectiveParams ℝ} (hx : 0 < p.fx) (hy : 0 < p.fy)
    (hx' : 0 < p'.fx) (hy' : 0 < p'.fy) {e e' : ExtrinsicParameters ℝ} (he : ValidExtrinsics e)
    (he' : ValidExtrinsics e') :
    beqCamera beqPerspective (Camera.mk (.ofParams p) e) (Camera.mk (.ofParams p') e') = true ↔
      ∀ x : Vec, (e.worldToCamera (.single x)).data 0 2 ≠ 0 →
        (e'.worldToCamera (.single x)).data 0 2 ≠ 0 →
        ((Camera.mk (IntrinsicParametersPerspective.ofParams p) e).worldToPixel (.single x)).data 0 =
          ((Camera.mk (IntrinsicParametersPerspective.ofParams p') e').worldToPixel (.single x)).data 0 := by
  simp only [beqCamera, Bool.and_eq_true, c70_perspective_intrinsics]
  constructor
  · rintro ⟨rfl, h⟩ x - -
    obtain ⟨q, c, hq, rfl⟩ := he
    obtain ⟨q', c', hq', rfl⟩ := he'
    simp only [Camera.worldToPixel, (c70_same_pose h).worldToCamera]
  · intro H
    obtain ⟨h1, h2, h3⟩ := c57_perspective hx hy hx' hy' he he' H
    exact ⟨h1, (c70_pose_iff he he').2 ((c51_same_iff he he').2 ⟨h2, h3⟩)⟩

/-- C70: cameras which compare equal project and cast rays alike, perspective or orthographic, valid pose
or not. -/
theorem c70_same_camera {q q' : Quat ℝ} {c c' : Vec} {n : ℕ} (w : Points WorldFrame ℝ n)
    (px : Pixels ℝ n) :
    (∀ p p' : PerspectiveParams ℝ,
      let cam := Camera.mk (IntrinsicParametersPerspective.ofParams p) (fromRotationAndCamcenter q c)
      let cam' := Camera.mk (IntrinsicParametersPerspective.ofParams p') (fromRotationAndCamcenter q' c')
      beqCamera beqPerspective cam cam' = true →
        cam.worldToPixel w = cam'.worldToPixel w ∧ cam.pixelToWorld px = cam'.pixelToWorld px ∧
        cam.asCameraMatrix = cam'.asCameraMatrix) ∧
    ∀ p p' : OrthographicParams ℝ,
      let cam := Camera.mk (IntrinsicParametersOrthographic.ofParams p) (fromRotationAndCamcenter q c)
      let cam' := Camera.mk (IntrinsicParametersOrthographic.ofParams p') (fromRotationAndCamcenter q' c')
      beqCamera beqOrthographic cam cam' = true →
        cam.worldToPixel w = cam'.worldToPixel w ∧ cam.pixelToWorld px = cam'.pixelToWorld px := by
  constructor
  · intro p p' cam cam' h
    simp only [beqCamera, Bool.and_eq_true, cam, cam', c70_perspective_intrinsics] at h
    obtain ⟨rfl, h⟩ := h
    have hs := c70_same_pose h
    refine ⟨?_, hs.sharedOrigin _, ?_⟩
    · simp only [cam, cam', Camera.worldToPixel, hs.worldToCamera]
    · have hm : (fromRotationAndCamcenter q c).cache.qt = (fromRotationAndCamcenter q' c').cache.qt :=
        hs.matrix
      simp only [cam, cam', Camera.asCameraMatrix, hm]
  · intro p p' cam cam' h
    simp only [beqCamera, Bool.and_eq_true, cam, cam', c70_orthographic_intrinsics] at h
    obtain ⟨rfl, h⟩ := h
    have hs := c70_same_pose h
    exact ⟨by simp only [cam, cam', Camera.worldToPixel, hs.worldToCamera], hs.sharedDirection _⟩

/-- Non-vacuity: a tilted pose and the same pose with the negated quaternion compare equal although their
quaternions differ; moving the camera makes them differ. -/
example : beqExtrinsics (fromRotationAndCamcenter exQuat ![1, 2, 3])
      (fromRotationAndCamcenter (negQuat exQuat) ![1, 2, 3]) = true ∧ exQuat ≠ negQuat exQuat ∧
    beqExtrinsics (fromRotationAndCamcenter exQuat ![1, 2, 3])
      (fromRotationAndCamcenter exQuat ![1, 2, 4]) = false := by
  refine ⟨(c70_extrinsics _ _ _ _).2 ⟨rfl, Or.inr ?_⟩, ?_, ?_⟩
  · simp [negQuat]
  · intro h
    have := congrArg Quat.w h
    norm_num [exQuat, negQuat] at this
  · rw [Bool.eq_false_iff]
    intro h
    have := congrFun ((c70_extrinsics _ _ _ _).1 h).1 2
    simp only [Matrix.cons_val] at this
    norm_num at this

/-! ### NaN -/

section
variable {R : Type} [Scalar R]

theorem beqVec_nan (fc : Ieee R) (hn : fc.NanUnequal) {n : ℕ} (a b : Fin n → R) {i : Fin n}
    (h : fc.isNan (a i) ∨ fc.isNan (b i)) : beqVec a b = false := by
  rw [Bool.eq_false_iff]
  intro hb
  have := (beqVec_iff a b).1 hb i
  rw [hn _ _ h] at this
  exact Bool.noConfusion this

/-- C70: a pose whose centre has a NaN coordinate is unequal to every pose, itself included. -/
theorem c70_nan_centre (fc : Ieee R) (hn : fc.NanUnequal) (e e' : ExtrinsicParameters R) {i : Fin 3}
    (h : fc.isNan (e.camcenter i) ∨ fc.isNan (e'.camcenter i)) : beqExtrinsics e e' = false := by
  simp [beqExtrinsics, beqVec_nan fc hn _ _ h]

/-- C70: if an entry of the rotation matrix is zero and the centre is infinite (or NaN) in that
direction, the pose is unequal to every pose, itself and its clones included, although no parameter of it
need be NaN. -/
theorem c70_infinite_centre (fc : Ieee R) (hn : fc.NanUnequal) (q : Quat R) (c : V3 R) {i j : Fin 3}
    (hz : fc.isZero ((fromRotationAndCamcenter q c).rotation i j)) (hc : ¬ fc.isFinite (c j))
    (e' : ExtrinsicParameters R) :
    beqExtrinsics (fromRotationAndCamcenter q c) e' = false ∧
      beqExtrinsics e' (fromRotationAndCamcenter q c) = false := by
  have hp := fc.zero_mul_inf hz hc
  have ht : fc.isNan ((fromRotationAndCamcenter q c).cache.translation i) := by
    refine fc.neg_nan (x := Mat.mulVec3 (fromRotationAndCamcenter q c).rotation c i) ?_
    simp only [Mat.mulVec3]
    fin_cases j
    · exact fc.add_nan_left (fc.add_nan_left hp)
    · exact fc.add_nan_left (fc.add_nan_right hp)
    · exact fc.add_nan_right hp
  constructor <;> simp [beqExtrinsics, beqExtrinsicsCache, beqVec_nan fc hn _ _ (Or.inl ht),
    beqVec_nan fc hn _ _ (Or.inr ht)]

/-- C70: perspective intrinsics with a NaN parameter are unequal to everything, themselves included. -/
theorem c70_nan_perspective (fc : Ieee R) (hn : fc.NanUnequal) (p p' : PerspectiveParams R)
    (h : fc.isNan p.fx ∨ fc.isNan p.fy ∨ fc.isNan p.skew ∨ fc.isNan p.cx ∨ fc.isNan p.cy) :
    beqPerspective (.ofParams p) (.ofParams p') = false ∧
      beqPerspective (.ofParams p') (.ofParams p) = false := by
  rcases h with h | h | h | h | h <;>
    simp [beqPerspective, beqPerspectiveParams, IntrinsicParametersPerspective.ofParams,
      hn _ _ (Or.inl h), hn _ _ (Or.inr h)]

/-- C70: the same for orthographic intrinsics. -/
theorem c70_nan_orthographic (fc : Ieee R) (hn : fc.NanUnequal) (p p' : OrthographicParams R)
    (h : fc.isNan p.sx ∨ fc.isNan p.sy ∨ fc.isNan p.cx ∨ fc.isNan p.cy) :
    beqOrthographic (.ofParams p) (.ofParams p') = false ∧
      beqOrthographic (.ofParams p') (.ofParams p) = false := by
  rcases h with h | h | h | h <;>
    simp [beqOrthographic, IntrinsicParametersOrthographic.ofParams, hn _ _ (Or.inl h),
      hn _ _ (Or.inr h)]

/-- C70: a perspective camera with a NaN anywhere in its parameters is unequal to every camera, itself
included. -/
theorem c70_nan_camera (fc : Ieee R) (hn : fc.NanUnequal) (p p' : PerspectiveParams R)
    (e e' : ExtrinsicParameters R)
    (h : fc.isNan p.fx ∨ fc.isNan p.fy ∨ fc.isNan p.skew ∨ fc.isNan p.cx ∨ fc.isNan p.cy ∨
      ∃ i, fc.isNan (e.camcenter i)) :
    beqCamera beqPerspective (Camera.mk (.ofParams p) e) (Camera.mk (.ofParams p') e') = false := by
  rcases h with h | h | h | h | h | ⟨i, h⟩
  · simp [beqCamera, (c70_nan_perspective fc hn p p' (by tauto)).1]
  · simp [beqCamera, (c70_nan_perspective fc hn p p' (by tauto)).1]
  · simp [beqCamera, (c70_nan_perspective fc hn p p' (by tauto)).1]
  · simp [beqCamera, (c70_nan_perspective fc hn p p' (by tauto)).1]
  · simp [beqCamera, (c70_nan_perspective fc hn p p' (by tauto)).1]
  · simp [beqCamera, c70_nan_centre fc hn e e' (Or.inl h)]
end

theorem XR.nanUnequal : XR.ieee.NanUnequal := by
  rintro x y (h | h)
  · cases x <;> first | exact absurd h id | rfl
  · cases y <;> first | exact absurd h id | (cases x <;> rfl)

/-- Non-vacuity: with the identity rotation a camera infinitely far away along `x` is not equal to
itself, though none of its parameters is NaN. -/
example : XR.ieee.isZero
      ((fromRotationAndCamcenter (⟨.num 1, .num 0, .num 0, .num 0⟩ : Quat XR)
        ![.inf false, .num 0, .num 0]).rotation 1 0) ∧
    ¬ XR.ieee.isFinite ((![.inf false, .num 0, .num 0] : V3 XR) 0) := by
  constructor
  · show XR.IsZero _
    simp [fromRotationAndCamcenter, ExtrinsicParameters.rotation, Quat.toRotationMatrix, XR.add_def,
      XR.mul_def, XR.mul, XR.add, XR.val, XR.neg?, XR.mk, XR.lit_def, not_lt.2 (zero_le_one' ℝ),
      not_lt.2 (zero_le_two (α := ℝ))]
  · exact id

end CamGeom
