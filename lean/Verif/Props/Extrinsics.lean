import Verif.Lemmas.Pose

/-!
# C02–C06 and C09: extrinsic parameters

Exact real arithmetic.  `ValidExtrinsics e` says that `e` was built by the crate from a unit
quaternion and some camera centre (every constructor does that: C06, C07, C41).
-/

namespace CamGeom
open Spec Matrix ExtrinsicParameters

/-- The concrete pose used for the non-vacuity examples: a 120 degree turn about (1,1,1), centre
(1,2,3). -/
noncomputable def exQuat : Quat ℝ := ⟨1 / 2, 1 / 2, 1 / 2, 1 / 2⟩

theorem exQuat_unit : UnitQuat exQuat := by unfold UnitQuat exQuat; norm_num

theorem ex_valid : ValidExtrinsics (fromRotationAndCamcenter exQuat ![1, 2, 3]) :=
  ⟨exQuat, ![1, 2, 3], exQuat_unit, rfl⟩

/-- C02: `camera_to_world` undoes `world_to_camera`. -/
theorem c02_world_camera_world {e : ExtrinsicParameters ℝ} (h : ValidExtrinsics e) {n : ℕ}
    (w : Points WorldFrame ℝ n) : e.cameraToWorld (e.worldToCamera w) = w := by
  obtain ⟨q, c, hq, rfl⟩ := h
  ext1; funext i
  rw [cameraToWorld_row hq, worldToCamera_row hq, inverse_rotate_rotate hq, sub_add_cancel]

/-- C02: `world_to_camera` undoes `camera_to_world`. -/
theorem c02_camera_world_camera {e : ExtrinsicParameters ℝ} (h : ValidExtrinsics e) {n : ℕ}
    (w : Points CameraFrame ℝ n) : e.worldToCamera (e.cameraToWorld w) = w := by
  obtain ⟨q, c, hq, rfl⟩ := h
  ext1; funext i
  rw [worldToCamera_row hq, cameraToWorld_row hq, add_sub_cancel_right, rotate_inverse_rotate hq]

/-- C02 is not about the identity transformation: the example pose moves points. -/
example : ((fromRotationAndCamcenter exQuat ![1, 2, 3]).worldToCamera
    (.single ![2, 2, 3])).data 0 = ![0, 1, 0] := by
  rw [worldToCamera_row exQuat_unit, rotate_apply]
  funext a; fin_cases a <;> simp [Points.single, exQuat] <;> norm_num

/-- C03: distances are preserved by `world_to_camera` and `camera_to_world`. -/
theorem c03_distance {e : ExtrinsicParameters ℝ} (h : ValidExtrinsics e) {n : ℕ}
    (w : Points WorldFrame ℝ n) (v : Points CameraFrame ℝ n) (i j : Fin n) :
    distance ((e.worldToCamera w).data i) ((e.worldToCamera w).data j) = distance (w.data i) (w.data j) ∧
    distance ((e.cameraToWorld v).data i) ((e.cameraToWorld v).data j) = distance (v.data i) (v.data j) := by
  obtain ⟨q, c, hq, rfl⟩ := h
  simp only [distance, worldToCamera_row hq, cameraToWorld_row hq]
  rw [← rotate_sub, len_rotate hq, sub_sub_sub_cancel_right, add_sub_add_right_eq_sub,
    ← rotate_sub, len_rotate (unitQuat_inverse hq)]
  exact ⟨rfl, rfl⟩

theorem volume_rotate {q : Quat ℝ} (hq : UnitQuat q) (u v w : V3 ℝ) :
    (Matrix.of ![q.rotate u, q.rotate v, q.rotate w]).det = (Matrix.of ![u, v, w]).det := by
  have key : ∀ a b c : V3 ℝ, (Matrix.of ![a, b, c]).det = a ⬝ᵥ (b ⨯₃ c) := by
    intro a b c; rw [triple_product_eq_det]; rfl
  rw [key, key, rotate_cross hq, rotate_dot hq]

/-- C03: signed volumes are preserved, so no mirroring is introduced. -/
theorem c03_signed_volume {e : ExtrinsicParameters ℝ} (h : ValidExtrinsics e) {n : ℕ}
    (w : Points WorldFrame ℝ n) (v : Points CameraFrame ℝ n) (i j k l : Fin n) :
    volume ((e.worldToCamera w).data i) ((e.worldToCamera w).data j) ((e.worldToCamera w).data k)
        ((e.worldToCamera w).data l) = volume (w.data i) (w.data j) (w.data k) (w.data l) ∧
    volume ((e.cameraToWorld v).data i) ((e.cameraToWorld v).data j) ((e.cameraToWorld v).data k)
        ((e.cameraToWorld v).data l) = volume (v.data i) (v.data j) (v.data k) (v.data l) := by
  obtain ⟨q, c, hq, rfl⟩ := h
  simp only [volume, worldToCamera_row hq, cameraToWorld_row hq]
  constructor
  · simp only [← rotate_sub, sub_sub_sub_cancel_right, volume_rotate hq]
  · simp only [add_sub_add_right_eq_sub, ← rotate_sub, volume_rotate (unitQuat_inverse hq)]

/-- C03 is not trivially about zero volumes. -/
example : volume ![0, 0, 0] ![1, 0, 0] ![0, 1, 0] ![0, 0, 1] = 1 := by
  simp [volume, Matrix.det_fin_three]

/-- C04: `camcenter()` is the centre handed to the constructor (any scalar type). -/
theorem c04_camcenter {R : Type} [Scalar R] (q : Quat R) (c : V3 R) :
    (fromRotationAndCamcenter q c).camcenter = c := rfl

/-- C04: exactly `camcenter()` has camera coordinates (0,0,0). -/
theorem c04_optical_centre {e : ExtrinsicParameters ℝ} (h : ValidExtrinsics e) {n : ℕ}
    (w : Points WorldFrame ℝ n) (i : Fin n) :
    (e.worldToCamera w).data i = ![0, 0, 0] ↔ w.data i = e.camcenter := by
  obtain ⟨q, c, hq, rfl⟩ := h
  have z : (![0, 0, 0] : V3 ℝ) = 0 := by funext a; fin_cases a <;> rfl
  rw [worldToCamera_row hq, c04_camcenter, z, rotate_eq_zero hq, sub_eq_zero]

/-- C04: the camera origin is at `camcenter()` in the world. -/
theorem c04_origin_to_world {e : ExtrinsicParameters ℝ} (h : ValidExtrinsics e) :
    (e.cameraToWorld (.single ![0, 0, 0])).data 0 = e.camcenter := by
  obtain ⟨q, c, hq, rfl⟩ := h
  have z : (![0, 0, 0] : V3 ℝ) = 0 := by funext a; fin_cases a <;> rfl
  simp [cameraToWorld_row hq, c04_camcenter, z, rotate_zero, Points.single]

/-- C05: `pose()`, `matrix()`, and `rotation()` with `translation()` all act like
`world_to_camera`. -/
theorem c05_accessors_agree {e : ExtrinsicParameters ℝ} (h : ValidExtrinsics e) {n : ℕ}
    (w : Points WorldFrame ℝ n) (i : Fin n) :
    (e.worldToCamera w).data i = e.pose.transformPoint (w.data i) ∧
    (e.worldToCamera w).data i = homImage e.matrix (w.data i) ∧
    (e.worldToCamera w).data i = (Matrix.of e.rotation).mulVec (w.data i) + e.translation := by
  obtain ⟨q, c, hq, rfl⟩ := h
  have h1 : ((fromRotationAndCamcenter q c).worldToCamera w).data i =
      (Matrix.of (fromRotationAndCamcenter q c).rotation).mulVec (w.data i)
        + (fromRotationAndCamcenter q c).translation := by
    simp only [worldToCamera_data, transformPoint_eq, ← mulVec3_eq]
    have h1 : (fromRotationAndCamcenter q c).rotation = q.toRotationMatrix := rfl
    rw [h1, mulVec3_toRotationMatrix hq]; rfl
  refine ⟨by rw [worldToCamera_data]; rfl, ?_, h1⟩
  rw [h1]
  funext a
  fin_cases a <;>
    simp [homImage, Matrix.mulVec, dotProduct, Fin.sum_univ_four, Fin.sum_univ_three,
      ExtrinsicParameters.matrix, ExtrinsicParameters.rotation, ExtrinsicParameters.translation,
      fromRotationAndCamcenter]

/-- C05: `translation() = - rotation() * camcenter()`, and `rotation()` is a proper rotation. -/
theorem c05_translation_rotation {e : ExtrinsicParameters ℝ} (h : ValidExtrinsics e) :
    e.translation = -(Matrix.of e.rotation).mulVec e.camcenter ∧ IsRotation e.rotation := by
  obtain ⟨q, c, hq, rfl⟩ := h
  refine ⟨?_, toRotationMatrix_isRotation hq⟩
  rw [← mulVec3_eq]; rfl

/-- C06: `from_pose(p).pose()` equals `p`. -/
theorem c06_pose_fromPose {p : Isometry ℝ} (h : UnitQuat p.rotation) : (fromPose p).pose = p := by
  ext1
  · simp only [pose, fromPose, fromRotationAndCamcenter, neg_eq, mulVec3_toRotationMatrix h,
      mulVec3_toRotationMatrix (unitQuat_inverse h), rotate_neg, rotate_inverse_rotate h, neg_neg]
  · rfl

/-- C06: rebuilding extrinsics from their own pose gives equal extrinsics (all fields, caches
included). -/
theorem c06_fromPose_pose {e : ExtrinsicParameters ℝ} (h : ValidExtrinsics e) :
    fromPose e.pose = e := by
  obtain ⟨q, c, hq, rfl⟩ := h
  have : (fromRotationAndCamcenter q c).pose.rotation = q := rfl
  have ht : (fromRotationAndCamcenter q c).pose.translation = -q.rotate c := by
    simp only [pose, fromRotationAndCamcenter, neg_eq, mulVec3_toRotationMatrix hq]
  simp only [fromPose, this, ht, neg_eq, mulVec3_toRotationMatrix (unitQuat_inverse hq), rotate_neg,
    inverse_rotate_rotate hq, neg_neg]

/-- C06: `from_pose` of a unit rotation gives valid extrinsics, transforming points as `p` does. -/
theorem c06_fromPose_valid {p : Isometry ℝ} (h : UnitQuat p.rotation) {n : ℕ}
    (w : Points WorldFrame ℝ n) (i : Fin n) :
    ValidExtrinsics (fromPose p) ∧
      ((fromPose p).worldToCamera w).data i = p.transformPoint (w.data i) := by
  refine ⟨⟨_, _, h, rfl⟩, ?_⟩
  rw [worldToCamera_data]
  exact congrArg (fun p : Isometry ℝ => p.transformPoint (w.data i)) (c06_pose_fromPose h)

example : UnitQuat (⟨![1, 2, 3], exQuat⟩ : Isometry ℝ).rotation := exQuat_unit

/-- C09: `right()`, `up()`, `forward()` are unit vectors, mutually orthogonal, and
`right × forward = up`. -/
theorem c09_orthonormal {e : ExtrinsicParameters ℝ} (h : ValidExtrinsics e) :
    len e.right = 1 ∧ len e.up = 1 ∧ len e.forward = 1 ∧
    e.right ⬝ᵥ e.up = 0 ∧ e.right ⬝ᵥ e.forward = 0 ∧ e.up ⬝ᵥ e.forward = 0 ∧
    e.right ⨯₃ e.forward = e.up ∧ e.right ⨯₃ (-e.up) = e.forward := by
  obtain ⟨q, c, hq, rfl⟩ := h
  have hi := unitQuat_inverse hq
  rw [right_eq hq, up_eq hq, forward_eq hq, ← rotate_neg, rotate_cross hi, rotate_cross hi]
  simp only [len_rotate hi, rotate_dot hi, len_ex, len_ey, len_ez]
  refine ⟨trivial, trivial, trivial, by simp, by simp, by simp, ?_, ?_⟩ <;>
  · congr 1; rw [cross_apply]; funext a; fin_cases a <;> simp

/-- C09: they are the world directions of camera +X, -Y and +Z: walking `s` along them from the
camera centre changes exactly that camera coordinate. -/
theorem c09_camera_axes {e : ExtrinsicParameters ℝ} (h : ValidExtrinsics e) (r u f : ℝ) :
    (e.worldToCamera (.single (e.camcenter + r • e.right + u • e.up + f • e.forward))).data 0 =
      ![r, -u, f] := by
  obtain ⟨q, c, hq, rfl⟩ := h
  rw [worldToCamera_row hq, right_eq hq, up_eq hq, forward_eq hq, c04_camcenter]
  have : (Points.single (c + r • q.inverse.rotate ![1, 0, 0] + u • q.inverse.rotate ![0, -1, 0] +
      f • q.inverse.rotate ![0, 0, 1]) : Points WorldFrame ℝ 1).data 0 - c =
      q.inverse.rotate (r • ![1, 0, 0] + u • ![0, -1, 0] + f • ![0, 0, 1]) := by
    rw [rotate_add, rotate_add, rotate_smul, rotate_smul, rotate_smul]; simp only [Points.single]; abel
  rw [this, rotate_inverse_rotate hq]
  funext a; fin_cases a <;> simp

end CamGeom
