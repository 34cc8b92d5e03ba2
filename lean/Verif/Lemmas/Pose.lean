import Verif.Lemmas.Quaternion
import Verif.Lemmas.Loops

/-!
# Poses over the reals
-/

namespace CamGeom
open Spec Matrix ExtrinsicParameters

/-- The model's `from_rotation_and_camcenter` maps `x` to `q (x - c)`. -/
theorem pose_transformPoint {q : Quat ℝ} (h : UnitQuat q) (c x : V3 ℝ) :
    (fromRotationAndCamcenter q c).cache.pose.transformPoint x = q.rotate (x - c) := by
  simp only [transformPoint_eq, fromRotationAndCamcenter, mulVec3_toRotationMatrix h, neg_eq,
    rotate_sub]
  abel

theorem poseInv_transformPoint {q : Quat ℝ} (h : UnitQuat q) (c x : V3 ℝ) :
    (fromRotationAndCamcenter q c).cache.poseInv.transformPoint x = q.inverse.rotate x + c := by
  simp only [transformPoint_eq, fromRotationAndCamcenter, mulVec3_toRotationMatrix h, neg_eq,
    Isometry.inverse, neg_neg, inverse_rotate_rotate h]

theorem poseInv_transformVector (q : Quat ℝ) (c x : V3 ℝ) :
    (fromRotationAndCamcenter q c).cache.poseInv.transformVector x = q.inverse.rotate x := rfl

theorem worldToCamera_row {q : Quat ℝ} (h : UnitQuat q) (c : V3 ℝ) {n : ℕ}
    (w : Points WorldFrame ℝ n) (i : Fin n) :
    ((fromRotationAndCamcenter q c).worldToCamera w).data i = q.rotate (w.data i - c) := by
  rw [worldToCamera_data]; exact pose_transformPoint h c _

theorem cameraToWorld_row {q : Quat ℝ} (h : UnitQuat q) (c : V3 ℝ) {n : ℕ}
    (w : Points CameraFrame ℝ n) (i : Fin n) :
    ((fromRotationAndCamcenter q c).cameraToWorld w).data i = q.inverse.rotate (w.data i) + c := by
  rw [cameraToWorld_data]; exact poseInv_transformPoint h c _

theorem lookdir_eq {q : Quat ℝ} (h : UnitQuat q) (c v : V3 ℝ) :
    (fromRotationAndCamcenter q c).lookdir v = V3.normalize (q.inverse.rotate v) := by
  have : (fromRotationAndCamcenter q c).camcenter = c := rfl
  simp only [lookdir, poseInv_transformPoint h, sub_eq, this, add_sub_cancel_right]

theorem normalize_of_len_one {v : V3 ℝ} (h : len v = 1) : V3.normalize v = v := by
  rw [normalize_eq, h]; simp

theorem rotate_unit_len {q : Quat ℝ} (h : UnitQuat q) {v : V3 ℝ} (hv : len v = 1) :
    V3.normalize (q.rotate v) = q.rotate v :=
  normalize_of_len_one (by rw [len_rotate h, hv])

theorem len_ex : len ![1, 0, 0] = 1 := by simp [len, Fin.sum_univ_three]
theorem len_ey : len ![0, -1, 0] = 1 := by simp [len, Fin.sum_univ_three]
theorem len_ez : len ![0, 0, 1] = 1 := by simp [len, Fin.sum_univ_three]

theorem right_eq {q : Quat ℝ} (h : UnitQuat q) (c : V3 ℝ) :
    (fromRotationAndCamcenter q c).right = q.inverse.rotate ![1, 0, 0] := by
  rw [right, lookdir_eq h, rotate_unit_len (unitQuat_inverse h) len_ex]

theorem up_eq {q : Quat ℝ} (h : UnitQuat q) (c : V3 ℝ) :
    (fromRotationAndCamcenter q c).up = q.inverse.rotate ![0, -1, 0] := by
  rw [up, lookdir_eq h, rotate_unit_len (unitQuat_inverse h) len_ey]

theorem forward_eq {q : Quat ℝ} (h : UnitQuat q) (c : V3 ℝ) :
    (fromRotationAndCamcenter q c).forward = q.inverse.rotate ![0, 0, 1] := by
  rw [forward, lookdir_eq h, rotate_unit_len (unitQuat_inverse h) len_ez]

end CamGeom
