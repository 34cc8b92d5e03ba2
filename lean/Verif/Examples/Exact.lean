import Verif.Props.PerspectiveMatrix
import Verif.Props.Linearize
import Verif.Props.CameraFacts
import Verif.Props.Projective
import Verif.Props.Symmetry
import Verif.Props.PoseFacts
import Verif.Props.ViewFacts

/-!
# The theorems on cameras in exact arithmetic, applied to concrete cameras

Every theorem with hypotheses is applied to data that satisfy them: the cameras below are turned by 120 degrees
about the diagonal and placed at (1, 2, 3); the perspective one has skew and different focal lengths, the orthographic
one different scales.
-/

namespace CamGeom
namespace Examples
open Spec Matrix ExtrinsicParameters

/-- The pose of the examples. -/
noncomputable def pose : ExtrinsicParameters ℝ := fromRotationAndCamcenter exQuat ![1, 2, 3]

theorem pose_valid : ValidExtrinsics pose := ex_valid

/-- Perspective intrinsics of the examples. -/
noncomputable def persp : PerspectiveParams ℝ := ⟨100, 102, 3, 321, 239⟩

/-- Orthographic intrinsics of the examples. -/
noncomputable def ortho : OrthographicParams ℝ := ⟨100, -102, 321, 239⟩

theorem fx_ne : persp.fx ≠ 0 := by norm_num [persp]
theorem fy_ne : persp.fy ≠ 0 := by norm_num [persp]
theorem fx_pos : 0 < persp.fx := by norm_num [persp]
theorem fy_pos : 0 < persp.fy := by norm_num [persp]
theorem sx_ne : ortho.sx ≠ 0 := by norm_num [ortho]
theorem sy_ne : ortho.sy ≠ 0 := by norm_num [ortho]

/-- Two world points; their depths are 1 and 4. -/
noncomputable def pts : Points WorldFrame ℝ 2 := ⟨![![1, 3, 3], ![2, 6, 8]]⟩

/-- Two points in the camera frame. -/
noncomputable def cpts : Points CameraFrame ℝ 2 := ⟨![![1, 3, 3], ![2, 6, 6]]⟩

/-- Two pixels. -/
noncomputable def pixels : Pixels ℝ 2 := ⟨![![10, 20], ![640, 480]]⟩

theorem origin_depth : (pose.worldToCamera (.single 0)).data 0 2 = -2 := by
  rw [pose, worldToCamera_row exQuat_unit, rotate_apply]
  simp [Points.single, exQuat]; norm_num

theorem origin_ne : (pose.worldToCamera (.single 0)).data 0 2 ≠ 0 := by rw [origin_depth]; norm_num

theorem pts_depth : (pose.worldToCamera pts).data 0 2 = 1 ∧ (pose.worldToCamera pts).data 1 2 = 4 := by
  constructor <;> rw [pose, worldToCamera_row exQuat_unit, rotate_apply] <;> simp [pts, exQuat] <;> norm_num

theorem pts_ne (i : Fin 2) : (pose.worldToCamera pts).data i 2 ≠ 0 := by
  fin_cases i
  · rw [show (⟨0, by norm_num⟩ : Fin 2) = 0 from rfl, pts_depth.1]; norm_num
  · rw [show (⟨1, by norm_num⟩ : Fin 2) = 1 from rfl, pts_depth.2]; norm_num

theorem point_depth : (pose.worldToCamera (.single ![1, 3, 3])).data 0 2 ≠ 0 := by
  rw [pose, worldToCamera_row exQuat_unit, rotate_apply]
  simp [Points.single, exQuat]; norm_num

theorem cpts_ne (i : Fin 2) : cpts.data i 2 ≠ 0 := by fin_cases i <;> simp [cpts]

/-! ### C02 to C09 -/

example := c02_world_camera_world pose_valid pts
example := c02_camera_world_camera pose_valid cpts
example := c03_distance pose_valid pts cpts 0 1
example := c03_signed_volume pose_valid pts cpts 0 1 0 1
example := c04_optical_centre pose_valid pts 1
example := c04_origin_to_world pose_valid
example := c05_accessors_agree pose_valid pts 1
example := c05_translation_rotation pose_valid
example := c06_pose_fromPose (p := ⟨![1, 2, 3], exQuat⟩) exQuat_unit
example := c06_fromPose_pose pose_valid
example := c06_fromPose_valid (p := ⟨![1, 2, 3], exQuat⟩) exQuat_unit pts 1
example := c09_orthonormal pose_valid
example := c09_camera_axes pose_valid 3 4 5

/-- The view of the crate's documentation: from (10, 0, 0) to the origin, up = +z. -/
theorem view_ok : ((![0, 0, 0] : V3 ℝ) - ![10, 0, 0]) ⨯₃ ![0, 0, 1] ≠ 0 := by
  intro h
  have := congrFun h 1
  simp [cross_apply] at this

example := c07_looks_at nalgebra_rot _ _ _ view_ok
example := c07_principal_point nalgebra_rot _ _ _ view_ok persp ortho
example := c08_up_right nalgebra_rot _ _ _ view_ok

/-- The point (0, 0, 1) stays in front of that camera: it is at depth 10. -/
theorem view_front : 0 < ((fromView nalgebra ![10, 0, 0] ![0, 0, 0] ![0, 0, 1]).worldToCamera
    (.single ((![0, 0, 0] : V3 ℝ) + (1 : ℝ) • ![0, 0, 1]))).data 0 2 := by
  obtain ⟨hv, hc, hf, -⟩ := c07_looks_at nalgebra_rot _ _ _ view_ok
  obtain ⟨-, -, hu1, -⟩ := c08_up_right nalgebra_rot _ _ _ view_ok
  set e : ExtrinsicParameters ℝ := fromView nalgebra ![10, 0, 0] ![0, 0, 0] ![0, 0, 1]
  have hd : distance (![0, 0, 0] : V3 ℝ) ![10, 0, 0] = 10 := by
    show len (_ - _) = _
    rw [len_eq, Real.sqrt_eq_iff_mul_self_eq_of_pos (by norm_num), dotProduct, Fin.sum_univ_three]
    simp
  have e1 : (![0, 0, 0] : V3 ℝ) + (1 : ℝ) • ![0, 0, 1] = e.camcenter + (0 : ℝ) • e.right + (1 : ℝ) • e.up +
      (10 : ℝ) • e.forward := by
    rw [hc, hf, hd, hu1]
    have h1 : ((![0, 0, 1] : V3 ℝ) ⬝ᵥ (![0, 0, 0] - ![10, 0, 0])) = 0 := by
      simp [dotProduct, Fin.sum_univ_three]
    have h3 : (![0, 0, 1] : V3 ℝ) - (0 : ℝ) • (![0, 0, 0] - ![10, 0, 0]) = ![0, 0, 1] := by simp
    rw [h1, zero_div, h3]
    have h2 : len (![0, 0, 1] : V3 ℝ) = 1 := by
      rw [len_eq, Real.sqrt_eq_iff_mul_self_eq_of_pos (by norm_num), dotProduct, Fin.sum_univ_three]
      simp
    rw [h2]
    funext i; fin_cases i <;> simp
  rw [e1, c09_camera_axes hv]
  simp

example := c08_up_in_image nalgebra_rot _ _ _ view_ok persp fy_pos 1 one_pos view_front

/-! ### C10 to C18 -/

example := c10_roundtrip persp fx_ne fy_ne pixels
example := c10_roundtrip_at_distance persp fx_ne fy_ne pixels (-5) (by norm_num)
example := c11_pinhole persp cpts 0 (cpts_ne 0)
example := c11_scale_invariant persp ⟨fun _ : Fin 1 => ![1, 3, 3]⟩ ⟨fun _ => ![2, 6, 6]⟩ 0 (by simp) 2 two_ne_zero
  (by funext a; fin_cases a <;> simp <;> norm_num)
example := c11_same_pixel_iff persp fx_ne fy_ne cpts 0 1 (cpts_ne 0) (cpts_ne 1)
example := c12_same_pixel_iff ortho sx_ne sy_ne cpts 0 1
example := c12_roundtrip_any_point ortho sx_ne sy_ne pixels ![4, -7]
example := c12_roundtrip ortho sx_ne sy_ne pixels 5
example := c13_roundtrip (I := IntrinsicParametersPerspective ℝ) c17_shared_origin ⟨.ofParams persp, pose⟩ pose_valid
  pixels (c10_roundtrip persp fx_ne fy_ne pixels)
example := c13_roundtrip_at_distance (I := IntrinsicParametersOrthographic ℝ) c17_shared_direction
  ⟨.ofParams ortho, pose⟩ pose_valid pixels 5 (by
    intro i h
    have h' : ((IntrinsicParametersOrthographic.ofParams ortho).pixelToCamera pixels).directions i 2 = 0 := by
      exact congrFun h 2
    simp [(sd_bundle_rows _ i).2, IntrinsicParametersOrthographic.pixelToCamera,
      RayBundle.newSharedPluszDirection, SharedDirectionRayBundle.newPluszSharedDirection] at h')
  (c12_roundtrip ortho sx_ne sy_ne pixels 5).2
example := c13_perspective persp fx_ne fy_ne pose_valid pixels 5 (by norm_num)
example := c13_orthographic ortho sx_ne sy_ne pose_valid pixels 5
example := c14_perspective persp fx_ne fy_ne pose_valid pixels 1
example := c14_orthographic ortho pose_valid pixels 1
example := c15_perspective persp fx_ne fy_ne pose_valid pts 1 (pts_ne 1)
example := c15_orthographic ortho sx_ne sy_ne pose_valid pts 1

/-- A bundle of one ray from (1, 1, 1) towards (4, 5, 1). -/
noncomputable def originBundle : RayBundle WorldFrame (SharedOriginRayBundle ℝ) ℝ 1 := ⟨fun _ => ![3, 4, 0], ⟨![1, 1, 1]⟩⟩
/-- A bundle of one ray from (1, 1, 1) towards (4, 5, 1), stored with a shared direction. -/
noncomputable def directionBundle : RayBundle WorldFrame (SharedDirectionRayBundle ℝ) ℝ 1 :=
  ⟨fun _ => ![1, 1, 1], ⟨![3, 4, 0]⟩⟩

example := c16_shared_origin originBundle (-5) 0 (by
  rw [(so_bundle_rows _ 0).2]; intro h; simpa [originBundle] using congrFun h 0)
example := c16_shared_direction directionBundle (-5) 0 (by
  rw [(sd_bundle_rows _ 0).2]; intro h; simpa [directionBundle] using congrFun h 0)

/-! ### C19 to C28 -/

/-- A normalized 3x4 matrix. -/
noncomputable def normalizedMatrix : Mat 3 4 ℝ := ![![100, 3, 640, 0], ![0, 100, 480, 0], ![0, 0, 1, 0]]

theorem normalizedMatrix_ok :
    ∃ c, IntrinsicParametersPerspective.fromNormalized3x4Matrix (1 / 1000 : ℝ) normalizedMatrix = .ok c :=
  (c19_ok_iff (by norm_num) (by norm_num) _).2 (by
    refine ⟨?_, ?_, ?_, ?_, ?_, ?_, ?_⟩ <;> (simp [normalizedMatrix]; try norm_num))

example := c20_projects_alike normalizedMatrix (by simp [normalizedMatrix]) normalizedMatrix_ok.choose_spec cpts 1
  (cpts_ne 1)
example := c20_feed_back (eps := 1 / 1000) (by norm_num) persp
example := c21_projects_alike persp pose_valid origin_ne pts 1 (pts_ne 1)
example := c21_depth persp pose_valid origin_ne pts 1

/-- A skewed, translated matrix whose left block has a negative determinant. -/
noncomputable def general : Mat 3 4 ℝ := ![![-100, 3, 640, 7], ![2, 100, 480, -5], ![0, 1 / 10, 1, 3]]

theorem general_det : (leftBlock general).det ≠ 0 := by
  rw [Matrix.det_fin_three]
  simp [general, leftBlock, Fin.castSucc, Fin.castAdd, Fin.castLE]; norm_num

example := c23_reproduces nalgebra_qr nalgebra_rot general general_det
example := c23_nalgebra general general_det
example := c24_positive_proper nalgebra_qr nalgebra_rot general general_det
  (c24_never_fails nalgebra general).choose_spec
example := c25_scale_sign nalgebra_qr general general_det (-3) (by norm_num)
example := c26_same_camera nalgebra_qr nalgebra_rot persp fx_pos fy_pos pose_valid origin_ne
example := c26_projects_alike nalgebra_qr nalgebra_rot ⟨-100, 102, 3, 321, 239⟩ (by norm_num) (by norm_num) pose_valid
  origin_ne
example := c26_nalgebra persp fx_pos fy_pos pose_valid origin_ne
example := c27_derivative persp pose_valid origin_ne ![1, 3, 3] point_depth
example := c28_kernel persp fx_ne fy_ne pose_valid origin_ne ![1, 3, 3] point_depth ![1, 2, 3]

/-! ### C50 to C57 -/

/-- The moved camera of the examples: the world is turned once more and shifted. -/
noncomputable def moved : ExtrinsicParameters ℝ :=
  fromRotationAndCamcenter (pose.rquat.mul exQuat.inverse) (exQuat.rotate pose.camcenter + ![5, 6, 7])

theorem moved_ok : ValidExtrinsics moved ∧ MovedBy (Matrix.of exQuat.toRotationMatrix) ![5, 6, 7] pose moved :=
  c50_move_exists exQuat_unit ![5, 6, 7] pose_valid

example := c50_world_to_camera pose_valid moved_ok.1 moved_ok.2 pts
example := c50_world_to_pixel (IntrinsicParametersPerspective.ofParams persp) pose_valid moved_ok.1 moved_ok.2 pts
example := c50_perspective_rays persp pose_valid moved_ok.1 moved_ok.2 pixels 1
example := c50_orthographic_rays ortho pose_valid moved_ok.1 moved_ok.2 pixels 1

/-- The same pose with the negated quaternion. -/
noncomputable def negated : ExtrinsicParameters ℝ := fromRotationAndCamcenter ⟨-1 / 2, -1 / 2, -1 / 2, -1 / 2⟩ ![1, 2, 3]

theorem negated_unit : UnitQuat (⟨-1 / 2, -1 / 2, -1 / 2, -1 / 2⟩ : Quat ℝ) := by unfold UnitQuat; norm_num

theorem negated_valid : ValidExtrinsics negated := ⟨_, _, negated_unit, rfl⟩

theorem negated_eq : (⟨-1 / 2, -1 / 2, -1 / 2, -1 / 2⟩ : Quat ℝ) = ⟨-exQuat.w, -exQuat.i, -exQuat.j, -exQuat.k⟩ := by
  simp only [exQuat, Quat.mk.injEq]; norm_num

example := c51_same_iff pose_valid negated_valid
example := c51_quaternion_sign exQuat_unit negated_unit ![1, 2, 3]
example := c52_perspective persp pose_valid 1 2 3 (by norm_num)
example := c52_orthographic ortho pose_valid 1 2 3
example := c52_every_point pose_valid ![4, 5, 6]
example := c53_behind persp pose_valid ![1, 3, 3] point_depth
example := c53_scale persp pose_valid (e' := fromRotationAndCamcenter exQuat ![2, 4, 6]) ⟨_, _, exQuat_unit, rfl⟩ rfl 2
  two_ne_zero (by
    show (![2, 4, 6] : Vec) = (2 : ℝ) • ![1, 2, 3]
    funext i; fin_cases i <;> simp <;> norm_num) pts 1 (pts_ne 1)
example := c53_orthographic_depth ortho pose_valid
  (e' := fromRotationAndCamcenter exQuat (pose.camcenter + (5 : ℝ) • pose.forward)) ⟨_, _, exQuat_unit, rfl⟩ rfl 5 rfl pts
example := c54_perspective_lines persp pose_valid ![1, 3, 3] ![1, 3, 5] pts (by
  intro i
  fin_cases i
  · exact ⟨0, by funext a; fin_cases a <;> simp [pts]⟩
  · exact ⟨1, by funext a; fin_cases a <;> simp [pts] <;> norm_num⟩) pts_ne 0 1 0
example := c54_orthographic_lines ortho pose_valid ![1, 3, 3] ![1, 3, 5] pts (by
  intro i
  fin_cases i
  · exact ⟨0, by funext a; fin_cases a <;> simp [pts]⟩
  · exact ⟨1, by funext a; fin_cases a <;> simp [pts] <;> norm_num⟩) 0 1 0
example := c54_vanishing_point persp pose_valid ![7, 7, 7] ![0, 1, 0] (by
  rw [show pose.camcenter + (![0, 1, 0] : Vec) = ![1, 3, 3] by
    show (![1, 2, 3] : Vec) + ![0, 1, 0] = _
    funext i; fin_cases i <;> (simp; try norm_num)]
  exact point_depth)
example := c55_exact_remainder persp pose_valid origin_ne ![1, 3, 3] ![1, 3, 5] point_depth (by
  rw [pose, worldToCamera_row exQuat_unit, rotate_apply]
  simp [Points.single, exQuat]; norm_num)
example := c55_same_depth persp pose_valid origin_ne ![1, 3, 3] ![2, 0, 5] point_depth (by
  rw [pose, worldToCamera_row exQuat_unit, worldToCamera_row exQuat_unit, rotate_apply, rotate_apply]
  simp [Points.single, exQuat]; norm_num)
example := c56_closed_form ⟨.ofParams persp, pose⟩ persp rfl pose_valid 0 1
example := c57_perspective (p := persp) (p' := persp) fx_pos fy_pos fx_pos fy_pos pose_valid negated_valid (by
  intro x _ _
  rw [negated, negated_eq]
  exact congrArg (fun y => Pixels.data y 0) (c51_negated_quaternion (IntrinsicParametersPerspective.ofParams persp)
    exQuat ![1, 2, 3] (.single x) ⟨fun _ => 0⟩).1.symm)
example := c57_second_camera pose_valid
example := c57_sign_ambiguity persp pose_valid (c57_second_camera pose_valid).choose_spec.1
  (c57_second_camera pose_valid).choose_spec.2.1 (c57_second_camera pose_valid).choose_spec.2.2 pts 1 (pts_ne 1)
example := c57_orthographic (p := ⟨100, 102, 321, 239⟩) (p' := ⟨100, 102, 321, 239⟩) (by norm_num) (by norm_num)
  (by norm_num) (by norm_num) pose_valid negated_valid ![4, 5, 6]

/-! ### C63 to C65 -/

example := c63_rotation_rows pose_valid
theorem negated_rotation : negated.rotation = pose.rotation :=
  ((c51_quaternion_sign exQuat_unit negated_unit ![1, 2, 3]).2 (Or.inr negated_eq)).symm
example := c63_determined pose_valid negated_valid
  (by rw [← (c63_rotation_rows pose_valid).2.2, ← (c63_rotation_rows negated_valid).2.2, negated_rotation])
  (by
    rw [← neg_inj, ← (c63_rotation_rows pose_valid).2.1, ← (c63_rotation_rows negated_valid).2.1, negated_rotation])
  rfl pts
example := c63_invariance nalgebra_rot _ _ _ view_ok 3 4 5 (by norm_num) (by norm_num) pts
example := c63_view_of_accessors nalgebra_rot pose_valid 5 (by norm_num) pts
example := c63_equivariance nalgebra_rot _ _ _ view_ok exQuat_unit ![5, 6, 7] pts
example := c64_inexact_pi nalgebra_rot _ _ _ view_ok (157 / 50)
example := c64_principal_point nalgebra_rot _ _ _ view_ok (157 / 50) persp

/-- The isometries of the examples. -/
noncomputable def isometry : Isometry ℝ := ⟨![1, 2, 3], exQuat⟩

theorem product_acts : ActsAsComp ⟨isometry.rotation.rotate isometry.translation + isometry.translation,
    isometry.rotation.mul isometry.rotation⟩ isometry isometry := c65_product exQuat_unit exQuat_unit

example := c65_compose_shared_origin product_acts (A := WorldFrame) (B := CameraFrame) ⟨![1, 1, 1]⟩ pts.data
example := c65_compose_shared_direction product_acts (A := WorldFrame) (B := CameraFrame) ⟨![1, 1, 1]⟩ pts.data
example := c65_inverse_shared_origin (g := isometry) exQuat_unit (A := WorldFrame) (B := CameraFrame) ⟨![1, 1, 1]⟩
  pts.data
example := c65_inverse_shared_direction (g := isometry) exQuat_unit (A := WorldFrame) (B := CameraFrame) ⟨![1, 1, 1]⟩
  pts.data

end Examples
end CamGeom
