import Verif.Examples.Exact
import Verif.Props.DegenerateView
import Verif.Props.SingularMatrix
import Verif.Props.Equality
import Verif.Props.Serde
import Verif.Props.TestUtilsCamera

/-!
# The theorems on special values, serialization, equality and the test utility, applied to concrete data
-/

namespace CamGeom
namespace Examples
open Spec Matrix ExtrinsicParameters

/-! ### C22, C29, C45, C46, C74, C75 with real numbers extended by signed zeros, infinities and NaN -/

/-- The identity rotation. -/
noncomputable def idQuat : Quat XR := ⟨.num 1, .num 0, .num 0, .num 0⟩

theorem idQuat_rotation : idQuat.toRotationMatrix =
    ![![.num 1, .num 0, .num 0], ![.num 0, .num 1, .num 0], ![.num 0, .num 0, .num 1]] := by
  funext a b
  fin_cases a <;> fin_cases b <;>
    simp [idQuat, Quat.toRotationMatrix, XR.add_def, XR.sub_def, XR.mul_def, XR.mul, XR.add, XR.neg, XR.val, XR.neg?,
      XR.mk, XR.lit_def, not_lt.2 (zero_le_one' ℝ), not_lt.2 (zero_le_two (α := ℝ))]

theorem idQuat_finite (a b : Fin 3) : XR.ieee.isFinite (idQuat.toRotationMatrix a b) := by
  rw [idQuat_rotation]; fin_cases a <;> fin_cases b <;> trivial

/-- A camera with a focal length of 5. -/
noncomputable def lens : PerspectiveParams XR := ⟨.num 5, .num 5, .num 0, .num 1, .num 2⟩

example := c22_camera_at_origin XR.ieee lens idQuat (fun _ => .num 0) idQuat_finite (fun _ => (rfl : (0 : ℝ) = 0))
example := c29_camera_at_origin XR.ieee lens idQuat (fun _ => .num 0) idQuat_finite (fun _ => (rfl : (0 : ℝ) = 0))
  (.single fun _ => .num 4) 1 2

theorem translation_eq (x y z : ℝ) (hx : 0 < x) (hy : 0 < y) (hz : 0 ≤ z) :
    (fromRotationAndCamcenter idQuat ![.num x, .num y, .num z]).translation =
      ![.num (-x), .num (-y), XR.neg (.num z)] := by
  show V3.neg (Mat.mulVec3 idQuat.toRotationMatrix ![.num x, .num y, .num z]) = _
  rw [idQuat_rotation]
  funext a
  rcases hz.eq_or_lt with rfl | hz' <;> fin_cases a <;>
    simp [V3.neg, Mat.mulVec3, XR.add_def, XR.mul_def, XR.neg_def, XR.mul, XR.add, XR.neg, XR.val, XR.neg?,
      XR.mk, hx.ne', hy.ne', not_lt.2 hx.le, not_lt.2 hy.le, not_lt.2 hz, not_lt.2 (zero_le_one' ℝ), *,
      ne_of_gt]

/-- A camera in the plane `z = 0`, so that the world origin is in its principal plane. -/
example := c22_origin_in_principal_plane XR.ieee lens idQuat ![.num 3, .num 4, .num 0]
  (by rw [translation_eq _ _ _ (by norm_num) (by norm_num) le_rfl]; trivial)
  (by rw [translation_eq _ _ _ (by norm_num) (by norm_num) le_rfl]; trivial)
  (by rw [translation_eq _ _ _ (by norm_num) (by norm_num) le_rfl]; simp [XR.neg, XR.ieee])
example := c22_otherwise_one XR.ieee lens idQuat ![.num 3, .num 4, .num 6]
  (by rw [translation_eq _ _ _ (by norm_num) (by norm_num) (by norm_num)]; trivial)
  (by rw [translation_eq _ _ _ (by norm_num) (by norm_num) (by norm_num)]; trivial)
  (by rw [translation_eq _ _ _ (by norm_num) (by norm_num) (by norm_num)]; simp [XR.neg, XR.ieee])
  (by rw [translation_eq _ _ _ (by norm_num) (by norm_num) (by norm_num)]; simp [XR.neg, XR.ieee])
example := c29_origin_in_principal_plane XR.ieee lens idQuat ![.num 3, .num 4, .num 0]
  (by rw [translation_eq _ _ _ (by norm_num) (by norm_num) le_rfl]; trivial)
  (by rw [translation_eq _ _ _ (by norm_num) (by norm_num) le_rfl]; trivial)
  (by rw [translation_eq _ _ _ (by norm_num) (by norm_num) le_rfl]; simp [XR.neg, XR.ieee])

/-- A point with a NaN and an infinite coordinate. -/
noncomputable def bad (C : Type) : Points C XR 1 := .single ![.nan, .num 1, .inf true]

theorem bad_nan (C : Type) : ¬ XR.ieee.isFinite ((bad C).data 0 0) := fun h => h
theorem bad_inf (C : Type) : ¬ XR.ieee.isFinite ((bad C).data 0 2) := fun h => h

/-- A pixel with a NaN coordinate. -/
noncomputable def badPixel : Pixels XR 1 := ⟨fun _ => ![.num 7, .nan]⟩

theorem badPixel_nan : ¬ XR.ieee.isFinite (badPixel.data 0 1) := fun h => h

/-- An ordinary pose and orthographic parameters. -/
noncomputable def place : ExtrinsicParameters XR := fromRotationAndCamcenter idQuat ![.num 3, .num 4, .num 6]
noncomputable def scales : OrthographicParams XR := ⟨.num 5, .num 6, .num 7, .num 8⟩

example := c45_world_to_camera XR.ieee place (bad WorldFrame) 0 (bad_nan _) 1
example := c45_camera_to_world XR.ieee place (bad CameraFrame) 0 (bad_inf _) 1
example := c45_persp_camera_to_pixel XR.ieee lens (bad CameraFrame) 0 (bad_inf _) 1
example := c45_persp_world_to_pixel XR.ieee lens place (bad WorldFrame) 0 (bad_nan _) 0
example := c45_ortho_world_to_pixel XR.ieee scales place (bad WorldFrame) 0 (bad_inf _) 0
example := c45_persp_pixel_to_world XR.ieee lens place badPixel 0 badPixel_nan 2
example := c45_ortho_pixel_to_world XR.ieee scales place badPixel 0 badPixel_nan 2
example := c46_principal_plane XR.ieee lens (.single ![.num 3, .num 1, .negZero]) 0 trivial trivial trivial 1

/-- A library whose rotation to quaternion conversion is nalgebra's. -/
noncomputable def na : Linalg XR := ⟨fun m => (m, m), shepperd⟩

example := c74_no_direction XR.ieee na ![.num 1, .num 2, .num 3] ![.num 1, .num 2, .nan] ![.num 0, .num 0, .num 1]
  (.inr (.inl ⟨2, fun h => h⟩))
example := c74_looks_at_itself XR.ieee XR.zeros na ![.num 1, .num 2, .num 3] ![.num 0, .num 0, .num 1]
example := c74_not_finite_argument XR.ieee na ![.num 1, .inf true, .num 3] ![.num 1, .num 2, .num 9] ![.num 0, .num 0, .num 1]
  (.inl ⟨1, fun h => h⟩)
example := c74_up_not_finite XR.ieee (na := na) rfl ![.num 1, .num 2, .num 3] ![.num 1, .num 2, .num 9]
  ![.num 0, .nan, .num 1] ⟨1, fun h => h⟩
example := c74_up_zero XR.ieee XR.zeros (na := na) rfl ![.num 1, .num 2, .num 3] ![.num 1, .num 2, .num 9]
  (fun _ => .negZero) (fun _ => trivial)

theorem down_z : ∀ a : Fin 3, a ≠ 2 → (![.num 1, .num 2, .num 0] : V3 XR) a = ![.num 1, .num 2, .num 10] a := by
  intro a ha
  fin_cases a
  · rfl
  · rfl
  · exact absurd rfl ha

theorem up_z : ∀ a : Fin 3, a ≠ 2 → XR.ieee.isZero ((![.num 0, .num 0, .num 1] : V3 XR) a) := by
  intro a ha
  fin_cases a
  · exact (rfl : (0 : ℝ) = 0)
  · exact (rfl : (0 : ℝ) = 0)
  · exact absurd rfl ha

/-- The pose of a camera that looks straight down. -/
theorem down_nothing : NothingFinite XR.ieee (fromView na ![.num 1, .num 2, .num 10] ![.num 1, .num 2, .num 0]
    ![.num 0, .num 0, .num 1]) := c74_along_axis XR.ieee XR.zeros rfl _ _ _ 2 down_z up_z

example := c74_perspective down_nothing lens
example := c74_orthographic down_nothing scales
example := c75_singular XR.ieee na ![![.num 1, .num 2, .num 3, .nan], ![.num 1, .num 2, .num 3, .num 5],
  ![.num 0, .num 0, .num 1, .num 6]] (.inr ⟨0, 3, fun h => h⟩)

/-! ### C39 to C42 -/

theorem rt_all (x : ℝ) : RT ℝ x := rt_real x

example := c39_extrinsics (S := ℝ) (.fromRotationAndCamcenter exQuat ![1, 2, 3]) ⟨rt_all _, rt_all _, rt_all _, rt_all _⟩
  (fun _ => rt_all _)
example := c39_perspective (S := ℝ) (.ofParams persp) (rt_all _) (rt_all _) (rt_all _) (rt_all _) (rt_all _)
example := c39_orthographic (S := ℝ) (.ofParams ortho) (rt_all _) (rt_all _) (rt_all _) (rt_all _)
example := c39_bundle_types (S := ℝ) ⟨![1, 2, 3]⟩ ⟨![4, 5, 6]⟩ (fun _ => rt_all _) (fun _ => rt_all _)

/-- Two rays from the point (7, 8, 9). -/
noncomputable def fan : RayBundle WorldFrame (SharedOriginRayBundle ℝ) ℝ 2 := ⟨![![1, 2, 3], ![4, 5, 6]], ⟨![7, 8, 9]⟩⟩

example := c39_ray_bundle (Coords := WorldFrame) (b := fan)
  (c39_bundle_types (S := ℝ) ⟨![7, 8, 9]⟩ ⟨![0, 0, 0]⟩ (fun _ => rt_all _) (fun _ => rt_all _)).1 (fun _ _ => rt_all _)
example := c39_ray_bundle_dyn (Coords := WorldFrame) (b := fan)
  (c39_bundle_types (S := ℝ) ⟨![7, 8, 9]⟩ ⟨![0, 0, 0]⟩ (fun _ => rt_all _) (fun _ => rt_all _)).1 (fun _ _ => rt_all _)
example := c40_other_forms (R := ℝ) (.num (5 : ℝ)) (fun _ h => by cases h) (fun _ h => by cases h)
example := c40_bad_keys (R := ℝ) [("rquat", .num (1 : ℝ)), ("camcenter", .num 2), ("rquat", .num 3)] (.inl (by decide))
example := c40_error_kind (.seq [.num 0, .num 0, .num 0, .num (1 : ℝ)]) (.seq [.num 1, .num 2, .num 3])
  (⟨1, 0, 0, 0⟩ : Quat ℝ) ![1, 2, 3] rfl ((c40_vec3 _ _).2 ⟨_, _, _, rfl, rfl, rfl, rfl⟩) "zoom" (by decide) (by decide)
  (.num 7)
example := c41_extrinsics_cache (S := ℝ) (.fromRotationAndCamcenter exQuat ![1, 2, 3])
example := c41_extrinsics_views (S := ℝ) (.fromRotationAndCamcenter exQuat ![1, 2, 3])
example := c41_intrinsics_cache (S := ℝ) (.ofParams persp)
example := c42_accepts_any (S := ℝ) (q := ⟨1, 2, 3, 4⟩) (c := ![1, 2, 3]) ⟨rt_all _, rt_all _, rt_all _, rt_all _⟩
  (fun _ => rt_all _)
example := c42_not_unit ⟨1, 2, 3, 4⟩ (by norm_num [UnitQuat]) (fun h => by simpa [Quat.vector] using congrFun h 0) ![1, 2, 3]

/-! ### C43 and C68 -/

example := c43_grid (2 ^ 64 - 1) 640 480 5 7 (by norm_num) (by norm_num) (by norm_num) (by norm_num) (by norm_num) 1120
  (by norm_num)
example := c43_panic_height (2 ^ 64 - 1) 1120 640 480 5 500 (by norm_num)
example := c43_panic_width (2 ^ 64 - 1) 1120 100 480 5 110 (by norm_num) (by norm_num) (by norm_num)
example := c43_no_rows (2 ^ 64 - 1) 1120 100 480 5 300 (by norm_num) (by norm_num)
example := c43_step_zero (2 ^ 64 - 1) 1120 640 480 5 (by norm_num) (by norm_num) (by norm_num) (by norm_num)
example := c43_panics_iff (2 ^ 64 - 1) 640 480 5 500 (by norm_num) (by norm_num) (by norm_num) 1121 (by norm_num)
example := c43_perspective_passes persp fx_ne fy_ne (2 ^ 64 - 1) 640 480 5 7 (by norm_num) (by norm_num) (by norm_num)
  (by norm_num) (by norm_num) (1 / 10) (by norm_num) 1120 (by norm_num)
example := c43_orthographic_passes ortho sx_ne sy_ne (2 ^ 64 - 1) 640 480 5 7 (by norm_num) (by norm_num) (by norm_num)
  (by norm_num) (by norm_num) (1 / 10) (by norm_num) 1120 (by norm_num)
example := c43_detects (IntrinsicParametersPerspective.ofParams persp) (2 ^ 64 - 1) 640 480 5 7 (by norm_num) (by norm_num)
  (by norm_num) (by norm_num) (by norm_num) (1 / 10) 1120 (by norm_num)
example := c68_detects (Camera.mk (IntrinsicParametersPerspective.ofParams persp) pose) (2 ^ 64 - 1) 640 480 5 7
  (by norm_num) (by norm_num) (by norm_num) (by norm_num) (by norm_num) (1 / 10) 1120 (by norm_num)
example := c68_perspective_passes persp fx_ne fy_ne pose_valid (2 ^ 64 - 1) 640 480 5 7 (by norm_num) (by norm_num)
  (by norm_num) (by norm_num) (by norm_num) (1 / 10) (by norm_num) 1120 (by norm_num)
example := c68_orthographic_passes ortho sx_ne sy_ne pose_valid (2 ^ 64 - 1) 640 480 5 7 (by norm_num) (by norm_num)
  (by norm_num) (by norm_num) (by norm_num) (1 / 10) (by norm_num) 1120 (by norm_num)

/-! ### C70 -/

example := c70_same_pose ((c70_extrinsics exQuat (negQuat exQuat) ![1, 2, 3] ![1, 2, 3]).2
  ⟨rfl, .inr (by simp [negQuat])⟩)
example := c70_pose_iff pose_valid negated_valid
example := c70_perspective_cameras fx_pos fy_pos fx_pos fy_pos pose_valid negated_valid
example := c70_nan_centre XR.ieee XR.nanUnequal (fromRotationAndCamcenter idQuat ![.num 1, .nan, .num 3]) place (i := 1)
  (.inl trivial)
example := c70_infinite_centre XR.ieee XR.nanUnequal idQuat ![.num 1, .inf true, .num 3] (i := 0) (j := 1)
  (by show XR.ieee.isZero (idQuat.toRotationMatrix 0 1); rw [idQuat_rotation]; exact (rfl : (0 : ℝ) = 0)) (fun h => h) place
example := c70_nan_perspective XR.ieee XR.nanUnequal { lens with skew := .nan } lens (.inr (.inr (.inl trivial)))
example := c70_nan_orthographic XR.ieee XR.nanUnequal { scales with cy := .nan } scales (.inr (.inr (.inr trivial)))
example := c70_nan_camera XR.ieee XR.nanUnequal { lens with cx := .nan } lens place place
  (.inr (.inr (.inr (.inl trivial))))

end Examples
end CamGeom
