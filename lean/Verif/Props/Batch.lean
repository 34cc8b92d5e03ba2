import Verif.Lemmas.Loops
import Verif.Spec.Geometry

/-!
# C01 (batch conversions are row-wise) and C18 (ray bundle views agree)

No arithmetic law is used: `R` is any scalar type, IEEE floats included.  That `N` inputs give `N`
outputs is part of the types (`Points _ R n → Pixels R n`).
-/

namespace CamGeom

variable {R : Type} [Scalar R] {n : ℕ}

/-- C01, `world_to_camera`. -/
theorem c01_world_to_camera (e : ExtrinsicParameters R) (w : Points WorldFrame R n) (i : Fin n) :
    (e.worldToCamera w).data i = (e.worldToCamera (.single (w.data i))).data 0 := by
  simp only [worldToCamera_data, Points.single]

/-- C01, `camera_to_world`. -/
theorem c01_camera_to_world (e : ExtrinsicParameters R) (w : Points CameraFrame R n) (i : Fin n) :
    (e.cameraToWorld w).data i = (e.cameraToWorld (.single (w.data i))).data 0 := by
  simp only [cameraToWorld_data, Points.single]

/-- C01, perspective `camera_to_pixel`. -/
theorem c01_persp_camera_to_pixel (c : IntrinsicParametersPerspective R)
    (w : Points CameraFrame R n) (i : Fin n) :
    (c.cameraToPixel w).data i = (c.cameraToPixel (.single (w.data i))).data 0 := by
  simp only [persp_cameraToPixel, Points.single]

/-- C01, perspective `pixel_to_camera`: the ray of row `i` (its data and the shared part). -/
theorem c01_persp_pixel_to_camera (c : IntrinsicParametersPerspective R) (p : Pixels R n)
    (i : Fin n) : (c.pixelToCamera p).rayAlone i = c.pixelToCamera (.single (p.data i)) := by
  simp only [persp_pixelToCamera, Pixels.single, RayBundle.rayAlone]

/-- C01, orthographic `camera_to_pixel`. -/
theorem c01_ortho_camera_to_pixel (c : IntrinsicParametersOrthographic R)
    (w : Points CameraFrame R n) (i : Fin n) :
    (c.cameraToPixel w).data i = (c.cameraToPixel (.single (w.data i))).data 0 := by
  simp only [ortho_cameraToPixel, Points.single]

/-- C01, orthographic `pixel_to_camera`. -/
theorem c01_ortho_pixel_to_camera (c : IntrinsicParametersOrthographic R) (p : Pixels R n)
    (i : Fin n) : (c.pixelToCamera p).rayAlone i = c.pixelToCamera (.single (p.data i)) := by
  simp only [ortho_pixelToCamera, Pixels.single, RayBundle.rayAlone]

/-- C01, `Camera::world_to_pixel`, perspective. -/
theorem c01_persp_world_to_pixel (c : Camera R (IntrinsicParametersPerspective R))
    (w : Points WorldFrame R n) (i : Fin n) :
    (c.worldToPixel w).data i = (c.worldToPixel (.single (w.data i))).data 0 := by
  simp only [Camera.worldToPixel, IntrinsicParameters.cameraToPixel, persp_cameraToPixel,
    worldToCamera_data, Points.single]

/-- C01, `Camera::world_to_pixel`, orthographic. -/
theorem c01_ortho_world_to_pixel (c : Camera R (IntrinsicParametersOrthographic R))
    (w : Points WorldFrame R n) (i : Fin n) :
    (c.worldToPixel w).data i = (c.worldToPixel (.single (w.data i))).data 0 := by
  simp only [Camera.worldToPixel, IntrinsicParameters.cameraToPixel, ortho_cameraToPixel,
    worldToCamera_data, Points.single]

/-- C01, `Camera::pixel_to_world`, perspective. -/
theorem c01_persp_pixel_to_world (c : Camera R (IntrinsicParametersPerspective R)) (p : Pixels R n)
    (i : Fin n) : (c.pixelToWorld p).rayAlone i = c.pixelToWorld (.single (p.data i)) := by
  simp only [Camera.pixelToWorld, IntrinsicParameters.pixelToCamera, persp_pixelToCamera,
    Pixels.single, RayBundle.rayAlone, ExtrinsicParameters.rayCameraToWorld, RayBundle.toPose,
    Bundle.toPose, so_toPose]

/-- C01, `Camera::pixel_to_world`, orthographic. -/
theorem c01_ortho_pixel_to_world (c : Camera R (IntrinsicParametersOrthographic R)) (p : Pixels R n)
    (i : Fin n) : (c.pixelToWorld p).rayAlone i = c.pixelToWorld (.single (p.data i)) := by
  simp only [Camera.pixelToWorld, IntrinsicParameters.pixelToCamera, ortho_pixelToCamera,
    Pixels.single, RayBundle.rayAlone, ExtrinsicParameters.rayCameraToWorld, RayBundle.toPose,
    Bundle.toPose, sd_toPose]

/-- C01, `point_on_ray` and `point_on_ray_at_distance`, shared origin. -/
theorem c01_so_point_on_ray {Coords : Type} (b : RayBundle Coords (SharedOriginRayBundle R) R n)
    (d : R) (i : Fin n) :
    b.pointOnRay.data i = (b.rayAlone i).pointOnRay.data 0 ∧
    (b.pointOnRayAtDistance d).data i = ((b.rayAlone i).pointOnRayAtDistance d).data 0 := by
  simp only [RayBundle.pointOnRay, RayBundle.pointOnRayAtDistance, Bundle.pointOnRay,
    Bundle.pointOnRayAtDistance, so_pointOnRay, so_pointOnRayAtDistance, RayBundle.rayAlone,
    and_self]

/-- C01, `point_on_ray` and `point_on_ray_at_distance`, shared direction. -/
theorem c01_sd_point_on_ray {Coords : Type} (b : RayBundle Coords (SharedDirectionRayBundle R) R n)
    (d : R) (i : Fin n) :
    b.pointOnRay.data i = (b.rayAlone i).pointOnRay.data 0 ∧
    (b.pointOnRayAtDistance d).data i = ((b.rayAlone i).pointOnRayAtDistance d).data 0 := by
  simp only [RayBundle.pointOnRay, RayBundle.pointOnRayAtDistance, Bundle.pointOnRay,
    Bundle.pointOnRayAtDistance, sd_pointOnRay, sd_pointOnRayAtDistance, RayBundle.rayAlone,
    and_self]

/-- C01, `to_pose`: both bundle types. -/
theorem c01_to_pose {C D : Type} (p : Isometry R) (i : Fin n)
    (b : RayBundle C (SharedOriginRayBundle R) R n)
    (b' : RayBundle C (SharedDirectionRayBundle R) R n) :
    (b.toPose p : RayBundle D _ R n).rayAlone i = (b.rayAlone i).toPose p ∧
    (b'.toPose p : RayBundle D _ R n).rayAlone i = (b'.rayAlone i).toPose p := by
  simp only [RayBundle.toPose, Bundle.toPose, so_toPose, sd_toPose, RayBundle.rayAlone, and_self]

/-- C18, shared origin bundles: `centers()` repeats the origin, `directions()` are the stored rows,
and `point_on_ray` adds them. -/
theorem c18_shared_origin {Coords : Type} (b : RayBundle Coords (SharedOriginRayBundle R) R n)
    (i : Fin n) (j : Fin 3) :
    b.centers i = b.bundleType.center ∧ b.directions i = b.data i ∧
    b.pointOnRay.data i j = b.centers i j + b.directions i j := by
  simp only [RayBundle.pointOnRay, RayBundle.centers, RayBundle.directions, Bundle.pointOnRay,
    Bundle.centers, Bundle.directions, so_pointOnRay, so_centers, so_directions, and_self]

/-- C18, shared direction bundles (the code adds the direction first). -/
theorem c18_shared_direction {Coords : Type}
    (b : RayBundle Coords (SharedDirectionRayBundle R) R n) (i : Fin n) (j : Fin 3) :
    b.directions i = b.bundleType.direction ∧ b.centers i = b.data i ∧
    b.pointOnRay.data i j = b.directions i j + b.centers i j := by
  simp only [RayBundle.pointOnRay, RayBundle.centers, RayBundle.directions, Bundle.pointOnRay,
    Bundle.centers, Bundle.directions, sd_pointOnRay, sd_centers, sd_directions, and_self]

/-- C18, `to_single_ray` of a one-ray bundle. -/
theorem c18_single_ray {Coords : Type} (b : RayBundle Coords (SharedOriginRayBundle R) R 1)
    (b' : RayBundle Coords (SharedDirectionRayBundle R) R 1) :
    b.toSingleRay = { center := b.centers 0, direction := b.directions 0 } ∧
    b'.toSingleRay = { center := b'.centers 0, direction := b'.directions 0 } := by
  simp only [RayBundle.toSingleRay, Bundle.toSingleRay, RayBundle.centers, RayBundle.directions,
    Bundle.centers, Bundle.directions, so_centers, so_directions, sd_centers, sd_directions]
  exact ⟨rfl, rfl⟩

/-- C18, `new_shared_zero_origin` and `new_shared_plusz_direction`: the shared parts are the origin
and the +z direction, and the rows are the given data. -/
theorem c18_constructors {Coords : Type} (d : Mat n 3 R) (i : Fin n) :
    (RayBundle.newSharedZeroOrigin d : RayBundle Coords _ R n).centers i =
      ![Scalar.lit 0, Scalar.lit 0, Scalar.lit 0] ∧
    (RayBundle.newSharedZeroOrigin d : RayBundle Coords _ R n).directions i = d i ∧
    (RayBundle.newSharedPluszDirection d : RayBundle Coords _ R n).directions i = ![0, 0, 1] ∧
    (RayBundle.newSharedPluszDirection d : RayBundle Coords _ R n).centers i = d i := by
  simp only [RayBundle.newSharedZeroOrigin, RayBundle.newSharedPluszDirection, RayBundle.centers,
    RayBundle.directions, Bundle.centers, Bundle.directions, so_centers, so_directions, sd_centers,
    sd_directions, SharedOriginRayBundle.newSharedZeroOrigin,
    SharedDirectionRayBundle.newPluszSharedDirection, and_self]

/-- Non-vacuity for C01/C18: a batch of two different points really gives two different rows. -/
example : ∃ (b : RayBundle WorldFrame (SharedOriginRayBundle ℝ) ℝ 2),
    b.pointOnRay.data 0 ≠ b.pointOnRay.data 1 ∧ b.centers 0 = b.centers 1 := by
  refine ⟨⟨![![1, 0, 0], ![2, 0, 0]], ⟨![5, 5, 5]⟩⟩, ?_, ?_⟩
  · intro h
    have h0 := congrFun h 0
    rw [(c18_shared_origin _ 0 0).2.2, (c18_shared_origin _ 1 0).2.2,
      (c18_shared_origin _ 0 0).1, (c18_shared_origin _ 1 0).1,
      (c18_shared_origin _ 0 0).2.1, (c18_shared_origin _ 1 0).2.1] at h0
    simp at h0
  · rw [(c18_shared_origin _ 0 0).1, (c18_shared_origin _ 1 0).1]

end CamGeom
