import Verif.Props.Extrinsics
import Verif.Props.Intrinsics

/-!
# C13–C17: cameras and rays
-/

namespace CamGeom
open Spec Matrix ExtrinsicParameters

/-- What a ray bundle type must satisfy for C13: changing the frame of the rays and taking a point
is the same as taking the point and changing its frame.  Distances are only considered for nonzero
directions. -/
def FrameChangeCommutes (B : Type) [Bundle ℝ B] : Prop :=
  ∀ (n : ℕ) (e : ExtrinsicParameters ℝ), ValidExtrinsics e →
    ∀ b : RayBundle CameraFrame B ℝ n,
      (e.rayCameraToWorld b).pointOnRay = e.cameraToWorld b.pointOnRay ∧
      ∀ s : ℝ, (∀ i, b.directions i ≠ 0) →
        (e.rayCameraToWorld b).pointOnRayAtDistance s = e.cameraToWorld (b.pointOnRayAtDistance s)

/-- C17, shared origin. -/
theorem c17_shared_origin : FrameChangeCommutes (SharedOriginRayBundle ℝ) := by
  rintro n e ⟨q, c, hq, rfl⟩ b
  refine ⟨?_, fun s _ => ?_⟩
  · ext1; funext i
    rw [cameraToWorld_row hq]
    simp only [rayCameraToWorld, RayBundle.toPose, Bundle.toPose, so_toPose, RayBundle.pointOnRay,
      Bundle.pointOnRay, so_pointOnRay, poseInv_transformPoint hq, poseInv_transformVector]
    have : (fun j => b.bundleType.center j + b.data i j) = b.bundleType.center + b.data i := rfl
    rw [this, rotate_add]
    funext j; simp only [Pi.add_apply]; ring
  · ext1; funext i
    rw [cameraToWorld_row hq]
    simp only [rayCameraToWorld, RayBundle.toPose, Bundle.toPose, so_toPose,
      RayBundle.pointOnRayAtDistance, Bundle.pointOnRayAtDistance, so_pointOnRayAtDistance,
      poseInv_transformPoint hq, poseInv_transformVector, norm_eq_len,
      len_rotate (unitQuat_inverse hq)]
    have : (fun j => b.bundleType.center j + s / len (b.data i) * b.data i j) =
      b.bundleType.center + (s / len (b.data i)) • b.data i := rfl
    rw [this, rotate_add, rotate_smul]
    funext j; simp only [Pi.add_apply, Pi.smul_apply, smul_eq_mul]; ring

/-- C17, shared direction. -/
theorem c17_shared_direction : FrameChangeCommutes (SharedDirectionRayBundle ℝ) := by
  rintro n e ⟨q, c, hq, rfl⟩ b
  refine ⟨?_, fun s _ => ?_⟩
  · ext1; funext i
    rw [cameraToWorld_row hq]
    simp only [rayCameraToWorld, RayBundle.toPose, Bundle.toPose, sd_toPose, RayBundle.pointOnRay,
      Bundle.pointOnRay, sd_pointOnRay, poseInv_transformPoint hq, poseInv_transformVector]
    have : (fun j => b.bundleType.direction j + b.data i j) = b.bundleType.direction + b.data i := rfl
    rw [this, rotate_add]
    funext j; simp only [Pi.add_apply]; ring
  · ext1; funext i
    rw [cameraToWorld_row hq]
    simp only [rayCameraToWorld, RayBundle.toPose, Bundle.toPose, sd_toPose,
      RayBundle.pointOnRayAtDistance, Bundle.pointOnRayAtDistance, sd_pointOnRayAtDistance,
      poseInv_transformPoint hq, poseInv_transformVector, norm_eq_len,
      len_rotate (unitQuat_inverse hq)]
    have : (fun j => s / len b.bundleType.direction * b.bundleType.direction j + b.data i j) =
      (s / len b.bundleType.direction) • b.bundleType.direction + b.data i := rfl
    rw [this, rotate_add, rotate_smul]
    funext j; simp only [Pi.add_apply, Pi.smul_apply, smul_eq_mul]; ring

theorem so_bundle_rows {C : Type} {n : ℕ} (b : RayBundle C (SharedOriginRayBundle ℝ) ℝ n) (i : Fin n) :
    b.centers i = b.bundleType.center ∧ b.directions i = b.data i := by
  simp only [RayBundle.centers, RayBundle.directions, Bundle.centers, Bundle.directions, so_centers,
    so_directions, and_self]

theorem sd_bundle_rows {C : Type} {n : ℕ} (b : RayBundle C (SharedDirectionRayBundle ℝ) ℝ n)
    (i : Fin n) : b.centers i = b.data i ∧ b.directions i = b.bundleType.direction := by
  simp only [RayBundle.centers, RayBundle.directions, Bundle.centers, Bundle.directions, sd_centers,
    sd_directions, and_self]

/-- C13: for every implementation of the intrinsics trait whose bundle type commutes with frame
changes (both bundle types of the crate do, C17), an intrinsic round trip is a camera round trip. -/
theorem c13_roundtrip {I : Type} [IntrinsicParameters ℝ I]
    (hB : FrameChangeCommutes (IntrinsicParameters.BundleType ℝ I))
    (c : Camera ℝ I) (hc : ValidExtrinsics c.extrinsics) {n : ℕ} (px : Pixels ℝ n)
    (h : IntrinsicParameters.cameraToPixel c.intrinsics
      (IntrinsicParameters.pixelToCamera c.intrinsics px).pointOnRay = px) :
    c.worldToPixel (c.pixelToWorld px).pointOnRay = px := by
  rw [Camera.worldToPixel, Camera.pixelToWorld]
  simp only [(hB n _ hc _).1, c02_camera_world_camera hc, h]

/-- C13 with `point_on_ray_at_distance`. -/
theorem c13_roundtrip_at_distance {I : Type} [IntrinsicParameters ℝ I]
    (hB : FrameChangeCommutes (IntrinsicParameters.BundleType ℝ I))
    (c : Camera ℝ I) (hc : ValidExtrinsics c.extrinsics) {n : ℕ} (px : Pixels ℝ n) (s : ℝ)
    (hd : ∀ i, (IntrinsicParameters.pixelToCamera c.intrinsics px).directions i ≠ 0)
    (h : IntrinsicParameters.cameraToPixel c.intrinsics
      ((IntrinsicParameters.pixelToCamera c.intrinsics px).pointOnRayAtDistance s) = px) :
    c.worldToPixel ((c.pixelToWorld px).pointOnRayAtDistance s) = px := by
  rw [Camera.worldToPixel, Camera.pixelToWorld]
  simp only [(hB n _ hc _).2 s hd, c02_camera_world_camera hc, h]

/-- C13 for the crate's perspective camera. -/
theorem c13_perspective (p : PerspectiveParams ℝ) (hx : p.fx ≠ 0) (hy : p.fy ≠ 0)
    {e : ExtrinsicParameters ℝ} (he : ValidExtrinsics e) {n : ℕ} (px : Pixels ℝ n) (s : ℝ)
    (hs : s ≠ 0) :
    let c : Camera ℝ (IntrinsicParametersPerspective ℝ) := ⟨.ofParams p, e⟩
    c.worldToPixel (c.pixelToWorld px).pointOnRay = px ∧
    c.worldToPixel ((c.pixelToWorld px).pointOnRayAtDistance s) = px := by
  intro c
  refine ⟨c13_roundtrip c17_shared_origin c he px (c10_roundtrip p hx hy px),
    c13_roundtrip_at_distance c17_shared_origin c he px s (fun i h => ?_)
      (c10_roundtrip_at_distance p hx hy px s hs)⟩
  have h2 : ((IntrinsicParametersPerspective.ofParams p).pixelToCamera px).data i = 0 :=
    (so_bundle_rows ((IntrinsicParametersPerspective.ofParams p).pixelToCamera px) i).2.symm.trans h
  have := persp_dir_z p px i
  rw [h2] at this; simp at this

/-- C13 for the crate's orthographic camera. -/
theorem c13_orthographic (p : OrthographicParams ℝ) (hx : p.sx ≠ 0) (hy : p.sy ≠ 0)
    {e : ExtrinsicParameters ℝ} (he : ValidExtrinsics e) {n : ℕ} (px : Pixels ℝ n) (s : ℝ) :
    let c : Camera ℝ (IntrinsicParametersOrthographic ℝ) := ⟨.ofParams p, e⟩
    c.worldToPixel (c.pixelToWorld px).pointOnRay = px ∧
    c.worldToPixel ((c.pixelToWorld px).pointOnRayAtDistance s) = px := by
  intro c
  refine ⟨c13_roundtrip c17_shared_direction c he px (c12_roundtrip p hx hy px s).1,
    c13_roundtrip_at_distance c17_shared_direction c he px s (fun i h => ?_)
      (c12_roundtrip p hx hy px s).2⟩
  have h2 : ((IntrinsicParametersOrthographic.ofParams p).pixelToCamera px).bundleType.direction
      = 0 :=
    (sd_bundle_rows ((IntrinsicParametersOrthographic.ofParams p).pixelToCamera px) i).2.symm.trans h
  rw [ortho_direction] at h2
  have := congrFun h2 2
  simp at this

/-- Data of the world rays of a perspective camera. -/
theorem persp_pixelToWorld (i : IntrinsicParametersPerspective ℝ) {q : Quat ℝ} (hq : UnitQuat q)
    (c : V3 ℝ) {n : ℕ} (px : Pixels ℝ n) :
    (Camera.mk i (fromRotationAndCamcenter q c)).pixelToWorld px =
      { data := fun k => q.inverse.rotate ((i.pixelToCamera px).data k),
        bundleType := ⟨q.inverse.rotate (i.pixelToCamera px).bundleType.center + c⟩ } := by
  simp only [Camera.pixelToWorld, IntrinsicParameters.pixelToCamera, rayCameraToWorld,
    RayBundle.toPose, Bundle.toPose, so_toPose, poseInv_transformPoint hq, poseInv_transformVector]

/-- Data of the world rays of an orthographic camera. -/
theorem ortho_pixelToWorld (i : IntrinsicParametersOrthographic ℝ) {q : Quat ℝ} (hq : UnitQuat q)
    (c : V3 ℝ) {n : ℕ} (px : Pixels ℝ n) :
    (Camera.mk i (fromRotationAndCamcenter q c)).pixelToWorld px =
      { data := fun k => q.inverse.rotate ((i.pixelToCamera px).data k) + c,
        bundleType := ⟨q.inverse.rotate (i.pixelToCamera px).bundleType.direction⟩ } := by
  simp only [Camera.pixelToWorld, IntrinsicParameters.pixelToCamera, rayCameraToWorld,
    RayBundle.toPose, Bundle.toPose, sd_toPose, poseInv_transformPoint hq, poseInv_transformVector]

/-- C14, perspective: rays start at `camcenter()` and point forward. -/
theorem c14_perspective (p : PerspectiveParams ℝ) (_hx : p.fx ≠ 0) (_hy : p.fy ≠ 0)
    {e : ExtrinsicParameters ℝ} (he : ValidExtrinsics e) {n : ℕ} (px : Pixels ℝ n) (i : Fin n) :
    let b := (Camera.mk (IntrinsicParametersPerspective.ofParams p) e).pixelToWorld px
    RayBundle.centers (B := SharedOriginRayBundle ℝ) b i = e.camcenter ∧
    RayBundle.directions (B := SharedOriginRayBundle ℝ) b i ≠ 0 ∧
    0 < RayBundle.directions (B := SharedOriginRayBundle ℝ) b i ⬝ᵥ e.forward := by
  obtain ⟨q, c, hq, rfl⟩ := he
  intro b
  have hc := (so_bundle_rows b i).1
  have hd := (so_bundle_rows b i).2
  have hb : b = _ := persp_pixelToWorld (IntrinsicParametersPerspective.ofParams p) hq c px
  have hpos : 0 < RayBundle.directions (B := SharedOriginRayBundle ℝ) b i ⬝ᵥ
      (fromRotationAndCamcenter q c).forward := by
    rw [hd, hb, forward_eq hq, rotate_dot (unitQuat_inverse hq)]
    simp [persp_dir_z, dotProduct, Fin.sum_univ_three]
  refine ⟨?_, ?_, hpos⟩
  · rw [hc, hb, c04_camcenter]
    simp [persp_center, rotate_zero]
  · intro h0
    rw [h0] at hpos
    simp at hpos

/-- C14, orthographic: all rays have direction `forward()`. -/
theorem c14_orthographic (p : OrthographicParams ℝ)
    {e : ExtrinsicParameters ℝ} (he : ValidExtrinsics e) {n : ℕ} (px : Pixels ℝ n) (i : Fin n) :
    let b := (Camera.mk (IntrinsicParametersOrthographic.ofParams p) e).pixelToWorld px
    RayBundle.directions (B := SharedDirectionRayBundle ℝ) b i = e.forward := by
  obtain ⟨q, c, hq, rfl⟩ := he
  intro b
  have hd := (sd_bundle_rows b i).2
  have hb : b = _ := ortho_pixelToWorld (IntrinsicParametersOrthographic.ofParams p) hq c px
  rw [hd, hb, forward_eq hq, ortho_direction]

/-- C15, perspective: a world point at nonzero depth is on the ray of its own pixel, at parameter
equal to its depth. -/
theorem c15_perspective (p : PerspectiveParams ℝ) (hx : p.fx ≠ 0) (hy : p.fy ≠ 0)
    {e : ExtrinsicParameters ℝ} (he : ValidExtrinsics e) {n : ℕ} (w : Points WorldFrame ℝ n)
    (i : Fin n) (hz : (e.worldToCamera w).data i 2 ≠ 0) :
    let c := Camera.mk (IntrinsicParametersPerspective.ofParams p) e
    let b := c.pixelToWorld (c.worldToPixel w)
    w.data i = RayBundle.centers (B := SharedOriginRayBundle ℝ) b i +
      (e.worldToCamera w).data i 2 • RayBundle.directions (B := SharedOriginRayBundle ℝ) b i := by
  obtain ⟨q, cc, hq, rfl⟩ := he
  intro c b
  have hc := (so_bundle_rows b i).1
  have hd := (so_bundle_rows b i).2
  have hb : b = _ := persp_pixelToWorld (IntrinsicParametersPerspective.ofParams p) hq cc
    (c.worldToPixel w)
  rw [hc, hd, hb]
  simp only [persp_center, rotate_zero, zero_add]
  have key : (IntrinsicParametersPerspective.pixelToCamera (.ofParams p) (c.worldToPixel w)).data i =
      (((fromRotationAndCamcenter q cc).worldToCamera w).data i 2)⁻¹ •
        ((fromRotationAndCamcenter q cc).worldToCamera w).data i := by
    have hpx : (c.worldToPixel w).data i = pinhole p.fx p.fy p.skew p.cx p.cy
        (((fromRotationAndCamcenter q cc).worldToCamera w).data i) := c11_pinhole p _ i hz
    rw [persp_pixelToCamera]
    simp only [hpx]
    generalize ((fromRotationAndCamcenter q cc).worldToCamera w).data i = x at hz
    funext a
    fin_cases a
    · simp [pinhole, IntrinsicParametersPerspective.ofParams]; field_simp; ring
    · simp [pinhole, IntrinsicParametersPerspective.ofParams]; field_simp
    · simp [hz]
  rw [key, rotate_smul, smul_smul, mul_inv_cancel₀ hz, one_smul, worldToCamera_row hq,
    inverse_rotate_rotate hq]
  abel

/-- C15, orthographic: every world point is on the ray of its own pixel, at parameter equal to its
depth. -/
theorem c15_orthographic (p : OrthographicParams ℝ) (hx : p.sx ≠ 0) (hy : p.sy ≠ 0)
    {e : ExtrinsicParameters ℝ} (he : ValidExtrinsics e) {n : ℕ} (w : Points WorldFrame ℝ n)
    (i : Fin n) :
    let c := Camera.mk (IntrinsicParametersOrthographic.ofParams p) e
    let b := c.pixelToWorld (c.worldToPixel w)
    w.data i = RayBundle.centers (B := SharedDirectionRayBundle ℝ) b i +
      (e.worldToCamera w).data i 2 • RayBundle.directions (B := SharedDirectionRayBundle ℝ) b i := by
  obtain ⟨q, cc, hq, rfl⟩ := he
  intro c b
  have hc := (sd_bundle_rows b i).1
  have hd := (sd_bundle_rows b i).2
  have hb : b = _ := ortho_pixelToWorld (IntrinsicParametersOrthographic.ofParams p) hq cc
    (c.worldToPixel w)
  rw [hc, hd, hb]
  simp only [ortho_direction]
  have key : (IntrinsicParametersOrthographic.pixelToCamera (.ofParams p) (c.worldToPixel w)).data i +
      (((fromRotationAndCamcenter q cc).worldToCamera w).data i 2) • ![0, 0, 1] =
        ((fromRotationAndCamcenter q cc).worldToCamera w).data i := by
    have hpx : (c.worldToPixel w).data i = orthographic p.sx p.sy p.cx p.cy
        (((fromRotationAndCamcenter q cc).worldToCamera w).data i) := c12_formula p _ i
    rw [ortho_pixelToCamera]
    simp only [hpx]
    generalize ((fromRotationAndCamcenter q cc).worldToCamera w).data i = x
    funext a
    fin_cases a
    · simp [orthographic, IntrinsicParametersOrthographic.ofParams]; field_simp
    · simp [orthographic, IntrinsicParametersOrthographic.ofParams]; field_simp
    · simp
  have h2 := congrArg q.inverse.rotate key
  rw [rotate_add, rotate_smul, worldToCamera_row hq, inverse_rotate_rotate hq] at h2
  rw [worldToCamera_row hq, add_right_comm, h2]
  abel

/-- Non-vacuity of C14/C15: the documented camera and a point at nonzero depth (camera of
`exQuat` at (1,2,3) looking at (1,3,3)). -/
example : ((fromRotationAndCamcenter exQuat ![1, 2, 3]).worldToCamera
    (.single ![1, 3, 3])).data 0 2 ≠ 0 := by
  rw [worldToCamera_row exQuat_unit, rotate_apply]
  simp [Points.single, exQuat]; norm_num

/-- C16, shared origin: `point_on_ray_at_distance` is on the ray's line, at distance `|s|` from the
ray's origin, and on the direction's side for positive `s`. -/
theorem c16_shared_origin {C : Type} {n : ℕ} (b : RayBundle C (SharedOriginRayBundle ℝ) ℝ n) (s : ℝ)
    (i : Fin n) (hd : b.directions i ≠ 0) :
    (b.pointOnRayAtDistance s).data i ∈ line (b.centers i) (b.directions i) ∧
    distance ((b.pointOnRayAtDistance s).data i) (b.centers i) = |s| ∧
    (0 < s → (b.pointOnRayAtDistance s).data i ∈ halfLine (b.centers i) (b.directions i)) := by
  rw [(so_bundle_rows b i).2] at hd ⊢
  rw [(so_bundle_rows b i).1]
  have hl := len_pos.2 hd
  have hpt : (b.pointOnRayAtDistance s).data i =
      b.bundleType.center + (s / len (b.data i)) • b.data i := by
    simp only [RayBundle.pointOnRayAtDistance, Bundle.pointOnRayAtDistance, so_pointOnRayAtDistance,
      norm_eq_len]
    rfl
  rw [hpt]
  refine ⟨⟨_, rfl⟩, ?_, fun hs => ⟨_, div_pos hs hl, rfl⟩⟩
  rw [distance, add_sub_cancel_left, len_smul, abs_div, abs_of_pos hl, div_mul_cancel₀ _ hl.ne']

/-- C16, shared direction. -/
theorem c16_shared_direction {C : Type} {n : ℕ} (b : RayBundle C (SharedDirectionRayBundle ℝ) ℝ n)
    (s : ℝ) (i : Fin n) (hd : b.directions i ≠ 0) :
    (b.pointOnRayAtDistance s).data i ∈ line (b.centers i) (b.directions i) ∧
    distance ((b.pointOnRayAtDistance s).data i) (b.centers i) = |s| ∧
    (0 < s → (b.pointOnRayAtDistance s).data i ∈ halfLine (b.centers i) (b.directions i)) := by
  rw [(sd_bundle_rows b i).2] at hd ⊢
  rw [(sd_bundle_rows b i).1]
  have hl := len_pos.2 hd
  have hpt : (b.pointOnRayAtDistance s).data i =
      b.data i + (s / len b.bundleType.direction) • b.bundleType.direction := by
    simp only [RayBundle.pointOnRayAtDistance, Bundle.pointOnRayAtDistance, sd_pointOnRayAtDistance,
      norm_eq_len]
    funext j; simp [add_comm]
  rw [hpt]
  refine ⟨⟨_, rfl⟩, ?_, fun hs => ⟨_, div_pos hs hl, rfl⟩⟩
  rw [distance, add_sub_cancel_left, len_smul, abs_div, abs_of_pos hl, div_mul_cancel₀ _ hl.ne']

/-- Non-vacuity of C16: a ray with nonzero, non-unit direction. -/
example : ∃ b : RayBundle WorldFrame (SharedOriginRayBundle ℝ) ℝ 1,
    b.directions 0 ≠ 0 ∧ len (b.directions 0) = 5 := by
  refine ⟨⟨fun _ => ![3, 4, 0], ⟨![1, 1, 1]⟩⟩, ?_, ?_⟩ <;> rw [(so_bundle_rows _ 0).2]
  · intro h; simpa using congrFun h 0
  · rw [len, Real.sqrt_eq_iff_mul_self_eq (Finset.sum_nonneg fun i _ => sq_nonneg _) (by norm_num)]
    simp [Fin.sum_univ_three]; norm_num

end CamGeom
