import Verif.Props.TestUtils
import Verif.Props.CameraRays

/-!
# C68: `roundtrip_camera`
-/

namespace CamGeom
open Spec ExtrinsicParameters

/-- C68: the camera test passes iff every pixel of the grid comes back within `eps`, for any
intrinsics model and any extrinsics. -/
theorem c68_detects {I : Type} [IntrinsicParameters ℝ I] (cam : Camera ℝ I)
    (umax width height step border : ℕ) (hw : width ≤ umax) (hh : height ≤ umax)
    (hs : 0 < step) (hbw : border ≤ width) (hbh : border ≤ height) (eps : ℝ)
    (fuel : ℕ) (hf : width + height ≤ fuel) :
    roundtripCamera umax fuel cam width height step border eps = some (.ok ()) ↔
      ∀ (i : Fin (grid width height step border).length) (j : Fin 2),
        |![(((grid width height step border).get i).1 : ℝ),
            (((grid width height step border).get i).2 : ℝ)] j -
          (cam.worldToPixel (cam.pixelToWorld
              (⟨fun i => ![(((grid width height step border).get i).1 : ℝ),
                (((grid width height step border).get i).2 : ℝ)]⟩ :
                  Pixels ℝ _)).pointOnRay).data i j| ≤ eps := by
  have hp : (pixelsOfList (grid width height step border) : Pixels ℝ _) =
      ⟨fun i => ![(((grid width height step border).get i).1 : ℝ),
        (((grid width height step border).get i).2 : ℝ)]⟩ := by
    ext1
    rw [pixelsOfList_data]
    simp
  unfold roundtripCamera
  rw [c43_grid umax width height step border hw hh hs hbw hbh fuel hf]
  simp only [Option.map_some, Option.some.injEq, c43_assert_iff, hp]

/-- C68: for a camera with a valid pose the camera test has exactly the outcome of the intrinsics
test, whatever the arguments (including those that panic or do not terminate): the pose cannot make it
pass or fail. -/
theorem c68_pose_irrelevant {I : Type} [IntrinsicParameters ℝ I]
    (hB : FrameChangeCommutes (IntrinsicParameters.BundleType ℝ I)) (cam : Camera ℝ I)
    (hc : ValidExtrinsics cam.extrinsics) (umax fuel width height step border : ℕ) (eps : ℝ) :
    roundtripCamera umax fuel cam width height step border eps =
      roundtripIntrinsics umax fuel cam.intrinsics width height step border eps := by
  unfold roundtripCamera roundtripIntrinsics
  congr 1
  funext o
  cases o with
  | ok uv =>
    simp only [Camera.worldToPixel, Camera.pixelToWorld, (hB _ _ hc _).1, c02_camera_world_camera hc]
  | err e => rfl
  | panic => rfl

/-- C68: perspective cameras with nonzero focal lengths pass, with any tolerance and at any pose. -/
theorem c68_perspective_passes (p : PerspectiveParams ℝ) (hx : p.fx ≠ 0) (hy : p.fy ≠ 0)
    {e : ExtrinsicParameters ℝ} (he : ValidExtrinsics e) (umax width height step border : ℕ)
    (hw : width ≤ umax) (hh : height ≤ umax) (hs : 0 < step) (hbw : border ≤ width)
    (hbh : border ≤ height) (eps : ℝ) (heps : 0 ≤ eps) (fuel : ℕ) (hf : width + height ≤ fuel) :
    roundtripCamera umax fuel (⟨.ofParams p, e⟩ : Camera ℝ (IntrinsicParametersPerspective ℝ)) width
      height step border eps = some (.ok ()) := by
  rw [c68_pose_irrelevant c17_shared_origin _ he]
  exact c43_perspective_passes p hx hy umax width height step border hw hh hs hbw hbh eps heps fuel hf

/-- C68: orthographic cameras with nonzero scales pass, with any tolerance and at any pose. -/
theorem c68_orthographic_passes (p : OrthographicParams ℝ) (hx : p.sx ≠ 0) (hy : p.sy ≠ 0)
    {e : ExtrinsicParameters ℝ} (he : ValidExtrinsics e) (umax width height step border : ℕ)
    (hw : width ≤ umax) (hh : height ≤ umax) (hs : 0 < step) (hbw : border ≤ width)
    (hbh : border ≤ height) (eps : ℝ) (heps : 0 ≤ eps) (fuel : ℕ) (hf : width + height ≤ fuel) :
    roundtripCamera umax fuel (⟨.ofParams p, e⟩ : Camera ℝ (IntrinsicParametersOrthographic ℝ)) width
      height step border eps = some (.ok ()) := by
  rw [c68_pose_irrelevant c17_shared_direction _ he]
  exact c43_orthographic_passes p hx hy umax width height step border hw hh hs hbw hbh eps heps fuel hf

/-- Non-vacuity: the arguments of the crate's own test, a turned camera away from the origin. -/
example : roundtripCamera (2 ^ 64 - 1) 2000 (⟨.ofParams exPersp,
      fromRotationAndCamcenter exQuat ![1, 2, 3]⟩ : Camera ℝ (IntrinsicParametersPerspective ℝ)) 640
    480 5 5 (1 / 10 : ℝ) = some (.ok ()) :=
  c68_perspective_passes _ (by norm_num [exPersp]) (by norm_num [exPersp]) ex_valid _ _ _ _ _
    (by norm_num) (by norm_num) (by norm_num) (by norm_num) (by norm_num) _ (by norm_num) _
    (by norm_num)

end CamGeom
