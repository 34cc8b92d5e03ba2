import Verif.Model.RayBundleTypes

/-!
# `/repo/src/extrinsics.rs`
-/

namespace CamGeom

/-- `struct ExtrinsicsCache` (`/repo/src/extrinsics.rs:39-47`).  `Rotation3` is its 3x3 matrix. -/
@[ext] structure ExtrinsicsCache (R : Type) where
  q : Mat 3 3 R
  translation : V3 R
  qt : Mat 3 4 R
  qInv : Mat 3 3 R
  camcenterZ0 : V3 R
  pose : Isometry R
  poseInv : Isometry R

/-- `struct ExtrinsicParameters` (`/repo/src/extrinsics.rs:20-25`). -/
@[ext] structure ExtrinsicParameters (R : Type) where
  rquat : Quat R
  camcenter : V3 R
  cache : ExtrinsicsCache R

namespace ExtrinsicParameters
variable {R : Type} [Scalar R]

/-- `from_rotation_and_camcenter` (`/repo/src/extrinsics.rs:58-98`). -/
def fromRotationAndCamcenter (rotation : Quat R) (camcenter : V3 R) : ExtrinsicParameters R :=
  let q := rotation.toRotationMatrix
  let translation := V3.neg (Mat.mulVec3 q camcenter)
  let qt : Mat 3 4 R :=
    ![![q 0 0, q 0 1, q 0 2, translation 0],
      ![q 1 0, q 1 1, q 1 2, translation 1],
      ![q 2 0, q 2 1, q 2 2, translation 2]]
  let qInv := Mat.transpose' q
  let camcenterZ0 : V3 R := ![camcenter 0, camcenter 1, Scalar.lit 0]
  let pose : Isometry R := { translation := translation, rotation := rotation }
  let poseInv := pose.inverse
  { rquat := rotation
    camcenter
    cache := { q, translation, qt, qInv, camcenterZ0, pose, poseInv } }

/-- `from_pose` (`/repo/src/extrinsics.rs:101-108`). -/
def fromPose (pose : Isometry R) : ExtrinsicParameters R :=
  let rquat := pose.rotation
  let translation := pose.translation
  let q := rquat.inverse.toRotationMatrix
  let camcenter := V3.neg (Mat.mulVec3 q translation)
  fromRotationAndCamcenter rquat camcenter

/-- `from_view` (`/repo/src/extrinsics.rs:111-126`).  `up` is a `Unit<Vector3>`; its unit norm is
not part of the type here and is not needed by the theorems. -/
def fromView (na : Linalg R) (camcenter lookat up : V3 R) : ExtrinsicParameters R :=
  let dir := V3.sub lookat camcenter
  let dirUnit := V3.normalize dir
  let q := lookAtLh na dirUnit up
  let pi : R := Scalar.pi
  let q2 := Quat.fromAxisAngle dirUnit pi
  let q3 := Quat.mul q q2
  fromRotationAndCamcenter q3 camcenter

/-- `pose()` (`/repo/src/extrinsics.rs:136`). -/
def pose {R : Type} (e : ExtrinsicParameters R) : Isometry R := e.cache.pose
/-- `matrix()` (`/repo/src/extrinsics.rs:142`). -/
def matrix {R : Type} (e : ExtrinsicParameters R) : Mat 3 4 R := e.cache.qt
/-- `rotation()` (`/repo/src/extrinsics.rs:151`). -/
def rotation {R : Type} (e : ExtrinsicParameters R) : Mat 3 3 R := e.cache.q
/-- `translation()` (`/repo/src/extrinsics.rs:157`). -/
def translation {R : Type} (e : ExtrinsicParameters R) : V3 R := e.cache.translation

/-- `lookdir` (`/repo/src/extrinsics.rs:182-186`). -/
def lookdir (e : ExtrinsicParameters R) (ptCam : V3 R) : V3 R :=
  let cc := e.camcenter
  let pt := V3.sub (e.cache.poseInv.transformPoint ptCam) cc
  V3.normalize pt

/-- `forward()` (`/repo/src/extrinsics.rs:162-165`). -/
def forward (e : ExtrinsicParameters R) : V3 R := e.lookdir ![0, 0, 1]
/-- `up()` (`/repo/src/extrinsics.rs:168-171`). -/
def up (e : ExtrinsicParameters R) : V3 R := e.lookdir ![0, -1, 0]
/-- `right()` (`/repo/src/extrinsics.rs:174-177`). -/
def right (e : ExtrinsicParameters R) : V3 R := e.lookdir ![1, 0, 0]

/-- `camera_to_world` (`/repo/src/extrinsics.rs:189-218`). -/
def cameraToWorld {n : ℕ} (e : ExtrinsicParameters R) (camCoords : Points CameraFrame R n) :
    Points WorldFrame R n :=
  let inMult := camCoords.data
  { data := forRange n (Mat.zeros n 3) fun i outMult =>
      let tmp := e.cache.poseInv.transformPoint ![inMult i 0, inMult i 1, inMult i 2]
      forRange 3 outMult fun j outMult => outMult.set i j (tmp j) }

/-- `ray_camera_to_world` (`/repo/src/extrinsics.rs:222-233`). -/
def rayCameraToWorld {B : Type} [Bundle R B] {n : ℕ} (e : ExtrinsicParameters R)
    (camera : RayBundle CameraFrame B R n) : RayBundle WorldFrame B R n :=
  camera.toPose e.cache.poseInv

/-- `world_to_camera` (`/repo/src/extrinsics.rs:236-265`). -/
def worldToCamera {n : ℕ} (e : ExtrinsicParameters R) (world : Points WorldFrame R n) :
    Points CameraFrame R n :=
  let inMult := world.data
  { data := forRange n (Mat.zeros n 3) fun i outMult =>
      let tmp := e.cache.pose.transformPoint ![inMult i 0, inMult i 1, inMult i 2]
      forRange 3 outMult fun j outMult => outMult.set i j (tmp j) }

end ExtrinsicParameters
end CamGeom
