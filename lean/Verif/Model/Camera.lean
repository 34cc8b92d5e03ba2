import Verif.Model.Intrinsics
import Verif.Model.Extrinsics

/-!
# `/repo/src/camera.rs`
-/

namespace CamGeom

/-- `struct Camera` (`/repo/src/camera.rs:72-79`), `Camera::new` (`:91-96`) and the accessors
`extrinsics()`, `intrinsics()` (`:100-108`). -/
@[ext] structure Camera (R : Type) (I : Type) where
  intrinsics : I
  extrinsics : ExtrinsicParameters R

namespace Camera
variable {R : Type} [Scalar R]

section
variable {I : Type} [IntrinsicParameters R I] {n : ℕ}

/-- `world_to_pixel` (`/repo/src/camera.rs:111-123`). -/
def worldToPixel (c : Camera R I) (world : Points WorldFrame R n) : Pixels R n :=
  let cameraFrame := c.extrinsics.worldToCamera world
  IntrinsicParameters.cameraToPixel c.intrinsics cameraFrame

/-- `pixel_to_world` (`/repo/src/camera.rs:133-151`). -/
def pixelToWorld (c : Camera R I) (pixels : Pixels R n) :
    RayBundle WorldFrame (IntrinsicParameters.BundleType R I) R n :=
  let camera := IntrinsicParameters.pixelToCamera c.intrinsics pixels
  c.extrinsics.rayCameraToWorld camera
end

/-- `rq` (`/repo/src/camera.rs:225-245`): RQ factorization through a QR of the flipped transpose.
Returns `(R, Q)`. -/
def rq (na : Linalg R) (A : Mat 3 3 R) : Mat 3 3 R × Mat 3 3 R :=
  let zero : R := Scalar.lit 0
  let one : R := Scalar.lit 1
  let P : Mat 3 3 R :=
    ![![zero, zero, one],
      ![zero, one, zero],
      ![one, zero, zero]]
  let Atilde := Mat.mul3 P A
  let qrm := na.qr (Mat.transpose' Atilde)
  let Qtilde := qrm.1
  let Rtilde := qrm.2
  let Q := Mat.mul3 P (Mat.transpose' Qtilde)
  let Rm := Mat.mul3 (Mat.mul3 P (Mat.transpose' Rtilde)) P
  (Rm, Q)

/-- The sign-flipping loop of `rq_decomposition` (`/repo/src/camera.rs:256-263`). -/
def flipSigns (intrin q : Mat 3 3 R) : Mat 3 3 R × Mat 3 3 R :=
  let zero : R := Scalar.lit 0
  forRange 3 (intrin, q) fun i s =>
    if Scalar.lt (s.1 i i) zero then
      forRange 3 s fun j s =>
        (s.1.set j i (-(s.1 j i)), s.2.set i j (-(s.2 i j)))
    else s

/-- `rq_decomposition` (`/repo/src/camera.rs:248-284`). -/
def rqDecomposition (na : Linalg R) (orig : Mat 3 3 R) : Except Error (Quat R × Mat 3 3 R) :=
  let iq := rq na orig
  let iq := flipSigns iq.1 iq.2
  let intrin := iq.1
  let q := iq.2
  let r1 := q
  let r2 := Mat.neg q
  if Scalar.lt (Mat.det3 r2) (Mat.det3 r1) then
    .ok (na.fromRotationMatrix r1, intrin)
  else
    .ok (na.fromRotationMatrix r2, Mat.neg intrin)

/-- `pmat2cam_center` (`/repo/src/camera.rs:288-298`). -/
def pmat2camCenter (p : Mat 3 4 R) : V3 R :=
  let x := Mat.det3 (Mat.removeColumn p 0)
  let y := - Mat.det3 (Mat.removeColumn p 1)
  let z := Mat.det3 (Mat.removeColumn p 2)
  let w := - Mat.det3 (Mat.removeColumn p 3)
  ![x / w, y / w, z / w]

/-- `Camera::from_perspective_matrix` (`/repo/src/camera.rs:156-181`). -/
def fromPerspectiveMatrix (na : Linalg R) (pmat : Mat 3 4 R) :
    Except Error (Camera R (IntrinsicParametersPerspective R)) := do
  let m := Mat.removeColumn pmat 3
  let (rquat, k) ← rqDecomposition na m
  let k22 := k 2 2
  let one : R := Scalar.lit 1
  let k := Mat.scale k (one / k22)
  let params : PerspectiveParams R :=
    { fx := k 0 0, fy := k 1 1, skew := k 0 1, cx := k 0 2, cy := k 1 2 }
  let camcenter := pmat2camCenter pmat
  let extrinsics := ExtrinsicParameters.fromRotationAndCamcenter rquat camcenter
  return { intrinsics := IntrinsicParametersPerspective.ofParams params, extrinsics }

/-- `Camera::as_camera_matrix` (`/repo/src/camera.rs:184-198`). -/
def asCameraMatrix (c : Camera R (IntrinsicParametersPerspective R)) : Mat 3 4 R :=
  let m :=
    let p33 := c.intrinsics.asIntrinsicsMatrix
    Mat.mul3 p33 c.extrinsics.cache.qt
  let m := if Scalar.lt (m 0 0) (Scalar.lit 0) then Mat.neg m else m
  Mat.divScalar m (m 2 3)

end Camera
end CamGeom
