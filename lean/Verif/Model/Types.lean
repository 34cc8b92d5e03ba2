import Verif.Model.Linalg

/-!
# Core types and traits of `/repo/src/lib.rs`
-/

namespace CamGeom

/-- `enum Error` (`/repo/src/lib.rs:148-157`). -/
inductive Error
  | invalidInput
  | svdFailed
  | minimumTwoRaysNeeded
  | invalidRotationMatrix
  deriving DecidableEq, Repr

/-- Outcome of a function that may return `Ok`, `Err` or panic. -/
inductive Outcome (α : Type)
  | ok (a : α)
  | err (e : Error)
  | panic
  deriving DecidableEq, Repr

/-- `struct CameraFrame` (`/repo/src/lib.rs:205`): phantom coordinate system tag. -/
structure CameraFrame

/-- `struct WorldFrame` (`/repo/src/lib.rs:214`): phantom coordinate system tag. -/
structure WorldFrame

/-- `struct Pixels` (`/repo/src/lib.rs:177-180`): one pixel `(u, v)` per row. -/
@[ext] structure Pixels (R : Type) (n : ℕ) where
  data : Mat n 2 R

/-- `struct Points` (`/repo/src/lib.rs:222-226`): one 3D point per row, in frame `Coords`. -/
@[ext] structure Points (Coords : Type) (R : Type) (n : ℕ) where
  data : Mat n 3 R

/-- `struct Ray` (`/repo/src/lib.rs:421-427`).  The 1x3 row matrices are vectors here. -/
@[ext] structure Ray (Coords : Type) (R : Type) where
  center : V3 R
  direction : V3 R

/-- `struct RayBundle` (`/repo/src/lib.rs:262-274`) and its private constructor
`RayBundle::new` (`:369-375`). -/
@[ext] structure RayBundle (Coords : Type) (B : Type) (R : Type) (n : ℕ) where
  data : Mat n 3 R
  bundleType : B

/-- `trait Bundle` (`/repo/src/lib.rs:442-520`). -/
class Bundle (R : Type) (B : Type) where
  toSingleRay : {Coords : Type} → B → Mat 1 3 R → Ray Coords R
  directions : {n : ℕ} → B → Mat n 3 R → Mat n 3 R
  centers : {n : ℕ} → B → Mat n 3 R → Mat n 3 R
  pointOnRay : {Coords : Type} → {n : ℕ} → B → Mat n 3 R → Points Coords R n
  pointOnRayAtDistance : {Coords : Type} → {n : ℕ} → B → Mat n 3 R → R → Points Coords R n
  toPose : {OutFrame : Type} → {n : ℕ} → B → Isometry R → Mat n 3 R → RayBundle OutFrame B R n

namespace RayBundle
variable {Coords B R : Type} {n : ℕ} [Bundle R B]

/-- `RayBundle::directions` (`/repo/src/lib.rs:287-289`). -/
def directions (b : RayBundle Coords B R n) : Mat n 3 R := Bundle.directions b.bundleType b.data

/-- `RayBundle::centers` (`/repo/src/lib.rs:293-295`). -/
def centers (b : RayBundle Coords B R n) : Mat n 3 R := Bundle.centers b.bundleType b.data

/-- `RayBundle::to_single_ray`, only for bundles of one ray (`/repo/src/lib.rs:306-308`). -/
def toSingleRay (b : RayBundle Coords B R 1) : Ray Coords R :=
  Bundle.toSingleRay b.bundleType b.data

/-- `RayBundle::point_on_ray` (`/repo/src/lib.rs:382-387`). -/
def pointOnRay (b : RayBundle Coords B R n) : Points Coords R n :=
  Bundle.pointOnRay b.bundleType b.data

/-- `RayBundle::point_on_ray_at_distance` (`/repo/src/lib.rs:391-400`). -/
def pointOnRayAtDistance (b : RayBundle Coords B R n) (distance : R) : Points Coords R n :=
  Bundle.pointOnRayAtDistance b.bundleType b.data distance

/-- `RayBundle::to_pose` (`/repo/src/lib.rs:403-414`). -/
def toPose {OutFrame : Type} (b : RayBundle Coords B R n) (pose : Isometry R) :
    RayBundle OutFrame B R n :=
  Bundle.toPose b.bundleType pose b.data

end RayBundle

/-- `trait IntrinsicParameters` (`/repo/src/lib.rs:523-552`). -/
class IntrinsicParameters (R : Type) (I : Type) where
  BundleType : Type
  [bundle : Bundle R BundleType]
  pixelToCamera : {n : ℕ} → I → Pixels R n → RayBundle CameraFrame BundleType R n
  cameraToPixel : {n : ℕ} → I → Points CameraFrame R n → Pixels R n

attribute [instance_reducible, instance] IntrinsicParameters.bundle

end CamGeom
