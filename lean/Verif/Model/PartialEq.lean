import Verif.Model.Camera

/-!
# Derived `PartialEq` (`==`)

`#[derive(PartialEq)]` compares all fields in order, caches included.  nalgebra: matrices and points are
compared entry by entry, isometries by translation and rotation, and unit quaternions up to sign.
-/

namespace CamGeom
variable {R : Type} [Scalar R]

/-- `PartialEq` of nalgebra vectors and points: all entries equal (used by the derives below). -/
def beqVec {n : ℕ} (a b : Fin n → R) : Bool := (List.finRange n).all fun i => Scalar.beq (a i) (b i)

/-- `PartialEq` of nalgebra matrices (used by the derives below). -/
def beqMat {m n : ℕ} (a b : Mat m n R) : Bool := (List.finRange m).all fun i => beqVec (a i) (b i)

/-- `PartialEq for UnitQuaternion`: `self.coords == rhs.coords || self.coords == -rhs.coords` (used by
`/repo/src/extrinsics.rs:18,38`). -/
def beqQuat (p q : Quat R) : Bool :=
  beqVec ![p.i, p.j, p.k, p.w] ![q.i, q.j, q.k, q.w] ||
    beqVec ![p.i, p.j, p.k, p.w] ![-q.i, -q.j, -q.k, -q.w]

/-- `PartialEq for Isometry` (used by `/repo/src/extrinsics.rs:38`). -/
def beqIsometry (a b : Isometry R) : Bool :=
  beqVec a.translation b.translation && beqQuat a.rotation b.rotation

/-- Derived `PartialEq for ExtrinsicsCache` (`/repo/src/extrinsics.rs:38-47`). -/
def beqExtrinsicsCache (a b : ExtrinsicsCache R) : Bool :=
  beqMat a.q b.q && beqVec a.translation b.translation && beqMat a.qt b.qt && beqMat a.qInv b.qInv &&
    beqVec a.camcenterZ0 b.camcenterZ0 && beqIsometry a.pose b.pose && beqIsometry a.poseInv b.poseInv

/-- Derived `PartialEq for ExtrinsicParameters` (`/repo/src/extrinsics.rs:18-25`). -/
def beqExtrinsics (a b : ExtrinsicParameters R) : Bool :=
  beqQuat a.rquat b.rquat && beqVec a.camcenter b.camcenter && beqExtrinsicsCache a.cache b.cache

/-- Derived `PartialEq for PerspectiveParams` (`/repo/src/intrinsics_perspective.rs:50-63`). -/
def beqPerspectiveParams (a b : PerspectiveParams R) : Bool :=
  Scalar.beq a.fx b.fx && Scalar.beq a.fy b.fy && Scalar.beq a.skew b.skew && Scalar.beq a.cx b.cx &&
    Scalar.beq a.cy b.cy

/-- Derived `PartialEq for IntrinsicParametersPerspective`
(`/repo/src/intrinsics_perspective.rs:82-88`). -/
def beqPerspective (a b : IntrinsicParametersPerspective R) : Bool :=
  beqPerspectiveParams a.params b.params && beqMat a.cacheP b.cacheP

/-- Derived `PartialEq for OrthographicParams` and `IntrinsicParametersOrthographic`
(`/repo/src/intrinsics_orthographic.rs:43-72`). -/
def beqOrthographic (a b : IntrinsicParametersOrthographic R) : Bool :=
  Scalar.beq a.params.sx b.params.sx && Scalar.beq a.params.sy b.params.sy &&
    Scalar.beq a.params.cx b.params.cx && Scalar.beq a.params.cy b.params.cy

/-- Derived `PartialEq for Camera` (`/repo/src/camera.rs:70-80`). -/
def beqCamera {I : Type} (beqI : I → I → Bool) (a b : Camera R I) : Bool :=
  beqI a.intrinsics b.intrinsics && beqExtrinsics a.extrinsics b.extrinsics

/-- Derived `PartialEq for SharedOriginRayBundle` (`/repo/src/ray_bundle_types.rs:9-14`). -/
def beqSharedOrigin (a b : SharedOriginRayBundle R) : Bool := beqVec a.center b.center

/-- Derived `PartialEq for SharedDirectionRayBundle` (`/repo/src/ray_bundle_types.rs:182-188`). -/
def beqSharedDirection (a b : SharedDirectionRayBundle R) : Bool := beqVec a.direction b.direction

/-- Derived `PartialEq for RayBundle` (`/repo/src/lib.rs:260-274`). -/
def beqRayBundle {Coords B : Type} {n : ℕ} (beqB : B → B → Bool) (a b : RayBundle Coords B R n) : Bool :=
  beqMat a.data b.data && beqB a.bundleType b.bundleType

end CamGeom
