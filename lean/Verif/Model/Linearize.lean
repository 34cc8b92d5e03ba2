import Verif.Model.Camera

/-!
# `/repo/src/linearize.rs`
-/

namespace CamGeom

/-- `struct JacobianPerspectiveCache` (`/repo/src/linearize.rs:9-11`). -/
@[ext] structure JacobianPerspectiveCache (R : Type) where
  m : Mat 3 4 R

namespace JacobianPerspectiveCache
variable {R : Type} [Scalar R]

/-- `JacobianPerspectiveCache::new` (`/repo/src/linearize.rs:15-27`). -/
def new (cam : Camera R (IntrinsicParametersPerspective R)) : JacobianPerspectiveCache R :=
  let m :=
    let p33 := cam.intrinsics.asIntrinsicsMatrix
    Mat.mul3 p33 cam.extrinsics.matrix
  let m := if Scalar.lt (m 0 0) 0 then Mat.neg m else m
  let m := Mat.divScalar m (m 2 3)
  { m }

/-- `linearize_at` (`/repo/src/linearize.rs:36-78`). -/
def linearizeAt (c : JacobianPerspectiveCache R) (pt : Points WorldFrame R 1) : Mat 2 3 R :=
  let pt3d := pt.data
  let x := pt3d 0 0
  let y := pt3d 0 1
  let z := pt3d 0 2
  let p := c.m
  let denom := p 2 0 * x + p 2 1 * y + p 2 2 * z + p 2 3
  let denomSqrt := Scalar.powi denom (-2)
  let factorU := p 0 0 * x + p 0 1 * y + p 0 2 * z + p 0 3
  let ux := - p 2 0 * denomSqrt * factorU + p 0 0 / denom
  let uy := - p 2 1 * denomSqrt * factorU + p 0 1 / denom
  let uz := - p 2 2 * denomSqrt * factorU + p 0 2 / denom
  let factorV := p 1 0 * x + p 1 1 * y + p 1 2 * z + p 1 3
  let vx := - p 2 0 * denomSqrt * factorV + p 1 0 / denom
  let vy := - p 2 1 * denomSqrt * factorV + p 1 1 / denom
  let vz := - p 2 2 * denomSqrt * factorV + p 1 2 / denom
  ![![ux, uy, uz], ![vx, vy, vz]]

end JacobianPerspectiveCache
end CamGeom
