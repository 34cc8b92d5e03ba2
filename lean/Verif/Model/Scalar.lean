import Mathlib.Data.Rat.Defs

/-!
# Scalars

`nalgebra::RealField` as a class of *operations without laws*.  Theorems stated for an arbitrary
`[Scalar R]` use no arithmetic law whatsoever, so they hold for `f32`/`f64` with rounding, NaN and
infinities as well as for exact reals.
-/

namespace CamGeom

/-- `nalgebra::RealField` (used as the bound `R: RealField` throughout `/repo/src`): the operations
the crate calls on scalars.

* `lit q` models `nalgebra::convert(q)` of an `f64` literal (e.g. `/repo/src/camera.rs:165`);
* `pi` models `convert(std::f64::consts::PI)` (`/repo/src/extrinsics.rs:115`);
* `lt`, `le`, `beq` model the comparison operators `<`, `<=`, `==`;
* `isInf` models `is_infinite` used inside the `approx` crate.

Simplification: `Clone` is the identity; comparison results are `Bool`. -/
class Scalar (R : Type) extends Add R, Sub R, Mul R, Div R, Neg R, Zero R, One R where
  lit : ℚ → R
  pi : R
  sqrt : R → R
  sin : R → R
  cos : R → R
  powi : R → ℤ → R
  abs : R → R
  lt : R → R → Bool
  le : R → R → Bool
  beq : R → R → Bool
  isInf : R → Bool

-- Prefer the usual arithmetic of concrete types such as `ℝ` during elaboration.
attribute [instance 50] Scalar.toAdd Scalar.toSub Scalar.toMul Scalar.toDiv Scalar.toNeg
  Scalar.toZero Scalar.toOne

/-- Conversions between the generic scalar `R` and `f64` (here an arbitrary scalar type `F`),
`na::try_convert::<R, f64>` and `na::convert::<f64, R>`, used at
`/repo/src/ray_intersection.rs:18,25,33,143,152,161`. -/
class F64Conv (R F : Type) where
  toF64 : R → Option F
  ofF64 : F → R

end CamGeom
