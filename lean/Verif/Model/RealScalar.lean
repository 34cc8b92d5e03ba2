import Verif.Model.Scalar
import Mathlib.Analysis.SpecialFunctions.Trigonometric.Basic
import Mathlib.Analysis.SpecialFunctions.Sqrt

/-!
# Exact real scalars

The instance of the scalar operations used for the geometric properties: real numbers with exact
arithmetic.  Division by zero is totalized by Mathlib (`x / 0 = 0`); theorems carry explicit guards
wherever the code divides.
-/

namespace CamGeom

open Classical in
/-- Exact real arithmetic as a scalar type (idealization of `R: RealField`, the bound on every
function of `/repo/src`); the constant `PI` (`/repo/src/extrinsics.rs:115`) is exact. -/
noncomputable instance instScalarReal : Scalar ℝ where
  lit q := (q : ℝ)
  pi := Real.pi
  sqrt := Real.sqrt
  sin := Real.sin
  cos := Real.cos
  powi x n := x ^ n
  abs x := |x|
  lt a b := decide (a < b)
  le a b := decide (a ≤ b)
  beq a b := decide (a = b)
  isInf _ := false

/-- With `f64` idealized to `ℝ`, the conversions of `/repo/src/ray_intersection.rs:15-36` are the
identity. -/
instance instF64ConvReal : F64Conv ℝ ℝ where
  toF64 := some
  ofF64 := id

@[simp] theorem lit_real (q : ℚ) : (Scalar.lit q : ℝ) = (q : ℝ) := rfl
@[simp] theorem pi_real : (Scalar.pi : ℝ) = Real.pi := rfl
@[simp] theorem sqrt_real (x : ℝ) : Scalar.sqrt x = Real.sqrt x := rfl
@[simp] theorem sin_real (x : ℝ) : Scalar.sin x = Real.sin x := rfl
@[simp] theorem cos_real (x : ℝ) : Scalar.cos x = Real.cos x := rfl
@[simp] theorem powi_real (x : ℝ) (n : ℤ) : Scalar.powi x n = x ^ n := rfl
@[simp] theorem abs_real (x : ℝ) : Scalar.abs x = |x| := rfl
@[simp] theorem lt_real (x y : ℝ) : Scalar.lt x y = decide (x < y) := by
  simp [Scalar.lt]
@[simp] theorem le_real (x y : ℝ) : Scalar.le x y = decide (x ≤ y) := by
  simp [Scalar.le]
@[simp] theorem beq_real (x y : ℝ) : Scalar.beq x y = decide (x = y) := by
  simp [Scalar.beq]
@[simp] theorem isInf_real (x : ℝ) : Scalar.isInf x = false := rfl
@[simp] theorem toF64_real (x : ℝ) : (F64Conv.toF64 x : Option ℝ) = some x := rfl
@[simp] theorem ofF64_real (x : ℝ) : (F64Conv.ofF64 x : ℝ) = x := rfl

end CamGeom
