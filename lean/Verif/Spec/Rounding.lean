import Verif.Model.Scalar
import Mathlib.Data.Real.Basic

/-!
# Rounding laws of IEEE 754 arithmetic

The "standard model" of floating-point arithmetic with gradual underflow.  With
`u = 2^-53`, `ω = 2^-1022` (`f64`) or `u = 2^-24`, `ω = 2^-126` (`f32`) every field holds for the
actual operations under round-to-nearest, including inputs that are infinite or NaN and results that
overflow: the laws only speak about operations whose *result* is finite.
-/

namespace CamGeom

/-- A scalar type whose finite results are correctly rounded up to relative error `u` and, for
products and quotients, an underflow error `u * ω`. -/
structure Rounding (R : Type) [Scalar R] where
  /-- real number represented by a finite scalar -/
  val : R → ℝ
  isFinite : R → Prop
  /-- unit roundoff -/
  u : ℝ
  /-- smallest positive normal number -/
  ω : ℝ
  u_nonneg : 0 ≤ u
  ω_nonneg : 0 ≤ ω
  lit_zero : isFinite (Scalar.lit 0) ∧ val (Scalar.lit 0) = 0
  lit_one : isFinite (Scalar.lit 1) ∧ val (Scalar.lit 1) = 1
  lit_two : isFinite (Scalar.lit 2) ∧ val (Scalar.lit 2) = 2
  zero : isFinite 0 ∧ val 0 = 0
  one : isFinite 1 ∧ val 1 = 1
  /-- a finite result comes from finite operands and is accurate -/
  neg : ∀ {x}, isFinite (-x) → isFinite x ∧ val (-x) = - val x
  add : ∀ {x y}, isFinite (x + y) → isFinite x ∧ isFinite y ∧
    |val (x + y) - (val x + val y)| ≤ u * |val x + val y|
  sub : ∀ {x y}, isFinite (x - y) → isFinite x ∧ isFinite y ∧
    |val (x - y) - (val x - val y)| ≤ u * |val x - val y|
  mul : ∀ {x y}, isFinite (x * y) → isFinite x ∧ isFinite y ∧
    |val (x * y) - val x * val y| ≤ u * (|val x * val y| + ω)
  /-- dividing a finite number by an infinity gives a finite zero, hence the second hypothesis -/
  div : ∀ {x y}, isFinite (x / y) → isFinite x ∧ (isFinite y → val y ≠ 0 ∧
    |val (x / y) - val x / val y| ≤ u * (|val x / val y| + ω))
  /-- operations with a neutral or absorbing operand are exact -/
  add_zero : ∀ {x y}, isFinite x → isFinite y → val y = 0 → isFinite (x + y) ∧ val (x + y) = val x
  zero_add : ∀ {x y}, isFinite x → isFinite y → val x = 0 → isFinite (x + y) ∧ val (x + y) = val y
  zero_mul : ∀ {x y}, isFinite x → isFinite y → val x = 0 → isFinite (x * y) ∧ val (x * y) = 0
  mul_zero : ∀ {x y}, isFinite x → isFinite y → val y = 0 → isFinite (x * y) ∧ val (x * y) = 0
  one_mul : ∀ {x y}, isFinite x → isFinite y → val x = 1 → isFinite (x * y) ∧ val (x * y) = val y
  mul_one : ∀ {x y}, isFinite x → isFinite y → val y = 1 → isFinite (x * y) ∧ val (x * y) = val x
  div_one : ∀ {x y}, isFinite x → isFinite y → val y = 1 → isFinite (x / y) ∧ val (x / y) = val x
  /-- the value of a product depends on the values of the factors only (not on signs of zeros) -/
  mul_congr : ∀ {x x' y y'}, isFinite (x * y) → isFinite x' → isFinite y' → val x = val x' →
    val y = val y' → val (x * y) = val (x' * y')

end CamGeom
