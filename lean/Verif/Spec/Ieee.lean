import Verif.Model.Scalar

/-!
# Special values of IEEE 754 arithmetic

Laws about zeros, infinities and NaN that hold for `f32` and `f64` *exactly as computed*: rounding,
overflow and underflow of the other results are left open, so a theorem with a hypothesis
`fc : Ieee R` holds for real floating-point numbers (of any precision).  `Verif/Lemmas/XReal.lean` shows
the laws are consistent by giving a model.
-/

namespace CamGeom

/-- A classification of scalars satisfying the special-value rules of IEEE 754. -/
structure Ieee (R : Type) [Scalar R] where
  /-- positive or negative zero -/
  isZero : R → Prop
  /-- neither infinite nor NaN -/
  isFinite : R → Prop
  isNan : R → Prop
  zero_finite : ∀ {x}, isZero x → isFinite x
  nan_not_finite : ∀ {x}, isNan x → ¬ isFinite x
  lit_zero : isZero (Scalar.lit 0)
  zero_zero : isZero 0
  lit_one_finite : isFinite (Scalar.lit 1)
  one_finite : isFinite 1
  zero_neg : ∀ {x}, isZero x → isZero (-x)
  zero_add : ∀ {x y}, isZero x → isZero y → isZero (x + y)
  zero_mul : ∀ {x y}, isZero x → isFinite y → isZero (x * y)
  mul_zero : ∀ {x y}, isFinite x → isZero y → isZero (x * y)
  /-- `0 / 0` is NaN -/
  zero_div_zero : ∀ {x y}, isZero x → isZero y → isNan (x / y)
  /-- division by zero never gives a finite result -/
  div_zero : ∀ {x y}, isZero y → ¬ isFinite (x / y)
  /-- `0 * inf` and `0 * NaN` are NaN -/
  zero_mul_inf : ∀ {x y}, isZero x → ¬ isFinite y → isNan (x * y)
  /-- infinities and NaN do not turn into finite values -/
  neg_inf : ∀ {x}, ¬ isFinite x → ¬ isFinite (-x)
  add_inf_left : ∀ {x y}, ¬ isFinite x → ¬ isFinite (x + y)
  add_inf_right : ∀ {x y}, ¬ isFinite y → ¬ isFinite (x + y)
  sub_inf_left : ∀ {x y}, ¬ isFinite x → ¬ isFinite (x - y)
  sub_inf_right : ∀ {x y}, ¬ isFinite y → ¬ isFinite (x - y)
  mul_inf_left : ∀ {x y}, ¬ isFinite x → ¬ isFinite (x * y)
  mul_inf_right : ∀ {x y}, ¬ isFinite y → ¬ isFinite (x * y)
  div_inf_left : ∀ {x y}, ¬ isFinite x → ¬ isFinite (x / y)
  /-- `inf / inf` is NaN -/
  inf_div_inf : ∀ {x y}, ¬ isFinite x → ¬ isFinite y → isNan (x / y)
  /-- NaN is absorbing -/
  neg_nan : ∀ {x}, isNan x → isNan (-x)
  add_nan_left : ∀ {x y}, isNan x → isNan (x + y)
  add_nan_right : ∀ {x y}, isNan y → isNan (x + y)
  mul_nan_left : ∀ {x y}, isNan x → isNan (x * y)
  mul_nan_right : ∀ {x y}, isNan y → isNan (x * y)
  div_nan_left : ∀ {x y}, isNan x → isNan (x / y)
  div_nan_right : ∀ {x y}, isNan y → isNan (x / y)
  powi_nan : ∀ {x n}, n ≠ 0 → isNan x → isNan (Scalar.powi x n)
  /-- square roots of zeros and of infinities, NaN -/
  sqrt_zero : ∀ {x}, isZero x → isZero (Scalar.sqrt x)
  sqrt_inf : ∀ {x}, ¬ isFinite x → ¬ isFinite (Scalar.sqrt x)
  /-- exact cases -/
  one_mul : ∀ {x : R}, isFinite x → Scalar.lit 1 * x = x
  zero_add_eq : ∀ {x y}, isZero x → isFinite y → ¬ isZero y → x + y = y
  div_self : ∀ {x}, isFinite x → ¬ isZero x → x / x = Scalar.lit 1
  neg_finite : ∀ {x}, isFinite x → isFinite (-x)
  neg_not_zero : ∀ {x}, ¬ isZero x → ¬ isZero (-x)

/-- NaN compares unequal to everything, itself included. -/
def Ieee.NanUnequal {R : Type} [Scalar R] (fc : Ieee R) : Prop :=
  ∀ x y, fc.isNan x ∨ fc.isNan y → Scalar.beq x y = false

/-- Further rules of IEEE 754 about zeros: the difference of two zeros and of a finite number with itself
is a zero, a zero divided by anything but zero and NaN is a zero, and so is a finite number divided by an
infinity. -/
structure Ieee.Zeros {R : Type} [Scalar R] (fc : Ieee R) : Prop where
  zero_sub : ∀ {x y}, fc.isZero x → fc.isZero y → fc.isZero (x - y)
  sub_self : ∀ {x}, fc.isFinite x → fc.isZero (x - x)
  zero_div : ∀ {x y}, fc.isZero x → ¬ fc.isZero y → ¬ fc.isNan y → fc.isZero (x / y)
  div_inf : ∀ {x y}, fc.isFinite x → ¬ fc.isFinite y → ¬ fc.isNan y → fc.isZero (x / y)

end CamGeom
