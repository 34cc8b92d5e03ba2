import Verif.Spec.Rounding

/-!
# Rounding law of `powi(-2)`

`linearize_at` squares and inverts with `powi(-2)`.  Rust leaves the precision of `powi` open; the
implementations in use compute `1 / (x * x)`, whose error is at most two roundings of the reciprocal
square (at most five where `x * x` is subnormal and the reciprocal still finite).  The law below allows
eight.  Nothing is said where `x * x` overflows, since then the result is zero.
-/

namespace CamGeom

/-- Accuracy of the reciprocal square of a nonzero number whose square does not overflow. -/
structure RoundingPowi {R : Type} [Scalar R] (fl : Rounding R) : Prop where
  powi_neg_two : ∀ {x}, fl.isFinite x → fl.val x ≠ 0 → fl.isFinite (x * x) →
    fl.isFinite (Scalar.powi x (-2)) →
    |fl.val (Scalar.powi x (-2)) - 1 / fl.val x ^ 2| ≤
      ((1 + fl.u) ^ 8 - 1) * (1 / fl.val x ^ 2 + fl.ω)

end CamGeom
