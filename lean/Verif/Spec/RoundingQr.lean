import Verif.Spec.Rounding

/-!
# Rounding laws used by the QR decomposition

Absolute values, equality tests and the literal `-2` are exact.  `Verif/Lemmas/FloatQr.lean` proves the laws for the
IEEE 754 formats.
-/

namespace CamGeom

/-- Exact operations used by nalgebra's Householder reflections. -/
structure RoundingQr {R : Type} [Scalar R] (fl : Rounding R) : Prop where
  abs : ∀ {x}, fl.isFinite x → fl.isFinite (Scalar.abs x) ∧ fl.val (Scalar.abs x) = |fl.val x|
  beq_iff : ∀ {x y}, fl.isFinite x → fl.isFinite y → (Scalar.beq x y = true ↔ fl.val x = fl.val y)
  lit_neg_two : fl.isFinite (Scalar.lit (-2)) ∧ fl.val (Scalar.lit (-2)) = -2

end CamGeom
