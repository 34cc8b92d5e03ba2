import Verif.Spec.Rounding

/-!
# Rounding laws used by the singular value decomposition

The comparison `<=`, the exact literal `1/2` and the spacing of the numbers near zero.
`Verif/Lemmas/FloatSvd.lean` proves the laws for the IEEE 754 formats.
-/

namespace CamGeom

/-- Further laws used by nalgebra's eigenvalue iteration. -/
structure RoundingSvd {R : Type} [Scalar R] (fl : Rounding R) : Prop where
  le_iff : ∀ {x y}, fl.isFinite x → fl.isFinite y → (Scalar.le x y = true ↔ fl.val x ≤ fl.val y)
  lit_half : fl.isFinite (Scalar.lit (1 / 2)) ∧ fl.val (Scalar.lit (1 / 2)) = 1 / 2
  /-- numbers other than zero are at least the least subnormal number -/
  least : ∀ {x}, fl.isFinite x → fl.val x ≠ 0 → 2 * (fl.u * fl.ω) ≤ |fl.val x|

end CamGeom
