import Verif.Spec.RoundingRays

/-!
# Rounding laws used by `from_view`

As for `Rounding`, all laws hold for the actual operations of `f32` and `f64`.
-/

namespace CamGeom

/-- The literal `0.25` is represented exactly. -/
def Rounding.QuarterExact {R : Type} [Scalar R] (fl : Rounding R) : Prop :=
  fl.isFinite (Scalar.lit (1 / 4)) ∧ fl.val (Scalar.lit (1 / 4)) = 1 / 4

/-- The literal 1/4 is exact; sine and cosine of half of the constant π are accurate. -/
structure RoundingView {R : Type} [Scalar R] (fl : Rounding R) : Prop where
  lit_quarter : fl.QuarterExact
  sin_half_pi : |fl.val (Scalar.sin (Scalar.pi / Scalar.lit 2)) - 1| ≤ 4 * fl.u
  cos_half_pi : |fl.val (Scalar.cos (Scalar.pi / Scalar.lit 2))| ≤ 4 * fl.u

end CamGeom
