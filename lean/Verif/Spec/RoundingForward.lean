import Verif.Spec.RoundingRange
import Verif.Spec.RoundingRays

/-!
# Squares and conversions that do not overflow

Complements `RoundingRange`; `Verif/Lemmas/RaysRange.lean` proves the laws for the IEEE 754 formats.
-/

namespace CamGeom

/-- Squares and conversions from `f64` of magnitude at most `2^k`, `k ≤ top`, do not overflow. -/
structure RoundingForward {R F : Type} [Scalar R] [Scalar F] [F64Conv R F] {flR : Rounding R}
    (g : RoundingRange flR) (flF : Rounding F) : Prop where
  powi_two : ∀ {x k}, flR.isFinite x → k ≤ g.top → |flR.val x * flR.val x| ≤ 2 ^ k →
    flR.isFinite (Scalar.powi x 2)
  ofF : ∀ {y : F} {k}, flF.isFinite y → k ≤ g.top → |flF.val y| ≤ 2 ^ k → flR.isFinite (F64Conv.ofF64 y : R)

open Spec in
/-- A ray with coordinates of magnitude at most `2^k` whose direction is not so short that its squared length
underflows. -/
structure SafeRay {R Coords : Type} [Scalar R] (fl : Rounding R) (k : ℕ) (r : Ray Coords R) : Prop where
  center : ∀ a, InRange fl k (r.center a)
  direction : ∀ a, InRange fl k (r.direction a)
  ne : ∃ a, fl.val (r.direction a) ≠ 0
  big : 3 * fl.ω ≤ len (fun a => fl.val (r.direction a)) ^ 2

end CamGeom
