import Verif.Spec.Rounding
import Mathlib.Analysis.Real.Sqrt

/-!
# Operations that do not overflow

The largest finite `f64` is just below `2^1024`, the largest `f32` just below `2^128`: an operation whose
exact result is at most `2^k`, `k ≤ 1023` (`f32`: `k ≤ 127`), gives a finite number of magnitude at most
`2^k`.  `Verif/Lemmas/FloatRange.lean` proves the laws for the IEEE 754 formats.
-/

namespace CamGeom

/-- A finite number of magnitude at most `2^k`. -/
def InRange {R : Type} [Scalar R] (fl : Rounding R) (k : ℕ) (x : R) : Prop :=
  fl.isFinite x ∧ |fl.val x| ≤ 2 ^ k

/-- Exact results of magnitude at most `2^k`, `k ≤ top`, do not overflow. -/
structure RoundingRange {R : Type} [Scalar R] (fl : Rounding R) where
  top : ℕ
  neg : ∀ {x}, fl.isFinite x → fl.isFinite (-x)
  add : ∀ {x y k}, fl.isFinite x → fl.isFinite y → k ≤ top → |fl.val x + fl.val y| ≤ 2 ^ k →
    InRange fl k (x + y)
  sub : ∀ {x y k}, fl.isFinite x → fl.isFinite y → k ≤ top → |fl.val x - fl.val y| ≤ 2 ^ k →
    InRange fl k (x - y)
  mul : ∀ {x y k}, fl.isFinite x → fl.isFinite y → k ≤ top → |fl.val x * fl.val y| ≤ 2 ^ k →
    InRange fl k (x * y)
  div : ∀ {x y k}, fl.isFinite x → fl.isFinite y → fl.val y ≠ 0 → k ≤ top →
    |fl.val x / fl.val y| ≤ 2 ^ k → InRange fl k (x / y)
  sqrt : ∀ {x k}, fl.isFinite x → 0 ≤ fl.val x → k ≤ top → Real.sqrt (fl.val x) ≤ 2 ^ k →
    InRange fl k (Scalar.sqrt x)

end CamGeom
