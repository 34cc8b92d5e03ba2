import Verif.Spec.Rounding
import Verif.Spec.Contracts
import Mathlib.Analysis.Real.Sqrt

/-!
# Further rounding laws of IEEE 754 arithmetic

What `best_intersection_of_rays` uses besides `Rounding`: square roots, squares, comparisons, the
conversions between the scalar type and `f64`, and a singular value decomposition in floating point.
As for `Rounding`, all laws hold for the actual operations of `f32` and `f64`.
-/

namespace CamGeom

/-- Laws of the remaining operations of a floating-point type. -/
structure RoundingMore {R : Type} [Scalar R] (fl : Rounding R) where
  /-- sums up to this magnitude do not overflow -/
  big : ℝ
  /-- a finite square root comes from a nonnegative finite operand and is accurate -/
  sqrt : ∀ {x}, fl.isFinite (Scalar.sqrt x) → fl.isFinite x ∧ 0 ≤ fl.val x ∧
    |fl.val (Scalar.sqrt x) - Real.sqrt (fl.val x)| ≤ fl.u * Real.sqrt (fl.val x)
  powi_two : ∀ {x}, fl.isFinite (Scalar.powi x 2) → fl.isFinite x ∧
    |fl.val (Scalar.powi x 2) - fl.val x * fl.val x| ≤ fl.u * (|fl.val x * fl.val x| + fl.ω)
  lit_neg_one : fl.isFinite (Scalar.lit (-1)) ∧ fl.val (Scalar.lit (-1)) = -1
  /-- the literal `1e-7` is rounded -/
  lit_cutoff : fl.isFinite (Scalar.lit (1 / 10000000)) ∧
    |fl.val (Scalar.lit (1 / 10000000)) - 1 / 10000000| ≤ fl.u * (1 / 10000000)
  lt_iff : ∀ {x y}, fl.isFinite x → fl.isFinite y → (Scalar.lt x y = true ↔ fl.val x < fl.val y)
  add_finite : ∀ {x y}, fl.isFinite x → fl.isFinite y → |fl.val x + fl.val y| ≤ big →
    fl.isFinite (x + y)

/-- Conversion to `f64` is exact, conversion from `f64` rounds. -/
structure RoundingConv {R F : Type} [Scalar R] [Scalar F] [F64Conv R F] (flR : Rounding R)
    (flF : Rounding F) : Prop where
  toF_finite : ∀ {x : R}, flR.isFinite x → ∃ y : F, F64Conv.toF64 x = some y ∧ flF.isFinite y
  toF : ∀ {x : R} {y : F}, F64Conv.toF64 x = some y → flF.isFinite y →
    flR.isFinite x ∧ flF.val y = flR.val x
  ofF : ∀ {y : F}, flR.isFinite (F64Conv.ofF64 y : R) → flF.isFinite y ∧
    |flR.val (F64Conv.ofF64 y) - flF.val y| ≤ flR.u * (|flF.val y| + flR.ω)

open Spec Matrix in
/-- The computed decomposition `d` of `M` is backward stable with relative errors `ρ`, `η`: the factors are
finite, `σ ≥ 0`, and the computed `U`, `Vᵀ` are within `ρ` (entrywise) of exactly orthogonal matrices which
together with the computed `σ` decompose a matrix within `η μ` of the given one. -/
def SvdStableAt {F : Type} [Scalar F] (fl : Rounding F) (ρ η μ : ℝ) (M : Mat 3 3 F) (d : SVD F) : Prop :=
  ∃ (U Vt : Mat 3 3 F) (U' V' : Matrix (Fin 3) (Fin 3) ℝ), d.u = some U ∧ d.vT = some Vt ∧
    (∀ i j, fl.isFinite (U i j) ∧ |fl.val (U i j) - U' i j| ≤ ρ) ∧
    (∀ i j, fl.isFinite (Vt i j) ∧ |fl.val (Vt i j) - V' i j| ≤ ρ) ∧
    (∀ i, fl.isFinite (d.singularValues i) ∧ 0 ≤ fl.val (d.singularValues i)) ∧
    U'.transpose * U' = 1 ∧ V' * V'.transpose = 1 ∧
    ∀ w : Vec, len ((U' * Matrix.diagonal (fun i => fl.val (d.singularValues i)) * V') *ᵥ w -
      Matrix.of (fun i j => fl.val (M i j)) *ᵥ w) ≤ η * μ * len w

open Spec Matrix in
/-- A backward stable singular value decomposition with relative error `η`, for every finite matrix of norm
at most `μ`. -/
def SvdBackwardStable {F : Type} [Scalar F] (fl : Rounding F) (η : ℝ) (trySvd : TrySvd F) : Prop :=
  ∀ (M : Mat 3 3 F) (eps : F) (k : ℕ) (d : SVD F) (μ : ℝ), trySvd M true true eps k = some d →
    (∀ i j, fl.isFinite (M i j)) →
    (∀ w : Vec, len (Matrix.of (fun i j => fl.val (M i j)) *ᵥ w) ≤ μ * len w) →
    SvdStableAt fl η η μ M d

end CamGeom
