import Verif.Model.RayIntersection
import Verif.Lemmas.Loops
import Verif.Lemmas.Quaternion
import Verif.Spec.Contracts
import Mathlib.LinearAlgebra.Matrix.DotProduct
import Mathlib.Algebra.BigOperators.Fin

/-!
# What `best_intersection_of_rays` computes
-/

namespace CamGeom
open Spec Matrix

section real
variable {Coords : Type}

theorem foldl_add_eq_sum (l : List ℝ) (a : ℝ) : l.foldl (· + ·) a = a + l.sum := by
  induction l generalizing a with
  | nil => simp
  | cons b l ih => simp [ih, add_assoc]

theorem sumAsF64_real {n : ℕ} (x : Fin n → ℝ) : (sumAsF64 x : Outcome ℝ) = .ok (∑ i, x i) := by
  have h : ∀ l : List ℝ, l.mapM (F64Conv.toF64 (R := ℝ) (F := ℝ)) = some l := by
    intro l
    induction l with
    | nil => rfl
    | cons a l ih => simp [List.mapM_cons, ih]
  unfold sumAsF64
  rw [h]
  simp [foldl_add_eq_sum, List.sum_ofFn]

/-- `u uᵀ - 1` for the unit direction `u` of a ray. -/
noncomputable def dm (r : Ray Coords ℝ) : Matrix (Fin 3) (Fin 3) ℝ :=
  vecMulVec (V3.normalize r.direction) (V3.normalize r.direction) - 1

/-- The 3x3 matrix `S`. -/
noncomputable def sMat (rays : List (Ray Coords ℝ)) : Matrix (Fin 3) (Fin 3) ℝ :=
  (rays.map dm).sum

/-- The vector `C`. -/
noncomputable def cVec (rays : List (Ray Coords ℝ)) : V3 ℝ :=
  (rays.map fun r => (dm r).mulVec r.center).sum

theorem sum_get {M : Type} [AddCommMonoid M] {α : Type} (l : List α) (f : α → M) :
    ∑ i : Fin l.length, f (l.get i) = (l.map f).sum := by
  rw [← List.sum_ofFn]
  congr 1
  apply List.ext_get <;> simp

theorem list_sum_apply {M ι : Type} [AddCommMonoid M] {α : Type} (l : List α) (f : α → ι → M) (i : ι) :
    (l.map f).sum i = (l.map fun r => f r i).sum := by
  induction l with
  | nil => rfl
  | cons a l ih => simp [ih]

theorem sMat_apply (rays : List (Ray Coords ℝ)) (a b : Fin 3) :
    sMat rays a b = ∑ i : Fin rays.length, dm (rays.get i) a b := by
  rw [sum_get rays fun r => dm r a b]
  unfold sMat
  induction rays with
  | nil => rfl
  | cons r l ih => simp [ih]

theorem cVec_apply (rays : List (Ray Coords ℝ)) (a : Fin 3) :
    cVec rays a = ∑ i : Fin rays.length, (dm (rays.get i)).mulVec (rays.get i).center a := by
  rw [sum_get rays fun r => (dm r).mulVec r.center a]
  unfold cVec
  rw [list_sum_apply]

theorem result_row (r : V3 ℝ) :
    forRange 3 (Mat.zeros 1 3 : Mat 1 3 ℝ) (fun j result => result.set 0 j (r j)) = fun _ => r := by
  rw [forRange_set_row]
  funext i j
  simp [Subsingleton.elim i 0]

theorem despecialize_real (a : Mat 3 3 ℝ) : (despecialize a : Mat 3 3 ℝ) = a := by
  funext i j
  fin_cases i <;> fin_cases j <;> rfl

/-- `best_intersection_of_rays` in closed form. -/
theorem best_eq (trySvd : TrySvd ℝ) (rays : List (Ray Coords ℝ)) (h : 2 ≤ rays.length) :
    bestIntersectionOfRays trySvd rays =
      Outcome.bind (myPinv trySvd (Matrix.of.symm (sMat rays))) fun p =>
        .ok ⟨fun _ => (Matrix.of p).mulVec (cVec rays)⟩ := by
  have hm1 : ((-1 : ℚ) : ℝ) = -1 := by norm_num
  have hS : (![![∑ i : Fin rays.length, (V3.normalize (rays.get i).direction 0 ^ 2 + -1),
        ∑ i : Fin rays.length, V3.normalize (rays.get i).direction 0 * V3.normalize (rays.get i).direction 1,
        ∑ i : Fin rays.length, V3.normalize (rays.get i).direction 0 * V3.normalize (rays.get i).direction 2],
      ![∑ i : Fin rays.length, V3.normalize (rays.get i).direction 0 * V3.normalize (rays.get i).direction 1,
        ∑ i : Fin rays.length, (V3.normalize (rays.get i).direction 1 ^ 2 + -1),
        ∑ i : Fin rays.length, V3.normalize (rays.get i).direction 1 * V3.normalize (rays.get i).direction 2],
      ![∑ i : Fin rays.length, V3.normalize (rays.get i).direction 0 * V3.normalize (rays.get i).direction 2,
        ∑ i : Fin rays.length, V3.normalize (rays.get i).direction 1 * V3.normalize (rays.get i).direction 2,
        ∑ i : Fin rays.length, (V3.normalize (rays.get i).direction 2 ^ 2 + -1)]] : Mat 3 3 ℝ) =
      Matrix.of.symm (sMat rays) := by
    funext a b
    rw [Matrix.of_symm_apply, sMat_apply]
    fin_cases a <;> fin_cases b <;>
      simp only [Fin.zero_eta, Fin.mk_one, Fin.reduceFinMk, Matrix.cons_val] <;>
      refine Finset.sum_congr rfl fun i _ => ?_ <;>
      simp [dm, vecMulVec_apply] <;> ring
  unfold bestIntersectionOfRays
  rw [if_neg (by omega)]
  simp only [lineDirs_eq, linePoints_eq, zipLoop_eq, sumAsF64_real, powi_real, lit_real, hm1, bind,
    Outcome.bind, ofF64_real, zpow_ofNat]
  rw [hS]
  generalize myPinv trySvd (Matrix.of.symm (sMat rays)) = o
  cases o with
  | err e => rfl
  | panic => rfl
  | ok p =>
    simp only [despecialize_real, pure]
    rw [result_row, mulVec3_eq]
    congr 3
    funext _
    congr 1
    funext a
    rw [cVec_apply]
    fin_cases a <;>
      simp only [Fin.zero_eta, Fin.mk_one, Fin.reduceFinMk, Matrix.cons_val] <;>
      refine Finset.sum_congr rfl fun i _ => ?_ <;>
      simp [dm, vecMulVec_apply, Matrix.mulVec, dotProduct, Fin.sum_univ_three] <;> ring

end real
end CamGeom
