import Verif.Spec.Contracts
import Verif.Lemmas.Pinv
import Mathlib.Analysis.Matrix.Spectrum
import Mathlib.Analysis.Matrix.PosDef
import Mathlib.Analysis.InnerProductSpace.PiL2

/-!
# The SVD contract is satisfiable
-/

namespace CamGeom
open Spec Matrix

theorem inner_eq_dot (x y : EuclideanSpace ℝ (Fin 3)) :
    inner ℝ x y = (x.ofLp : Fin 3 → ℝ) ⬝ᵥ y.ofLp := by
  simp only [PiLp.inner_apply, dotProduct]
  exact Finset.sum_congr rfl fun i _ => by simp [mul_comm]

/-- Every real 3x3 matrix has a singular value decomposition. -/
theorem exists_svd (M : Matrix (Fin 3) (Fin 3) ℝ) :
    ∃ (U V : Matrix (Fin 3) (Fin 3) ℝ) (σ : V3 ℝ), U.transpose * U = 1 ∧ V * V.transpose = 1 ∧
      (∀ i, 0 ≤ σ i) ∧ U * diagonal σ * V = M := by
  have hA : (M.transpose * M).IsHermitian := by
    have := isHermitian_conjTranspose_mul_self M
    rwa [conjTranspose_eq_transpose_of_trivial] at this
  let B := hA.eigenvectorBasis
  let l := hA.eigenvalues
  let v : Fin 3 → V3 ℝ := fun j => (B j).ofLp
  have hv : ∀ j k, v j ⬝ᵥ v k = if j = k then 1 else 0 := fun j k => by
    rw [← orthonormal_iff_ite.1 B.orthonormal j k, inner_eq_dot]
  have hAv : ∀ j, (M.transpose * M) *ᵥ v j = l j • v j := fun j => hA.mulVec_eigenvectorBasis j
  have hg : ∀ j k, (M *ᵥ v j) ⬝ᵥ (M *ᵥ v k) = if j = k then l k else 0 := fun j k => by
    rw [mulVec_dot, mulVec_mulVec, hAv, dotProduct_smul, hv]
    split <;> simp
  have hl : ∀ j, 0 ≤ l j := fun j => by
    have := hg j j
    rw [if_pos rfl] at this
    rw [← this]
    exact dot_self_nonneg' _
  let u : Fin 3 → EuclideanSpace ℝ (Fin 3) := fun j =>
    WithLp.toLp 2 ((Real.sqrt (l j))⁻¹ • (M *ᵥ v j))
  let s : Set (Fin 3) := {j | l j ≠ 0}
  have hon : Orthonormal ℝ (s.domRestrict u) := by
    rw [orthonormal_iff_ite]
    rintro ⟨j, hj⟩ ⟨k, hk⟩
    rw [inner_eq_dot]
    change ((Real.sqrt (l j))⁻¹ • (M *ᵥ v j)) ⬝ᵥ ((Real.sqrt (l k))⁻¹ • (M *ᵥ v k)) = _
    simp only [smul_dotProduct, dotProduct_smul, hg, Subtype.mk.injEq]
    by_cases h : j = k
    · subst h
      have h1 : Real.sqrt (l j) ≠ 0 := (Real.sqrt_pos.2 (lt_of_le_of_ne (hl j) (Ne.symm hj))).ne'
      have h2 := Real.mul_self_sqrt (hl j)
      simp only [if_true, smul_eq_mul]
      field_simp
      rw [pow_two, h2]
    · simp [h]
  have hcard : Module.finrank ℝ (EuclideanSpace ℝ (Fin 3)) = Fintype.card (Fin 3) := by simp
  obtain ⟨b, hb⟩ := hon.exists_orthonormalBasis_extension_of_card_eq hcard
  have hMv : ∀ j, M *ᵥ v j = Real.sqrt (l j) • (b j).ofLp := by
    intro j
    by_cases h : l j = 0
    · rw [h, Real.sqrt_zero, zero_smul]
      have := hg j j
      rw [if_pos rfl, h] at this
      exact dotProduct_self_eq_zero.1 this
    · rw [hb j h]
      have h1 : Real.sqrt (l j) ≠ 0 := (Real.sqrt_pos.2 (lt_of_le_of_ne (hl j) (Ne.symm h))).ne'
      simp only [u, smul_smul, mul_inv_cancel₀ h1, one_smul]
  have hVV : (Matrix.of v) * (Matrix.of v).transpose = 1 := by
    ext j k
    rw [Matrix.mul_apply, Matrix.one_apply, ← hv j k]
    rfl
  refine ⟨Matrix.of fun i j => b j i, Matrix.of v, fun j => Real.sqrt (l j), ?_, hVV,
    fun j => Real.sqrt_nonneg _, ?_⟩
  · ext j k
    rw [Matrix.mul_apply, Matrix.one_apply, ← orthonormal_iff_ite.1 b.orthonormal j k, inner_eq_dot]
    rfl
  · have h1 : M * (Matrix.of v).transpose =
        (Matrix.of fun i j => b j i) * diagonal fun j => Real.sqrt (l j) := by
      ext i j
      rw [mul_diagonal]
      have := congrFun (hMv j) i
      simp only [Pi.smul_apply, smul_eq_mul] at this
      rw [Matrix.of_apply, mul_comm, ← this]
      rfl
    rw [← h1, mul_assoc, mul_eq_one_comm.1 hVV, mul_one]

/-- An SVD routine that always converges and satisfies the contract. -/
noncomputable def exSvd : TrySvd ℝ := fun M _ _ _ _ =>
  let h := exists_svd (Matrix.of M)
  some ⟨some (Matrix.of.symm h.choose), some (Matrix.of.symm h.choose_spec.choose),
    h.choose_spec.choose_spec.choose⟩

theorem exSvd_contract : SvdContract exSvd := by
  intro M eps k d hd
  have h := (exists_svd (Matrix.of M)).choose_spec.choose_spec.choose_spec
  simp only [exSvd, Option.some.injEq] at hd
  subst hd
  exact ⟨_, _, rfl, rfl, h.1, h.2.1, h.2.2.1, h.2.2.2⟩

end CamGeom
