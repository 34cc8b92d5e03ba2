import Verif.Model.RayIntersection
import Verif.Spec.Contracts
import Verif.Lemmas.RQ
import Mathlib.LinearAlgebra.Matrix.DotProduct

/-!
# The truncated pseudo-inverse
-/

namespace CamGeom
open Spec Matrix

theorem mulVec_dot (A : Matrix (Fin 3) (Fin 3) ℝ) (x y : V3 ℝ) :
    (A *ᵥ x) ⬝ᵥ y = x ⬝ᵥ (A.transpose *ᵥ y) := by
  rw [dotProduct_comm, dotProduct_mulVec, ← mulVec_transpose, dotProduct_comm]

theorem orth_dot {A : Matrix (Fin 3) (Fin 3) ℝ} (h : A.transpose * A = 1) (x y : V3 ℝ) :
    (A *ᵥ x) ⬝ᵥ (A *ᵥ y) = x ⬝ᵥ y := by
  rw [mulVec_dot, mulVec_mulVec, h, one_mulVec]

theorem dot_self_nonneg' (v : V3 ℝ) : 0 ≤ v ⬝ᵥ v :=
  Finset.sum_nonneg fun i _ => mul_self_nonneg (v i)

theorem dot_self_pos {v : V3 ℝ} (h : v ≠ 0) : 0 < v ⬝ᵥ v :=
  lt_of_le_of_ne (dot_self_nonneg' v) fun e => h (dotProduct_self_eq_zero.1 e.symm)

/-- `P` is the orthogonal projection on the directions in which `M` stretches by more than `ε`. -/
structure Keep (ε : ℝ) (M P : Matrix (Fin 3) (Fin 3) ℝ) : Prop where
  sym : P.transpose = P
  idem : P * P = P
  comm : P * (M.transpose * M) = (M.transpose * M) * P
  small : ∀ w : V3 ℝ, P *ᵥ w = 0 → (M *ᵥ w) ⬝ᵥ (M *ᵥ w) ≤ ε ^ 2 * (w ⬝ᵥ w)
  big : ∀ w : V3 ℝ, P *ᵥ w = w → w ≠ 0 → ε ^ 2 * (w ⬝ᵥ w) < (M *ᵥ w) ⬝ᵥ (M *ᵥ w)

/-- The cut-off used by `my_pinv`. -/
noncomputable def cutoff : ℝ := 1 / 10000000

theorem cutoff_pos : 0 < cutoff := by norm_num [cutoff]

theorem pinv_loop (σ : V3 ℝ) :
    (forRange 3 σ fun i s =>
      let val := s i
      if Scalar.lt cutoff val then Function.update s i (1 / val) else Function.update s i 0) =
    fun i => if cutoff < σ i then 1 / σ i else 0 := by
  unfold forRange
  rw [finRange3]
  simp only [List.foldl, lt_real, decide_eq_true_eq]
  funext i
  by_cases h0 : cutoff < σ 0 <;> by_cases h1 : cutoff < σ 1 <;> by_cases h2 : cutoff < σ 2 <;>
    fin_cases i <;> simp [h0, h1, h2, Function.update]

theorem keep_of_svd {U V M : Matrix (Fin 3) (Fin 3) ℝ} {σ : V3 ℝ} {ε : ℝ} (hε : 0 ≤ ε)
    (hU : U.transpose * U = 1) (hV : V * V.transpose = 1) (h0 : ∀ i, 0 ≤ σ i)
    (hM : U * diagonal σ * V = M) :
    Keep ε M (V.transpose * diagonal (fun i => if ε < σ i then 1 else 0) * V) := by
  set e : V3 ℝ := fun i => if ε < σ i then 1 else 0 with he
  have hV' : V.transpose * V = 1 := mul_eq_one_comm.1 hV
  have hMM : M.transpose * M = V.transpose * diagonal (fun i => σ i * σ i) * V := by
    rw [← hM, transpose_mul, transpose_mul, diagonal_transpose]
    calc V.transpose * (diagonal σ * U.transpose) * (U * diagonal σ * V)
        = V.transpose * diagonal σ * (U.transpose * U) * diagonal σ * V := by simp only [mul_assoc]
      _ = _ := by rw [hU, mul_one, mul_assoc V.transpose, diagonal_mul_diagonal]
  have hquad : ∀ w : V3 ℝ, (M *ᵥ w) ⬝ᵥ (M *ᵥ w) = ∑ i, σ i * σ i * ((V *ᵥ w) i * (V *ᵥ w) i) := by
    intro w
    rw [mulVec_dot, mulVec_mulVec, hMM, mul_assoc, ← mulVec_mulVec, dotProduct_comm, mulVec_dot,
      transpose_transpose, ← mulVec_mulVec]
    simp only [dotProduct, mulVec_diagonal]
    exact Finset.sum_congr rfl fun i _ => by ring
  have hnorm : ∀ w : V3 ℝ, w ⬝ᵥ w = ∑ i, (V *ᵥ w) i * (V *ᵥ w) i := fun w =>
    (orth_dot hV' w w).symm
  have hVP : ∀ w : V3 ℝ, V *ᵥ ((V.transpose * diagonal e * V) *ᵥ w) = fun i => e i * (V *ᵥ w) i := by
    intro w
    rw [mulVec_mulVec, ← mul_assoc, ← mul_assoc, hV, one_mul, ← mulVec_mulVec]
    funext i
    rw [mulVec_diagonal]
  refine ⟨?_, ?_, ?_, ?_, ?_⟩
  · simp only [transpose_mul, transpose_transpose, diagonal_transpose, mul_assoc]
  · calc V.transpose * diagonal e * V * (V.transpose * diagonal e * V)
        = V.transpose * diagonal e * (V * V.transpose) * diagonal e * V := by simp only [mul_assoc]
      _ = _ := by
        rw [hV, mul_one, mul_assoc V.transpose, diagonal_mul_diagonal]
        congr 3
        funext i
        simp [he]
  · rw [hMM]
    calc V.transpose * diagonal e * V * (V.transpose * diagonal (fun i => σ i * σ i) * V)
        = V.transpose * diagonal e * (V * V.transpose) * diagonal (fun i => σ i * σ i) * V := by
          simp only [mul_assoc]
      _ = V.transpose * diagonal (fun i => σ i * σ i) * (V * V.transpose) * diagonal e * V := by
          rw [hV, mul_one, mul_one, mul_assoc V.transpose (diagonal e), diagonal_mul_diagonal,
            mul_assoc V.transpose (diagonal _) (diagonal e), diagonal_mul_diagonal]
          congr 3
          funext i
          ring
      _ = _ := by simp only [mul_assoc]
  · intro w hw
    have h1 := hVP w
    rw [hw, mulVec_zero] at h1
    rw [hquad, hnorm, Finset.mul_sum]
    refine Finset.sum_le_sum fun i _ => ?_
    have h2 := congrFun h1 i
    by_cases h : ε < σ i
    · simp only [he, h, if_true, Pi.zero_apply, one_mul] at h2
      rw [← h2]; simp
    · have := h0 i
      push Not at h
      exact mul_le_mul_of_nonneg_right (by nlinarith) (mul_self_nonneg _)
  · intro w hw hne
    have h1 := hVP w
    rw [hw] at h1
    have hle : ∀ i, ε ^ 2 * ((V *ᵥ w) i * (V *ᵥ w) i) ≤ σ i * σ i * ((V *ᵥ w) i * (V *ᵥ w) i) ∧
        ((V *ᵥ w) i ≠ 0 → ε ^ 2 * ((V *ᵥ w) i * (V *ᵥ w) i) <
          σ i * σ i * ((V *ᵥ w) i * (V *ᵥ w) i)) := by
      intro i
      have h2 := congrFun h1 i
      by_cases h : ε < σ i
      · have h3 : ε ^ 2 < σ i * σ i := by nlinarith
        exact ⟨mul_le_mul_of_nonneg_right h3.le (mul_self_nonneg _),
          fun hn => mul_lt_mul_of_pos_right h3 (mul_self_pos.2 hn)⟩
      · simp only [he, h, if_false, zero_mul] at h2
        rw [h2]; simp
    have hVw : V *ᵥ w ≠ 0 := by
      intro h
      apply hne
      have := hnorm w
      rw [h] at this
      simpa using this
    obtain ⟨k, hk⟩ := Function.ne_iff.1 hVw
    rw [hquad, hnorm, Finset.mul_sum]
    exact Finset.sum_lt_sum (fun i _ => (hle i).1) ⟨k, Finset.mem_univ _, (hle k).2 hk⟩

/-- `my_pinv` returns a matrix `p` with `p * M` the projection on the kept directions. -/
theorem myPinv_spec {trySvd : TrySvd ℝ} (hs : SvdContract trySvd) {M p : Mat 3 3 ℝ}
    (hp : myPinv trySvd M = .ok p) :
    ∃ P, Matrix.of p * Matrix.of M = P ∧ Keep cutoff (Matrix.of M) P := by
  have hlit : (Scalar.lit (1 / 10000000) : ℝ) = cutoff := by rw [lit_real]; norm_num [cutoff]
  unfold myPinv at hp
  rw [hlit] at hp
  cases hd : trySvd M true true cutoff 100 with
  | none => rw [hd] at hp; simp [Outcome.okOr, bind, Outcome.bind] at hp
  | some d =>
    obtain ⟨U, V, hu, hv, hU, hV, h0, hM⟩ := hs M cutoff 100 d hd
    rw [hd] at hp
    simp only [Outcome.okOr, bind, Outcome.bind, SVD.pseudoInverse] at hp
    have hz : Scalar.lt cutoff (0 : ℝ) = false := by
      rw [lt_real, decide_eq_false_iff_not]; exact not_lt.2 cutoff_pos.le
    rw [if_neg (by rw [hz]; decide), pinv_loop] at hp
    simp only [SVD.recompose, hu, hv, Except.bind, Outcome.unwrapResult, pure, Except.pure] at hp
    refine ⟨_, ?_, keep_of_svd cutoff_pos.le hU hV h0 hM⟩
    have hp' : Matrix.of p = (Matrix.of V).transpose *
        diagonal (fun i => if cutoff < d.singularValues i then 1 / d.singularValues i else 0) *
        (Matrix.of U).transpose := by
      injection hp with hp
      rw [← hp]
      ext i j
      simp only [Mat.transpose', Mat.mul3, Matrix.of_apply, Matrix.mul_apply, diagonal_apply,
        transpose_apply, Fin.sum_univ_three]
      simp
      ring_nf
    rw [hp', ← hM]
    calc (Matrix.of V).transpose *
          diagonal (fun i => if cutoff < d.singularValues i then 1 / d.singularValues i else 0) *
          (Matrix.of U).transpose * (Matrix.of U * diagonal d.singularValues * Matrix.of V)
        = (Matrix.of V).transpose *
          diagonal (fun i => if cutoff < d.singularValues i then 1 / d.singularValues i else 0) *
          ((Matrix.of U).transpose * Matrix.of U) * diagonal d.singularValues * Matrix.of V := by
          simp only [mul_assoc]
      _ = _ := by
          rw [hU, mul_one, mul_assoc (Matrix.of V).transpose, diagonal_mul_diagonal]
          congr 3
          funext i
          by_cases h : cutoff < d.singularValues i
          · have : d.singularValues i ≠ 0 := (cutoff_pos.trans h).ne'
            simp [h, this]
          · simp [h]

end CamGeom
