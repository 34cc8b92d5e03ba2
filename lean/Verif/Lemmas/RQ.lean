import Verif.Props.CameraMatrix
import Verif.Lemmas.RotationToQuat

/-!
# The RQ decomposition of `/repo/src/camera.rs:225-284` over the reals
-/

namespace CamGeom
open Spec Matrix

theorem mul3_eq (a b : Mat 3 3 ℝ) : Matrix.of (Mat.mul3 a b) = Matrix.of a * Matrix.of b := by
  ext i j; simp [Mat.mul3, Matrix.mul_apply, Fin.sum_univ_three]

theorem det3_eq (a : Mat 3 3 ℝ) : Mat.det3 a = (Matrix.of a).det := by
  rw [Matrix.det_fin_three]; simp [Mat.det3]; ring

/-- Upper triangular. -/
def Upper (K : Mat 3 3 ℝ) : Prop := ∀ i j : Fin 3, j < i → K i j = 0

theorem finRange3 : List.finRange 3 = [0, 1, 2] := by decide

/-- One iteration of the sign-flipping loop. -/
theorem flip_inner (i : Fin 3) (s : Mat 3 3 ℝ × Mat 3 3 ℝ) :
    forRange 3 s (fun j s => (s.1.set j i (-(s.1 j i)), s.2.set i j (-(s.2 i j)))) =
      (fun r c => if c = i then -(s.1 r c) else s.1 r c,
       fun r c => if r = i then -(s.2 r c) else s.2 r c) := by
  simp only [forRange, finRange3, List.foldl_cons, List.foldl_nil]
  refine Prod.ext ?_ ?_ <;> funext r c <;> fin_cases i <;> fin_cases r <;> fin_cases c <;>
    simp [Mat.set]

/-- The sign chosen for a diagonal entry. -/
noncomputable def sg (x : ℝ) : ℝ := if x < 0 then -1 else 1

theorem sg_mul_self (x : ℝ) : sg x * sg x = 1 := by unfold sg; split <;> norm_num

theorem mul_sg (x : ℝ) : x * sg x = |x| := by
  unfold sg; split
  next h => rw [abs_of_neg h]; ring
  next h => rw [abs_of_nonneg (not_lt.1 h)]; ring

theorem flipSigns_eq (K Q : Mat 3 3 ℝ) :
    Camera.flipSigns K Q =
      (fun r c => K r c * sg (K c c), fun r c => sg (K r r) * Q r c) := by
  unfold Camera.flipSigns
  simp only [flip_inner]
  simp only [forRange, finRange3, List.foldl_cons, List.foldl_nil, lt_real, lit_real, Rat.cast_zero]
  by_cases h0 : K 0 0 < 0 <;> by_cases h1 : K 1 1 < 0 <;> by_cases h2 : K 2 2 < 0 <;>
    simp [h0, h1, h2] <;> constructor <;> funext r c <;> fin_cases r <;> fin_cases c <;>
    simp [sg, h0, h1, h2]

/-- `rq` returns an upper triangular and an orthogonal factor whose product is the argument. -/
theorem rq_spec {na : Linalg ℝ} (hqr : QrContract na) (A : Mat 3 3 ℝ) :
    Upper (Camera.rq na A).1 ∧
    (Matrix.of (Camera.rq na A).2).transpose * Matrix.of (Camera.rq na A).2 = 1 ∧
    Matrix.of (Camera.rq na A).1 * Matrix.of (Camera.rq na A).2 = Matrix.of A := by
  set F : Mat 3 3 ℝ := ![![0, 0, 1], ![0, 1, 0], ![1, 0, 0]] with hF
  have hFF : Matrix.of F * Matrix.of F = 1 := by
    ext a b; fin_cases a <;> fin_cases b <;> simp [hF, Matrix.mul_apply, Fin.sum_univ_three]
  have hFT : (Matrix.of F).transpose = Matrix.of F := by
    ext a b; fin_cases a <;> fin_cases b <;> simp [hF]
  have hz : (![![Scalar.lit 0, Scalar.lit 0, Scalar.lit 1], ![Scalar.lit 0, Scalar.lit 1, Scalar.lit 0],
      ![Scalar.lit 1, Scalar.lit 0, Scalar.lit 0]] : Mat 3 3 ℝ) = F := by simp [hF]
  obtain ⟨hQ, hR, hQR⟩ := hqr (Mat.transpose' (Mat.mul3 F A))
  set Qt := (na.qr (Mat.transpose' (Mat.mul3 F A))).1 with hQt
  set Rt := (na.qr (Mat.transpose' (Mat.mul3 F A))).2 with hRt
  have h1 : (Camera.rq na A).1 = Mat.mul3 (Mat.mul3 F (Mat.transpose' Rt)) F := by
    simp only [Camera.rq, hz, hRt]
  have h2 : (Camera.rq na A).2 = Mat.mul3 F (Mat.transpose' Qt) := by
    simp only [Camera.rq, hz, hQt]
  have tr : ∀ M : Mat 3 3 ℝ, Matrix.of (Mat.transpose' M) = (Matrix.of M).transpose := fun M => rfl
  rw [h1, h2]
  refine ⟨?_, ?_, ?_⟩
  · intro i j hij
    have r10 := hR 1 0 (by decide)
    have r20 := hR 2 0 (by decide)
    have r21 := hR 2 1 (by decide)
    fin_cases i <;> fin_cases j <;> simp at hij <;>
      simp [hF, Mat.mul3, Mat.transpose', r10, r20, r21]
  · rw [mul3_eq, tr, transpose_mul, transpose_transpose, hFT]
    have hQ' : Matrix.of Qt * (Matrix.of Qt).transpose = 1 := mul_eq_one_comm.1 hQ
    rw [mul_assoc, ← mul_assoc (Matrix.of F), hFF, one_mul, hQ']
  · rw [mul3_eq, mul3_eq, mul3_eq, tr, tr, mul_assoc, ← mul_assoc (Matrix.of F) (Matrix.of F), hFF,
      one_mul, mul_assoc, ← transpose_mul, hQR, tr, transpose_transpose, mul3_eq, ← mul_assoc, hFF,
      one_mul]

/-- `rq_decomposition` of an invertible matrix: a proper rotation, and an upper triangular factor
whose diagonal entries are nonzero and of one sign. -/
theorem rqDecomposition_spec {na : Linalg ℝ} (hqr : QrContract na) {A : Mat 3 3 ℝ}
    (hA : (Matrix.of A).det ≠ 0) :
    ∃ Rot K : Mat 3 3 ℝ, Camera.rqDecomposition na A = .ok (na.fromRotationMatrix Rot, K) ∧
      IsRotation Rot ∧ Upper K ∧ Matrix.of K * Matrix.of Rot = Matrix.of A ∧
      ((∀ i, 0 < K i i) ∨ ∀ i, K i i < 0) := by
  obtain ⟨hU, hO, hP⟩ := rq_spec hqr A
  set K0 := (Camera.rq na A).1 with hK0
  set Q0 := (Camera.rq na A).2 with hQ0
  set K1 : Mat 3 3 ℝ := fun r c => K0 r c * sg (K0 c c) with hK1
  set Q1 : Mat 3 3 ℝ := fun r c => sg (K0 r r) * Q0 r c with hQ1
  set S : Matrix (Fin 3) (Fin 3) ℝ := Matrix.diagonal fun i => sg (K0 i i) with hS
  have hSS : S * S = 1 := by
    rw [hS, Matrix.diagonal_mul_diagonal]
    simp only [sg_mul_self, Matrix.diagonal_one]
  have hST : S.transpose = S := by rw [hS, Matrix.diagonal_transpose]
  have hKS : Matrix.of K1 = Matrix.of K0 * S := by
    ext r c; simp [hK1, hS]
  have hQS : Matrix.of Q1 = S * Matrix.of Q0 := by
    ext r c; simp [hQ1, hS]
  have hU1 : Upper K1 := by intro i j hij; simp [hK1, hU i j hij]
  have hO1 : (Matrix.of Q1).transpose * Matrix.of Q1 = 1 := by
    rw [hQS, transpose_mul, hST, mul_assoc, ← mul_assoc S, hSS, one_mul, hO]
  have hP1 : Matrix.of K1 * Matrix.of Q1 = Matrix.of A := by
    rw [hKS, hQS, mul_assoc, ← mul_assoc S, hSS, one_mul, hP]
  have hdetQ : (Matrix.of Q1).det = 1 ∨ (Matrix.of Q1).det = -1 := by
    have := congrArg Matrix.det hO1
    rw [det_mul, det_transpose, det_one] at this
    exact mul_self_eq_one_iff.1 this
  have hdetK : (Matrix.of K1).det ≠ 0 := by
    intro h0; apply hA; rw [← hP1, det_mul, h0, zero_mul]
  have hdiag : (Matrix.of K1).det = K1 0 0 * K1 1 1 * K1 2 2 := by
    rw [Matrix.det_fin_three]
    simp [hU1 1 0 (by decide), hU1 2 0 (by decide), hU1 2 1 (by decide)]
  have hpos : ∀ i, 0 < K1 i i := by
    intro i
    have h1 : K1 i i = |K0 i i| := by rw [hK1]; exact mul_sg _
    have h2 : K1 i i ≠ 0 := by
      intro h0; apply hdetK; rw [hdiag]; fin_cases i <;> simp at h0 <;> simp [h0]
    rw [h1] at h2 ⊢
    exact lt_of_le_of_ne (abs_nonneg _) (Ne.symm h2)
  have hneg : Mat.det3 (Mat.neg Q1) = -(Matrix.of Q1).det := by
    rw [det3_eq]
    have : Matrix.of (Mat.neg Q1) = -Matrix.of Q1 := rfl
    rw [this, det_neg]; simp; ring
  have hunf : Camera.rqDecomposition na A = if Scalar.lt (Mat.det3 (Mat.neg Q1)) (Mat.det3 Q1) then
      .ok (na.fromRotationMatrix Q1, K1) else .ok (na.fromRotationMatrix (Mat.neg Q1), Mat.neg K1) := by
    simp only [Camera.rqDecomposition, ← hK0, ← hQ0, flipSigns_eq, hK1, hQ1]
  rw [hunf, hneg, det3_eq]
  rcases hdetQ with h | h
  · refine ⟨Q1, K1, ?_, ⟨hO1, h⟩, hU1, hP1, Or.inl hpos⟩
    rw [h]; simp
  · refine ⟨Mat.neg Q1, Mat.neg K1, ?_, ⟨?_, ?_⟩, ?_, ?_, Or.inr fun i => ?_⟩
    · rw [h]; simp
    · have : Matrix.of (Mat.neg Q1) = -Matrix.of Q1 := rfl
      rw [this, transpose_neg, neg_mul_neg, hO1]
    · rw [← det3_eq, hneg, h, neg_neg]
    · intro i j hij; simp [Mat.neg, hU1 i j hij]
    · have e1 : Matrix.of (Mat.neg Q1) = -Matrix.of Q1 := rfl
      have e2 : Matrix.of (Mat.neg K1) = -Matrix.of K1 := rfl
      rw [e1, e2, neg_mul_neg, hP1]
    · simp [Mat.neg, hpos i]

end CamGeom
