import Verif.Lemmas.Quaternion
import Verif.Spec.Contracts
import Mathlib.Tactic.FieldSimp
import Mathlib.LinearAlgebra.Matrix.NonsingularInverse

/-!
# nalgebra's rotation matrix to quaternion conversion satisfies its contract
-/

namespace CamGeom
open Spec Matrix

/-- `UnitQuaternion::from_rotation_matrix` as implemented in nalgebra (Shepperd's method), used at
`/repo/src/camera.rs:276,281` and inside `look_at_lh` (`/repo/src/extrinsics.rs:114`).  Written from
the documentation of nalgebra, whose source is not in `/repo`. -/
def shepperd {R : Type} [Scalar R] (m : Mat 3 3 R) : Quat R :=
  let quarter : R := Scalar.lit (1 / 4)
  let two : R := Scalar.lit 2
  let one : R := Scalar.lit 1
  let tr := m 0 0 + m 1 1 + m 2 2
  if Scalar.lt 0 tr then
    let denom := Scalar.sqrt (tr + one) * two
    ⟨quarter * denom, (m 2 1 - m 1 2) / denom, (m 0 2 - m 2 0) / denom, (m 1 0 - m 0 1) / denom⟩
  else if Scalar.lt (m 1 1) (m 0 0) && Scalar.lt (m 2 2) (m 0 0) then
    let denom := Scalar.sqrt (one + m 0 0 - m 1 1 - m 2 2) * two
    ⟨(m 2 1 - m 1 2) / denom, quarter * denom, (m 0 1 + m 1 0) / denom, (m 0 2 + m 2 0) / denom⟩
  else if Scalar.lt (m 2 2) (m 1 1) then
    let denom := Scalar.sqrt (one + m 1 1 - m 0 0 - m 2 2) * two
    ⟨(m 0 2 - m 2 0) / denom, (m 0 1 + m 1 0) / denom, quarter * denom, (m 1 2 + m 2 1) / denom⟩
  else
    let denom := Scalar.sqrt (one + m 2 2 - m 0 0 - m 1 1) * two
    ⟨(m 1 0 - m 0 1) / denom, (m 0 2 + m 2 0) / denom, (m 1 2 + m 2 1) / denom, quarter * denom⟩

/-- The entries of a rotation matrix: rows and columns orthonormal, and cofactors. -/
structure RotEqs (m : Mat 3 3 ℝ) : Prop where
  c00 : m 0 0 * m 0 0 + m 1 0 * m 1 0 + m 2 0 * m 2 0 = 1
  c11 : m 0 1 * m 0 1 + m 1 1 * m 1 1 + m 2 1 * m 2 1 = 1
  c22 : m 0 2 * m 0 2 + m 1 2 * m 1 2 + m 2 2 * m 2 2 = 1
  c01 : m 0 0 * m 0 1 + m 1 0 * m 1 1 + m 2 0 * m 2 1 = 0
  c02 : m 0 0 * m 0 2 + m 1 0 * m 1 2 + m 2 0 * m 2 2 = 0
  c12 : m 0 1 * m 0 2 + m 1 1 * m 1 2 + m 2 1 * m 2 2 = 0
  r00 : m 0 0 * m 0 0 + m 0 1 * m 0 1 + m 0 2 * m 0 2 = 1
  r11 : m 1 0 * m 1 0 + m 1 1 * m 1 1 + m 1 2 * m 1 2 = 1
  r22 : m 2 0 * m 2 0 + m 2 1 * m 2 1 + m 2 2 * m 2 2 = 1
  r01 : m 0 0 * m 1 0 + m 0 1 * m 1 1 + m 0 2 * m 1 2 = 0
  r02 : m 0 0 * m 2 0 + m 0 1 * m 2 1 + m 0 2 * m 2 2 = 0
  r12 : m 1 0 * m 2 0 + m 1 1 * m 2 1 + m 1 2 * m 2 2 = 0
  k00 : m 1 1 * m 2 2 - m 1 2 * m 2 1 = m 0 0
  k01 : m 1 2 * m 2 0 - m 1 0 * m 2 2 = m 0 1
  k02 : m 1 0 * m 2 1 - m 1 1 * m 2 0 = m 0 2
  k10 : m 0 2 * m 2 1 - m 0 1 * m 2 2 = m 1 0
  k11 : m 0 0 * m 2 2 - m 0 2 * m 2 0 = m 1 1
  k12 : m 0 1 * m 2 0 - m 0 0 * m 2 1 = m 1 2
  k20 : m 0 1 * m 1 2 - m 0 2 * m 1 1 = m 2 0
  k21 : m 0 2 * m 1 0 - m 0 0 * m 1 2 = m 2 1
  k22 : m 0 0 * m 1 1 - m 0 1 * m 1 0 = m 2 2

theorem rotEqs {m : Mat 3 3 ℝ} (h : IsRotation m) : RotEqs m := by
  obtain ⟨h1, hdet⟩ := h
  have h2 : Matrix.of m * (Matrix.of m).transpose = 1 := mul_eq_one_comm.1 h1
  have g := fun a b => congrFun (congrFun h1 a) b
  have r := fun a b => congrFun (congrFun h2 a) b
  have hadj : (Matrix.of m).adjugate = (Matrix.of m).transpose := by
    have := Matrix.mul_adjugate (Matrix.of m)
    rw [hdet, one_smul] at this
    calc (Matrix.of m).adjugate = ((Matrix.of m).transpose * Matrix.of m) * (Matrix.of m).adjugate := by
          rw [h1, one_mul]
      _ = _ := by rw [mul_assoc, this, mul_one]
  have k := fun a b => congrFun (congrFun hadj a) b
  simp only [Matrix.mul_apply, Fin.sum_univ_three, Matrix.transpose_apply, Matrix.of_apply] at g r
  rw [Matrix.adjugate_fin_three] at k
  refine ⟨?_, ?_, ?_, ?_, ?_, ?_, ?_, ?_, ?_, ?_, ?_, ?_, ?_, ?_, ?_, ?_, ?_, ?_, ?_, ?_, ?_⟩
  · simpa using g 0 0
  · simpa using g 1 1
  · simpa using g 2 2
  · simpa using g 0 1
  · simpa using g 0 2
  · simpa using g 1 2
  · simpa using r 0 0
  · simpa using r 1 1
  · simpa using r 2 2
  · simpa using r 0 1
  · simpa using r 0 2
  · simpa using r 1 2
  · have := k 0 0; simp at this; linarith
  · have := k 1 0; simp at this; linarith
  · have := k 2 0; simp at this; linarith
  · have := k 0 1; simp at this; linarith
  · have := k 1 1; simp at this; linarith
  · have := k 2 1; simp at this; linarith
  · have := k 0 2; simp at this; linarith
  · have := k 1 2; simp at this; linarith
  · have := k 2 2; simp at this; linarith

/-- Quaternions from one row of the (rank one) matrix of pairwise products. -/
theorem products {a b c d T : ℝ} (hT : 0 < T) :
    let den := Real.sqrt T * 2
    (1 / 4 * den) * (1 / 4 * den) = T / 4 ∧ (1 / 4 * den) * (a / den) = a / 4 ∧
      (b / den) * (c / den) = b * c / (4 * T) ∧ (d / den) * (1 / 4 * den) = d / 4 := by
  intro den
  have hs : Real.sqrt T ≠ 0 := (Real.sqrt_pos.2 hT).ne'
  have hd : den ≠ 0 := by simp [den, hs]
  have h2 : den * den = 4 * T := by
    have := Real.mul_self_sqrt hT.le
    simp only [den]; linear_combination 4 * this
  refine ⟨by linear_combination (1 / 16) * h2, by field_simp, ?_, by field_simp⟩
  rw [div_mul_div_comm, h2]

/-- It suffices to know the ten pairwise products. -/
theorem quat_of_products {m : Mat 3 3 ℝ} (q : Quat ℝ)
    (ww : q.w * q.w = (1 + m 0 0 + m 1 1 + m 2 2) / 4)
    (ii : q.i * q.i = (1 + m 0 0 - m 1 1 - m 2 2) / 4)
    (jj : q.j * q.j = (1 + m 1 1 - m 0 0 - m 2 2) / 4)
    (kk : q.k * q.k = (1 + m 2 2 - m 0 0 - m 1 1) / 4) (wi : q.w * q.i = (m 2 1 - m 1 2) / 4)
    (wj : q.w * q.j = (m 0 2 - m 2 0) / 4) (wk : q.w * q.k = (m 1 0 - m 0 1) / 4)
    (ij : q.i * q.j = (m 0 1 + m 1 0) / 4) (ik : q.i * q.k = (m 0 2 + m 2 0) / 4)
    (jk : q.j * q.k = (m 1 2 + m 2 1) / 4) : UnitQuat q ∧ q.toRotationMatrix = m := by
  constructor
  · unfold UnitQuat; linear_combination ww + ii + jj + kk
  · funext a b
    fin_cases a <;> fin_cases b <;>
      simp only [Quat.toRotationMatrix, lit_real, ww, ii, jj, kk, wi, wj, wk, ij, ik, jk] <;>
      simp <;> ring

theorem shepperd_w {m : Mat 3 3 ℝ} (h : IsRotation m) (hT : 0 < m 0 0 + m 1 1 + m 2 2 + 1) :
    let den := Real.sqrt (m 0 0 + m 1 1 + m 2 2 + 1) * 2
    let q : Quat ℝ := ⟨1 / 4 * den, (m 2 1 - m 1 2) / den, (m 0 2 - m 2 0) / den, (m 1 0 - m 0 1) / den⟩
    UnitQuat q ∧ q.toRotationMatrix = m := by
  have E := rotEqs h
  obtain ⟨c00, c11, c22, c01, c02, c12, r00, r11, r22, r01, r02, r12, k00, k01, k02, k10, k11, k12,
    k20, k21, k22⟩ := E
  intro den q
  apply quat_of_products <;> dsimp only [q, den]
  · rw [(products (a := 0) (b := 0) (c := 0) (d := 0) hT).1]; ring
  · rw [(products (a := 0) (d := 0) hT).2.2.1, div_eq_div_iff (by positivity) (by norm_num)]
    linear_combination 4 * (r11 + r22 - c00 + 2 * k00)
  · rw [(products (a := 0) (d := 0) hT).2.2.1, div_eq_div_iff (by positivity) (by norm_num)]
    linear_combination 4 * (r00 + r22 - c11 + 2 * k11)
  · rw [(products (a := 0) (d := 0) hT).2.2.1, div_eq_div_iff (by positivity) (by norm_num)]
    linear_combination 4 * (r00 + r11 - c22 + 2 * k22)
  · rw [(products (b := 0) (c := 0) (d := 0) hT).2.1]
  · rw [(products (b := 0) (c := 0) (d := 0) hT).2.1]
  · rw [(products (b := 0) (c := 0) (d := 0) hT).2.1]
  · rw [(products (a := 0) (d := 0) hT).2.2.1, div_eq_div_iff (by positivity) (by norm_num)]
    linear_combination 4 * (k01 + k10 - c01 - r01)
  · rw [(products (a := 0) (d := 0) hT).2.2.1, div_eq_div_iff (by positivity) (by norm_num)]
    linear_combination 4 * (k02 + k20 - r02 - c02)
  · rw [(products (a := 0) (d := 0) hT).2.2.1, div_eq_div_iff (by positivity) (by norm_num)]
    linear_combination 4 * (k21 + k12 - c12 - r12)

theorem shepperd_i {m : Mat 3 3 ℝ} (h : IsRotation m) (hT : 0 < 1 + m 0 0 - m 1 1 - m 2 2) :
    let den := Real.sqrt (1 + m 0 0 - m 1 1 - m 2 2) * 2
    let q : Quat ℝ := ⟨(m 2 1 - m 1 2) / den, 1 / 4 * den, (m 0 1 + m 1 0) / den, (m 0 2 + m 2 0) / den⟩
    UnitQuat q ∧ q.toRotationMatrix = m := by
  have E := rotEqs h
  obtain ⟨c00, c11, c22, c01, c02, c12, r00, r11, r22, r01, r02, r12, k00, k01, k02, k10, k11, k12,
    k20, k21, k22⟩ := E
  intro den q
  apply quat_of_products <;> dsimp only [q, den]
  · rw [(products (a := 0) (d := 0) hT).2.2.1, div_eq_div_iff (by positivity) (by norm_num)]
    linear_combination 4 * (r11 + r22 - c00 + 2 * k00)
  · rw [(products (a := 0) (b := 0) (c := 0) (d := 0) hT).1]
  · rw [(products (a := 0) (d := 0) hT).2.2.1, div_eq_div_iff (by positivity) (by norm_num)]
    linear_combination 4 * (r00 + r11 - c22 - 2 * k22)
  · rw [(products (a := 0) (d := 0) hT).2.2.1, div_eq_div_iff (by positivity) (by norm_num)]
    linear_combination 4 * (r00 + r22 - c11 - 2 * k11)
  · rw [(products (a := 0) (b := 0) (c := 0) hT).2.2.2]
  · rw [(products (a := 0) (d := 0) hT).2.2.1, div_eq_div_iff (by positivity) (by norm_num)]
    linear_combination 4 * (r02 + k02 - k20 - c02)
  · rw [(products (a := 0) (d := 0) hT).2.2.1, div_eq_div_iff (by positivity) (by norm_num)]
    linear_combination 4 * (k10 + c01 - r01 - k01)
  · rw [(products (b := 0) (c := 0) (d := 0) hT).2.1]
  · rw [(products (b := 0) (c := 0) (d := 0) hT).2.1]
  · rw [(products (a := 0) (d := 0) hT).2.2.1, div_eq_div_iff (by positivity) (by norm_num)]
    linear_combination 4 * (c12 + k12 + k21 + r12)

theorem shepperd_j {m : Mat 3 3 ℝ} (h : IsRotation m) (hT : 0 < 1 + m 1 1 - m 0 0 - m 2 2) :
    let den := Real.sqrt (1 + m 1 1 - m 0 0 - m 2 2) * 2
    let q : Quat ℝ := ⟨(m 0 2 - m 2 0) / den, (m 0 1 + m 1 0) / den, 1 / 4 * den, (m 1 2 + m 2 1) / den⟩
    UnitQuat q ∧ q.toRotationMatrix = m := by
  have E := rotEqs h
  obtain ⟨c00, c11, c22, c01, c02, c12, r00, r11, r22, r01, r02, r12, k00, k01, k02, k10, k11, k12,
    k20, k21, k22⟩ := E
  intro den q
  apply quat_of_products <;> dsimp only [q, den]
  · rw [(products (a := 0) (d := 0) hT).2.2.1, div_eq_div_iff (by positivity) (by norm_num)]
    linear_combination 4 * (r00 + r22 - c11 + 2 * k11)
  · rw [(products (a := 0) (d := 0) hT).2.2.1, div_eq_div_iff (by positivity) (by norm_num)]
    linear_combination 4 * (r00 + r11 - c22 - 2 * k22)
  · rw [(products (a := 0) (b := 0) (c := 0) (d := 0) hT).1]
  · rw [(products (a := 0) (d := 0) hT).2.2.1, div_eq_div_iff (by positivity) (by norm_num)]
    linear_combination 4 * (r11 + r22 - c00 - 2 * k00)
  · rw [(products (a := 0) (d := 0) hT).2.2.1, div_eq_div_iff (by positivity) (by norm_num)]
    linear_combination 4 * (c12 + k21 - k12 - r12)
  · rw [(products (a := 0) (b := 0) (c := 0) hT).2.2.2]
  · rw [(products (a := 0) (d := 0) hT).2.2.1, div_eq_div_iff (by positivity) (by norm_num)]
    linear_combination 4 * (r01 + k10 - k01 - c01)
  · rw [(products (a := 0) (b := 0) (c := 0) hT).2.2.2]
  · rw [(products (a := 0) (d := 0) hT).2.2.1, div_eq_div_iff (by positivity) (by norm_num)]
    linear_combination 4 * (k20 + r02 + c02 + k02)
  · rw [(products (b := 0) (c := 0) (d := 0) hT).2.1]

theorem shepperd_k {m : Mat 3 3 ℝ} (h : IsRotation m) (hT : 0 < 1 + m 2 2 - m 0 0 - m 1 1) :
    let den := Real.sqrt (1 + m 2 2 - m 0 0 - m 1 1) * 2
    let q : Quat ℝ := ⟨(m 1 0 - m 0 1) / den, (m 0 2 + m 2 0) / den, (m 1 2 + m 2 1) / den, 1 / 4 * den⟩
    UnitQuat q ∧ q.toRotationMatrix = m := by
  have E := rotEqs h
  obtain ⟨c00, c11, c22, c01, c02, c12, r00, r11, r22, r01, r02, r12, k00, k01, k02, k10, k11, k12,
    k20, k21, k22⟩ := E
  intro den q
  apply quat_of_products <;> dsimp only [q, den]
  · rw [(products (a := 0) (d := 0) hT).2.2.1, div_eq_div_iff (by positivity) (by norm_num)]
    linear_combination 4 * (r00 + r11 - c22 + 2 * k22)
  · rw [(products (a := 0) (d := 0) hT).2.2.1, div_eq_div_iff (by positivity) (by norm_num)]
    linear_combination 4 * (r00 + r22 - c11 - 2 * k11)
  · rw [(products (a := 0) (d := 0) hT).2.2.1, div_eq_div_iff (by positivity) (by norm_num)]
    linear_combination 4 * (r11 + r22 - c00 - 2 * k00)
  · rw [(products (a := 0) (b := 0) (c := 0) (d := 0) hT).1]
  · rw [(products (a := 0) (d := 0) hT).2.2.1, div_eq_div_iff (by positivity) (by norm_num)]
    linear_combination 4 * (k21 + r12 - c12 - k12)
  · rw [(products (a := 0) (d := 0) hT).2.2.1, div_eq_div_iff (by positivity) (by norm_num)]
    linear_combination 4 * (c02 + k02 - k20 - r02)
  · rw [(products (a := 0) (b := 0) (c := 0) hT).2.2.2]
  · rw [(products (a := 0) (d := 0) hT).2.2.1, div_eq_div_iff (by positivity) (by norm_num)]
    linear_combination 4 * (r01 + k10 + k01 + c01)
  · rw [(products (a := 0) (b := 0) (c := 0) hT).2.2.2]
  · rw [(products (a := 0) (b := 0) (c := 0) hT).2.2.2]

theorem shepperd_spec {m : Mat 3 3 ℝ} (h : IsRotation m) :
    UnitQuat (shepperd m) ∧ (shepperd m).toRotationMatrix = m := by
  have q4 : ((1 / 4 : ℚ) : ℝ) = 1 / 4 := by norm_num
  have q2 : ((2 : ℚ) : ℝ) = 2 := by norm_num
  have q1 : ((1 : ℚ) : ℝ) = 1 := by norm_num
  unfold shepperd
  simp only [lit_real, sqrt_real, lt_real, q4, q2, q1]
  split
  next htr =>
    have htr' : (0 : ℝ) < m 0 0 + m 1 1 + m 2 2 := by simpa using htr
    exact shepperd_w h (by linarith)
  next htr =>
    have htr' : m 0 0 + m 1 1 + m 2 2 ≤ 0 := by simpa using htr
    split
    next h2 =>
      have h2' : m 1 1 < m 0 0 ∧ m 2 2 < m 0 0 := by simpa using h2
      exact shepperd_i h (by linarith [h2'.1, h2'.2])
    next h2 =>
      have h2' : m 1 1 < m 0 0 → m 0 0 ≤ m 2 2 := by simpa using h2
      split
      next h3 =>
        have h3' : m 2 2 < m 1 1 := by simpa using h3
        have h10 : m 0 0 ≤ m 1 1 := by
          by_contra hc
          have := h2' (not_le.1 hc)
          linarith
        exact shepperd_j h (by linarith)
      next h3 =>
        have h3' : m 1 1 ≤ m 2 2 := by simpa using h3
        have h20 : m 0 0 ≤ m 2 2 := by
          by_contra hc
          have h4 := not_le.1 hc
          have := h2' (by linarith)
          linarith
        exact shepperd_k h (by linarith)

/-- The contract of `from_rotation_matrix` is satisfiable: nalgebra's method satisfies it, whatever
the QR routine. -/
theorem rotationContract_shepperd (qr : Mat 3 3 ℝ → Mat 3 3 ℝ × Mat 3 3 ℝ) :
    RotationContract ⟨qr, shepperd⟩ := fun _ hM => shepperd_spec hM

end CamGeom
