import Verif.Spec.Geometry
import Mathlib.Tactic.Ring
import Mathlib.Tactic.LinearCombination
import Mathlib.Tactic.FinCases
import Mathlib.LinearAlgebra.Matrix.DotProduct

/-!
# Quaternion algebra over the reals
-/

namespace CamGeom
open Spec Matrix

/-- Component form of the quaternion rotation. -/
theorem rotate_apply (q : Quat ℝ) (v : V3 ℝ) :
    q.rotate v = ![
      2 * q.w * (q.j * v 2 - q.k * v 1) +
        2 * (q.j * (q.i * v 1 - q.j * v 0) - q.k * (q.k * v 0 - q.i * v 2)) + v 0,
      2 * q.w * (q.k * v 0 - q.i * v 2) +
        2 * (q.k * (q.j * v 2 - q.k * v 1) - q.i * (q.i * v 1 - q.j * v 0)) + v 1,
      2 * q.w * (q.i * v 1 - q.j * v 0) +
        2 * (q.i * (q.k * v 0 - q.i * v 2) - q.j * (q.j * v 2 - q.k * v 1)) + v 2] := by
  funext a
  fin_cases a <;>
    simp [Quat.rotate, V3.add, V3.scale, V3.cross, Quat.vector] <;> ring

/-- Rotation is linear, whatever the norm of the quaternion. -/
theorem rotate_add (q : Quat ℝ) (v w : V3 ℝ) : q.rotate (v + w) = q.rotate v + q.rotate w := by
  funext a; fin_cases a <;> simp [rotate_apply] <;> ring

theorem rotate_sub (q : Quat ℝ) (v w : V3 ℝ) : q.rotate (v - w) = q.rotate v - q.rotate w := by
  funext a; fin_cases a <;> simp [rotate_apply] <;> ring

theorem rotate_smul (q : Quat ℝ) (s : ℝ) (v : V3 ℝ) : q.rotate (s • v) = s • q.rotate v := by
  funext a; fin_cases a <;> simp [rotate_apply] <;> ring

theorem rotate_neg (q : Quat ℝ) (v : V3 ℝ) : q.rotate (-v) = - q.rotate v := by
  funext a; fin_cases a <;> simp [rotate_apply] <;> ring

theorem rotate_zero (q : Quat ℝ) : q.rotate (0 : V3 ℝ) = 0 := by
  funext a; fin_cases a <;> simp [rotate_apply]

theorem unitQuat_inverse {q : Quat ℝ} (h : UnitQuat q) : UnitQuat q.inverse := by
  unfold UnitQuat at *; simp only [Quat.inverse]; linear_combination h

theorem inverse_inverse (q : Quat ℝ) : q.inverse.inverse = q := by
  simp [Quat.inverse]

theorem inverse_rotate_rotate {q : Quat ℝ} (h : UnitQuat q) (v : V3 ℝ) :
    q.inverse.rotate (q.rotate v) = v := by
  unfold UnitQuat at h
  rw [rotate_apply q, rotate_apply]
  have key : ∀ s : ℝ, s = q.i ^ 2 + q.j ^ 2 + q.k ^ 2 → q.w ^ 2 = 1 - s := by
    intro s hs; rw [hs]; linear_combination h
  have hw := key _ rfl
  funext a
  fin_cases a <;> simp [Quat.inverse]
  · linear_combination (-4 * (q.j ^ 2 + q.k ^ 2) * v 0 + 4 * q.i * q.j * v 1 + 4 * q.i * q.k * v 2) * (-h)
  · linear_combination (-4 * (q.i ^ 2 + q.k ^ 2) * v 1 + 4 * q.i * q.j * v 0 + 4 * q.j * q.k * v 2) * (-h)
  · linear_combination (-4 * (q.i ^ 2 + q.j ^ 2) * v 2 + 4 * q.i * q.k * v 0 + 4 * q.j * q.k * v 1) * (-h)

theorem rotate_inverse_rotate {q : Quat ℝ} (h : UnitQuat q) (v : V3 ℝ) :
    q.rotate (q.inverse.rotate v) = v := by
  have := inverse_rotate_rotate (unitQuat_inverse h) v
  rwa [inverse_inverse] at this

theorem rotate_injective {q : Quat ℝ} (h : UnitQuat q) : Function.Injective q.rotate := by
  intro a b hab
  rw [← inverse_rotate_rotate h a, hab, inverse_rotate_rotate h b]

theorem rotate_eq_zero {q : Quat ℝ} (h : UnitQuat q) {v : V3 ℝ} : q.rotate v = 0 ↔ v = 0 := by
  constructor
  · intro hv; exact rotate_injective h (by rw [hv, rotate_zero])
  · rintro rfl; exact rotate_zero q

theorem mulVec3_eq {m : ℕ} (M : Mat m 3 ℝ) (v : V3 ℝ) :
    Mat.mulVec3 M v = Matrix.mulVec (Matrix.of M) v := by
  funext a; simp [Mat.mulVec3, Matrix.mulVec, dotProduct, Fin.sum_univ_three]

/-- The rotation matrix acts like the quaternion (unit norm needed). -/
theorem mulVec3_toRotationMatrix {q : Quat ℝ} (h : UnitQuat q) (v : V3 ℝ) :
    Mat.mulVec3 q.toRotationMatrix v = q.rotate v := by
  unfold UnitQuat at h
  rw [rotate_apply]
  funext a
  fin_cases a <;> simp [Mat.mulVec3, Quat.toRotationMatrix]
  · linear_combination v 0 * h
  · linear_combination v 1 * h
  · linear_combination v 2 * h

/-- The matrix of the conjugate is the transpose. -/
theorem toRotationMatrix_inverse (q : Quat ℝ) :
    q.inverse.toRotationMatrix = Mat.transpose' q.toRotationMatrix := by
  funext a b
  fin_cases a <;> fin_cases b <;>
    simp [Quat.inverse, Quat.toRotationMatrix, Mat.transpose'] <;> ring

theorem rotate_dot {q : Quat ℝ} (h : UnitQuat q) (v w : V3 ℝ) :
    q.rotate v ⬝ᵥ q.rotate w = v ⬝ᵥ w := by
  unfold UnitQuat at h
  simp only [rotate_apply, dotProduct, Fin.sum_univ_three, Matrix.cons_val]
  linear_combination (4 * ((q.j * v 2 - q.k * v 1) * (q.j * w 2 - q.k * w 1)
    + (q.k * v 0 - q.i * v 2) * (q.k * w 0 - q.i * w 2)
    + (q.i * v 1 - q.j * v 0) * (q.i * w 1 - q.j * w 0))) * h

theorem toRotationMatrix_isRotation {q : Quat ℝ} (h : UnitQuat q) :
    IsRotation q.toRotationMatrix := by
  unfold UnitQuat at h
  have h2 : (q.w ^ 2 + q.i ^ 2 + q.j ^ 2 + q.k ^ 2) ^ 2 = 1 := by rw [h]; norm_num
  have h3 : (q.w ^ 2 + q.i ^ 2 + q.j ^ 2 + q.k ^ 2) ^ 3 = 1 := by rw [h]; norm_num
  constructor
  · ext a b
    fin_cases a <;> fin_cases b <;>
      simp [Matrix.mul_apply, Fin.sum_univ_three, Quat.toRotationMatrix]
    · linear_combination h2
    · ring
    · ring
    · ring
    · linear_combination h2
    · ring
    · ring
    · ring
    · linear_combination h2
  · rw [Matrix.det_fin_three]
    simp [Quat.toRotationMatrix]
    linear_combination h3

theorem rotate_cross {q : Quat ℝ} (h : UnitQuat q) (v w : V3 ℝ) :
    (q.rotate v) ⨯₃ (q.rotate w) = q.rotate (v ⨯₃ w) := by
  simp only [← mulVec3_toRotationMatrix h]
  unfold UnitQuat at h
  have key : ∀ a, (Mat.mulVec3 q.toRotationMatrix v ⨯₃ Mat.mulVec3 q.toRotationMatrix w) a =
      (q.w ^ 2 + q.i ^ 2 + q.j ^ 2 + q.k ^ 2) * Mat.mulVec3 q.toRotationMatrix (v ⨯₃ w) a := by
    intro a
    fin_cases a <;>
      simp [cross_apply, Mat.mulVec3, Quat.toRotationMatrix] <;> ring
  funext a
  rw [key, h, one_mul]

theorem unitQuat_mul {a b : Quat ℝ} (ha : UnitQuat a) (hb : UnitQuat b) : UnitQuat (a.mul b) := by
  unfold UnitQuat at *
  simp only [Quat.mul]
  have : (a.w ^ 2 + a.i ^ 2 + a.j ^ 2 + a.k ^ 2) * (b.w ^ 2 + b.i ^ 2 + b.j ^ 2 + b.k ^ 2) = 1 := by
    rw [ha, hb]; norm_num
  linear_combination this

theorem mul_rotate {a b : Quat ℝ} (ha : UnitQuat a) (hb : UnitQuat b) (v : V3 ℝ) :
    (a.mul b).rotate v = a.rotate (b.rotate v) := by
  simp only [← mulVec3_toRotationMatrix ha, ← mulVec3_toRotationMatrix hb,
    ← mulVec3_toRotationMatrix (unitQuat_mul ha hb)]
  funext c
  fin_cases c <;> simp [Mat.mulVec3, Quat.toRotationMatrix, Quat.mul] <;> ring

/-! Lengths and dot products -/

theorem len_eq (v : V3 ℝ) : len v = Real.sqrt (v ⬝ᵥ v) := by
  simp [len, dotProduct, pow_two]

theorem norm_eq_len (v : V3 ℝ) : V3.norm v = len v := by
  simp [V3.norm, V3.normSq, len, Fin.sum_univ_three, pow_two]

theorem normSq_eq_dot (v : V3 ℝ) : V3.normSq v = v ⬝ᵥ v := by
  simp [V3.normSq, dotProduct, Fin.sum_univ_three]

theorem dot_self_nonneg (v : V3 ℝ) : 0 ≤ v ⬝ᵥ v := by
  simp only [dotProduct, Fin.sum_univ_three]; nlinarith [sq_nonneg (v 0), sq_nonneg (v 1), sq_nonneg (v 2)]

theorem dot_self_eq_zero {v : V3 ℝ} : v ⬝ᵥ v = 0 ↔ v = 0 := by
  exact dotProduct_self_eq_zero

theorem len_sq (v : V3 ℝ) : len v ^ 2 = v ⬝ᵥ v := by
  rw [len_eq, Real.sq_sqrt (dot_self_nonneg v)]

theorem len_nonneg (v : V3 ℝ) : 0 ≤ len v := Real.sqrt_nonneg _

theorem len_eq_zero {v : V3 ℝ} : len v = 0 ↔ v = 0 := by
  rw [← dot_self_eq_zero, ← len_sq]; simp

theorem len_pos {v : V3 ℝ} : 0 < len v ↔ v ≠ 0 := by
  rw [(len_nonneg v).lt_iff_ne', Ne, len_eq_zero]

theorem len_smul (s : ℝ) (v : V3 ℝ) : len (s • v) = |s| * len v := by
  rw [len_eq, len_eq, dotProduct_smul, smul_dotProduct, smul_eq_mul, smul_eq_mul, ← mul_assoc,
    Real.sqrt_mul (mul_self_nonneg s), Real.sqrt_mul_self_eq_abs]

theorem len_rotate {q : Quat ℝ} (h : UnitQuat q) (v : V3 ℝ) : len (q.rotate v) = len v := by
  rw [len_eq, len_eq, rotate_dot h]

theorem normalize_eq (v : V3 ℝ) : V3.normalize v = (len v)⁻¹ • v := by
  funext a; simp [V3.normalize, norm_eq_len, div_eq_inv_mul]

theorem len_normalize {v : V3 ℝ} (h : v ≠ 0) : len (V3.normalize v) = 1 := by
  have hp := len_pos.2 h
  rw [normalize_eq, len_smul, abs_of_pos (inv_pos.2 hp), inv_mul_cancel₀ hp.ne']

/-! The vector operations of the model are the usual ones. -/

theorem add_eq (v w : V3 ℝ) : V3.add v w = v + w := rfl
theorem sub_eq (v w : V3 ℝ) : V3.sub v w = v - w := rfl
theorem neg_eq (v : V3 ℝ) : V3.neg v = -v := rfl
theorem cross_eq (v w : V3 ℝ) : V3.cross v w = v ⨯₃ w := by
  rw [cross_apply]; rfl

theorem transformPoint_eq (p : Isometry ℝ) (v : V3 ℝ) :
    p.transformPoint v = p.rotation.rotate v + p.translation := rfl

theorem transformVector_eq (p : Isometry ℝ) (v : V3 ℝ) :
    p.transformVector v = p.rotation.rotate v := rfl

end CamGeom
