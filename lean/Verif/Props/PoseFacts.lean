import Verif.Lemmas.QuatDefect
import Verif.Props.Symmetry

/-!
# C65, C66: re-posing ray bundles, and quaternions that are only nearly of unit norm

C65: the composition law needs no arithmetic; the rest is exact real arithmetic.
-/

namespace CamGeom
open Spec Matrix ExtrinsicParameters

section compose
variable {R : Type} [Scalar R] {n : ℕ}

/-- `k` acts on points and vectors as `g` after `h`. -/
def ActsAsComp (k g h : Isometry R) : Prop :=
  (∀ x, k.transformPoint x = g.transformPoint (h.transformPoint x)) ∧
    ∀ x, k.transformVector x = g.transformVector (h.transformVector x)

/-- C65: re-posing in two steps is re-posing by the composed pose (shared origin). -/
theorem c65_compose_shared_origin {k g h : Isometry R} (hk : ActsAsComp k g h)
    {A B : Type} (b : SharedOriginRayBundle R) (d : Mat n 3 R) :
    (b.toPose k d : RayBundle B _ R n) =
      Bundle.toPose (b.toPose h d : RayBundle A _ R n).bundleType g
        (b.toPose h d : RayBundle A _ R n).data := by
  simp only [Bundle.toPose, so_toPose, hk.1, hk.2]

/-- C65: re-posing in two steps is re-posing by the composed pose (shared direction). -/
theorem c65_compose_shared_direction {k g h : Isometry R} (hk : ActsAsComp k g h)
    {A B : Type} (b : SharedDirectionRayBundle R) (d : Mat n 3 R) :
    (b.toPose k d : RayBundle B _ R n) =
      Bundle.toPose (b.toPose h d : RayBundle A _ R n).bundleType g
        (b.toPose h d : RayBundle A _ R n).data := by
  simp only [Bundle.toPose, sd_toPose, hk.1, hk.2]

end compose

theorem transformPoint_real (p : Isometry ℝ) (x : V3 ℝ) :
    p.transformPoint x = p.rotation.rotate x + p.translation := rfl

/-- C65: the product of two isometries (`g * h` in nalgebra) is such a composition. -/
theorem c65_product {g h : Isometry ℝ} (hg : UnitQuat g.rotation) (hh : UnitQuat h.rotation) :
    ActsAsComp ⟨g.rotation.rotate h.translation + g.translation, g.rotation.mul h.rotation⟩ g h := by
  refine ⟨fun x => ?_, fun x => ?_⟩
  · simp only [transformPoint_real, mul_rotate hg hh, rotate_add, add_assoc]
  · exact mul_rotate hg hh x

/-- C65: re-posing by a pose and then by its inverse gives the bundle back. -/
theorem c65_inverse_shared_origin {g : Isometry ℝ} (hg : UnitQuat g.rotation) {n : ℕ} {A B : Type}
    (b : SharedOriginRayBundle ℝ) (d : Mat n 3 ℝ) :
    Bundle.toPose (b.toPose g d : RayBundle A _ ℝ n).bundleType g.inverse
        (b.toPose g d : RayBundle A _ ℝ n).data = (⟨d, b⟩ : RayBundle B _ ℝ n) := by
  simp only [Bundle.toPose, so_toPose]
  refine RayBundle.ext ?_ ?_
  · funext i
    exact inverse_rotate_rotate hg _
  · ext1
    show g.inverse.transformPoint (g.transformPoint b.center) = b.center
    rw [transformPoint_real, transformPoint_real]
    show g.rotation.inverse.rotate _ + g.rotation.inverse.rotate (-g.translation) = _
    rw [← rotate_add, add_neg_cancel_right, inverse_rotate_rotate hg]

/-- C65: the same for rays sharing a direction. -/
theorem c65_inverse_shared_direction {g : Isometry ℝ} (hg : UnitQuat g.rotation) {n : ℕ} {A B : Type}
    (b : SharedDirectionRayBundle ℝ) (d : Mat n 3 ℝ) :
    Bundle.toPose (b.toPose g d : RayBundle A _ ℝ n).bundleType g.inverse
        (b.toPose g d : RayBundle A _ ℝ n).data = (⟨d, b⟩ : RayBundle B _ ℝ n) := by
  simp only [Bundle.toPose, sd_toPose]
  refine RayBundle.ext ?_ ?_
  · funext i
    show g.inverse.transformPoint (g.transformPoint (d i)) = d i
    rw [transformPoint_real, transformPoint_real]
    show g.rotation.inverse.rotate _ + g.rotation.inverse.rotate (-g.translation) = _
    rw [← rotate_add, add_neg_cancel_right, inverse_rotate_rotate hg]
  · ext1
    exact inverse_rotate_rotate hg _

/-! ### C66 -/

theorem toRotationMatrix_defect (q : Quat ℝ) (x : V3 ℝ) :
    Mat.mulVec3 q.toRotationMatrix x = q.rotate x + (quatNormSq q - 1) • x := by
  rw [rotate_apply]
  funext a
  fin_cases a <;> simp [Quat.toRotationMatrix, Mat.mulVec3, quatNormSq] <;> ring

theorem len_rotate_defect (q : Quat ℝ) (x : V3 ℝ) :
    len (q.rotate x) ^ 2 = len x ^ 2 + 4 * (quatNormSq q - 1) * len (q.vector ⨯₃ x) ^ 2 := by
  rw [len_sq, len_sq, len_sq, rotate_apply]
  simp [dotProduct, Fin.sum_univ_three, cross_apply, Quat.vector, quatNormSq]
  ring

variable (q : Quat ℝ) (c : V3 ℝ)

/-- C66: for any quaternion, the matrix accessors and `world_to_camera` differ by exactly
`(|q|² - 1) x`. -/
theorem c66_matrix_vs_pose (x : V3 ℝ) :
    let e := fromRotationAndCamcenter q c
    Matrix.of e.rotation *ᵥ x + e.translation =
      (e.worldToCamera (.single x)).data 0 + (quatNormSq q - 1) • x := by
  intro e
  have h1 : Matrix.of e.rotation *ᵥ x = Mat.mulVec3 q.toRotationMatrix x := (mulVec3_eq _ _).symm
  rw [h1, toRotationMatrix_defect, worldToCamera_data]
  have h2 : e.cache.pose.transformPoint ((Points.single x : Points WorldFrame ℝ 1).data 0) =
      q.rotate x + e.translation := rfl
  beta_reduce
  rw [h2]; abel

/-- C66: the camera centre itself is converted to `-(|q|² - 1) c` instead of 0. -/
theorem c66_camcenter :
    ((fromRotationAndCamcenter q c).worldToCamera (.single c)).data 0 = -((quatNormSq q - 1) • c) := by
  have h := c66_matrix_vs_pose q c c
  simp only at h
  have ht : (fromRotationAndCamcenter q c : ExtrinsicParameters ℝ).translation =
      -(Matrix.of (fromRotationAndCamcenter q c : ExtrinsicParameters ℝ).rotation *ᵥ c) := by
    rw [← mulVec3_eq]; rfl
  rw [ht, add_neg_cancel] at h
  exact eq_neg_of_add_eq_zero_left h.symm

/-- C66: distances are kept up to the relative error `4 | |q|² - 1 | |q|²` of their squares. -/
theorem c66_distance (x y : V3 ℝ) :
    let e := fromRotationAndCamcenter q c
    |distance ((e.worldToCamera (.single x)).data 0) ((e.worldToCamera (.single y)).data 0) ^ 2 -
        distance x y ^ 2| ≤ 4 * |quatNormSq q - 1| * quatNormSq q * distance x y ^ 2 := by
  intro e
  have h : (e.worldToCamera (.single x)).data 0 - (e.worldToCamera (.single y)).data 0 =
      q.rotate (x - y) := by
    rw [worldToCamera_data, worldToCamera_data]
    show (q.rotate x + e.translation) - (q.rotate y + e.translation) = _
    rw [add_sub_add_right_eq_sub, rotate_sub]
  rw [distance, distance, h, len_rotate_defect, add_sub_cancel_left, abs_mul, abs_mul,
    abs_of_nonneg (sq_nonneg (len (q.vector ⨯₃ (x - y)))), abs_of_pos (by norm_num : (0 : ℝ) < 4),
    mul_assoc _ (quatNormSq q)]
  refine mul_le_mul_of_nonneg_left ?_ (by positivity)
  rw [len_sq, len_sq]
  generalize x - y = r
  simp only [dotProduct, Fin.sum_univ_three, cross_apply, Quat.vector, quatNormSq, Matrix.cons_val]
  nlinarith [sq_nonneg (q.i * r 0 + q.j * r 1 + q.k * r 2), sq_nonneg q.w,
    mul_nonneg (sq_nonneg q.w) (add_nonneg (add_nonneg (mul_self_nonneg (r 0)) (mul_self_nonneg (r 1)))
      (mul_self_nonneg (r 2)))]

/-- C66: the errors are exact for a unit quaternion, and of order `1e-6` for a quaternion of squared norm
`1 + 1e-6`. -/
example : quatNormSq ⟨1, 1 / 1000, 0, 0⟩ - 1 = 1 / 1000000 := by norm_num [quatNormSq]

end CamGeom
