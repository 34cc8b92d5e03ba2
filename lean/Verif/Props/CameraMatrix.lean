import Verif.Props.CameraRays
import Verif.Model.Linearize

/-!
# C19–C21: intrinsic and camera matrices
-/

namespace CamGeom
open Spec Matrix ExtrinsicParameters

/-- The tolerance test of the `approx` crate in mathematical terms, for `0 ≤ eps < 1`. -/
def Within (eps a b : ℝ) : Prop := |a - b| ≤ eps ∨ |a - b| ≤ eps * max |a| |b|

theorem relativeNe_false_iff {eps : ℝ} (h0 : 0 ≤ eps) (a b : ℝ) :
    relativeNe eps a b = false ↔ Within eps a b := by
  simp only [relativeNe, beq_real, isInf_real, abs_real, le_real, lt_real, Within]
  by_cases hab : a = b
  · simp [hab, h0]
  · simp only [hab, decide_false, Bool.false_eq_true, if_false, Bool.or_self]
    by_cases h1 : |a - b| ≤ eps
    · simp [h1]
    · simp only [h1, decide_false, Bool.false_eq_true, if_false, false_or]
      by_cases h2 : |a| < |b|
      · simp [h2, max_eq_right h2.le, mul_comm]
      · simp [h2, max_eq_left (not_lt.1 h2), mul_comm]

theorem within_zero_iff {eps : ℝ} (h0 : 0 ≤ eps) (h1 : eps < 1) (a : ℝ) :
    Within eps a 0 ↔ |a| ≤ eps := by
  unfold Within
  simp only [sub_zero, abs_zero, max_eq_left (abs_nonneg a)]
  constructor
  · rintro (h | h)
    · exact h
    · have : |a| * (1 - eps) ≤ 0 := by linarith
      have h3 : |a| ≤ 0 := nonpos_of_mul_nonpos_left this (by linarith)
      linarith
  · exact Or.inl

theorem within_one_iff {eps : ℝ} (h0 : 0 ≤ eps) (a : ℝ) :
    Within eps a 1 ↔ |a - 1| ≤ eps * max |a| 1 := by
  unfold Within
  rw [abs_one]
  constructor
  · rintro (h | h)
    · exact h.trans (le_mul_of_one_le_right h0 (le_max_right _ _))
    · exact h
  · exact Or.inr

/-- The matrices accepted by C19. -/
def Normalized (eps : ℝ) (p : Mat 3 4 ℝ) : Prop :=
  |p 0 3| ≤ eps ∧ |p 1 0| ≤ eps ∧ |p 1 3| ≤ eps ∧ |p 2 0| ≤ eps ∧ |p 2 1| ≤ eps ∧ |p 2 3| ≤ eps ∧
    |p 2 2 - 1| ≤ eps * max |p 2 2| 1

/-- C19: accepted iff normalized within the tolerance. -/
theorem c19_ok_iff {eps : ℝ} (h0 : 0 ≤ eps) (h1 : eps < 1) (p : Mat 3 4 ℝ) :
    (∃ c, IntrinsicParametersPerspective.fromNormalized3x4Matrix eps p = .ok c) ↔
      Normalized eps p := by
  have key : ∀ a b, (relativeNe eps a b = false ↔ Within eps a b) := relativeNe_false_iff h0
  unfold Normalized
  rw [← within_zero_iff h0 h1 (p 0 3), ← within_zero_iff h0 h1 (p 1 0),
    ← within_zero_iff h0 h1 (p 1 3), ← within_zero_iff h0 h1 (p 2 0),
    ← within_zero_iff h0 h1 (p 2 1), ← within_zero_iff h0 h1 (p 2 3), ← within_one_iff h0]
  simp only [← key]
  unfold IntrinsicParametersPerspective.fromNormalized3x4Matrix
  simp only [lit_real, Rat.cast_zero, Rat.cast_one]
  rcases relativeNe eps (p 0 3) 0 <;> rcases relativeNe eps (p 1 0) 0 <;>
    rcases relativeNe eps (p 1 3) 0 <;> rcases relativeNe eps (p 2 0) 0 <;>
    rcases relativeNe eps (p 2 1) 0 <;> rcases relativeNe eps (p 2 2) 1 <;>
    rcases relativeNe eps (p 2 3) 0 <;>
    simp [bind, Except.bind, throw, throwThe, MonadExceptOf.throw, pure, Except.pure]

/-- C19: every rejection is `InvalidInput`, and an accepted matrix yields its own entries (any
scalar type, any tolerance). -/
theorem c19_result {R : Type} [Scalar R] (eps : R) (p : Mat 3 4 R) :
    IntrinsicParametersPerspective.fromNormalized3x4Matrix eps p = .error .invalidInput ∨
    ∃ c, IntrinsicParametersPerspective.fromNormalized3x4Matrix eps p = .ok c ∧
      c.fx = p 0 0 ∧ c.fy = p 1 1 ∧ c.skew = p 0 1 ∧ c.cx = p 0 2 ∧ c.cy = p 1 2 := by
  unfold IntrinsicParametersPerspective.fromNormalized3x4Matrix
  rcases relativeNe eps (p 0 3) (Scalar.lit 0) <;> rcases relativeNe eps (p 1 0) (Scalar.lit 0) <;>
    rcases relativeNe eps (p 1 3) (Scalar.lit 0) <;> rcases relativeNe eps (p 2 0) (Scalar.lit 0) <;>
    rcases relativeNe eps (p 2 1) (Scalar.lit 0) <;> rcases relativeNe eps (p 2 2) (Scalar.lit 1) <;>
    rcases relativeNe eps (p 2 3) (Scalar.lit 0) <;>
    simp [bind, Except.bind, throw, throwThe, MonadExceptOf.throw, pure, Except.pure,
      IntrinsicParametersPerspective.ofParams, IntrinsicParametersPerspective.fx,
      IntrinsicParametersPerspective.fy, IntrinsicParametersPerspective.skew,
      IntrinsicParametersPerspective.cx, IntrinsicParametersPerspective.cy]

/-- Non-vacuity of C19: with the tolerance of `f64`-like size, one accepted matrix that is not
exactly normalized and one rejected matrix. -/
example : Normalized (1 / 1000) ![![100, 3, 640, 1 / 2000], ![0, 100, 480, 0], ![0, 0, 1, 0]] ∧
    ¬ Normalized (1 / 1000) ![![100, 3, 640, 0], ![0, 100, 480, 0], ![0, 0, 2, 0]] := by
  constructor
  · refine ⟨?_, ?_, ?_, ?_, ?_, ?_, ?_⟩ <;> (simp; try norm_num [abs_of_pos])
  · rintro ⟨-, -, -, -, -, -, h⟩
    simp at h; norm_num at h

/-- C20: for an exactly normalized matrix, the resulting intrinsics project as the matrix does. -/
theorem c20_projects_alike {eps : ℝ} (p : Mat 3 4 ℝ)
    (hp : p 0 3 = 0 ∧ p 1 0 = 0 ∧ p 1 3 = 0 ∧ p 2 0 = 0 ∧ p 2 1 = 0 ∧ p 2 2 = 1 ∧ p 2 3 = 0)
    {c : IntrinsicParametersPerspective ℝ}
    (hc : IntrinsicParametersPerspective.fromNormalized3x4Matrix eps p = .ok c) {n : ℕ}
    (w : Points CameraFrame ℝ n) (i : Fin n) (hz : w.data i 2 ≠ 0) :
    (c.cameraToPixel w).data i = homProject p (w.data i) := by
  obtain ⟨h03, h10, h13, h20, h21, h22, h23⟩ := hp
  have hcc : c = .ofParams ⟨p 0 0, p 1 1, p 0 1, p 0 2, p 1 2⟩ := by
    unfold IntrinsicParametersPerspective.fromNormalized3x4Matrix at hc
    revert hc
    rcases relativeNe eps (p 0 3) (Scalar.lit 0) <;> rcases relativeNe eps (p 1 0) (Scalar.lit 0) <;>
      rcases relativeNe eps (p 1 3) (Scalar.lit 0) <;>
      rcases relativeNe eps (p 2 0) (Scalar.lit 0) <;>
      rcases relativeNe eps (p 2 1) (Scalar.lit 0) <;>
      rcases relativeNe eps (p 2 2) (Scalar.lit 1) <;>
      rcases relativeNe eps (p 2 3) (Scalar.lit 0) <;>
      simp [bind, Except.bind, throw, throwThe, MonadExceptOf.throw, pure, Except.pure, eq_comm]
  rw [hcc, c11_pinhole _ _ _ hz]
  funext a
  fin_cases a <;>
    simp [pinhole, homProject, homImage, Matrix.mulVec, dotProduct, Fin.sum_univ_four, h03, h10, h13,
      h20, h21, h22, h23] <;> field_simp

/-- C20: feeding the intrinsic matrix (with a zero column appended) back gives the same
intrinsics. -/
theorem c20_feed_back {eps : ℝ} (h0 : 0 ≤ eps) (params : PerspectiveParams ℝ) :
    let c := IntrinsicParametersPerspective.ofParams params
    let k := c.asIntrinsicsMatrix
    IntrinsicParametersPerspective.fromNormalized3x4Matrix eps
      (fun i => ![k i 0, k i 1, k i 2, 0]) = .ok c := by
  intro c k
  have key : ∀ a b, a = b → relativeNe eps a b = false := fun a b h =>
    (relativeNe_false_iff h0 a b).2 (by simp [Within, h, h0])
  unfold IntrinsicParametersPerspective.fromNormalized3x4Matrix
  simp only [lit_real, Rat.cast_zero, Rat.cast_one, Matrix.cons_val]
  have e1 : k 1 0 = 0 := by simp [k, c, IntrinsicParametersPerspective.asIntrinsicsMatrix,
    IntrinsicParametersPerspective.ofParams]
  have e2 : k 2 0 = 0 := by simp [k, c, IntrinsicParametersPerspective.asIntrinsicsMatrix,
    IntrinsicParametersPerspective.ofParams]
  have e3 : k 2 1 = 0 := by simp [k, c, IntrinsicParametersPerspective.asIntrinsicsMatrix,
    IntrinsicParametersPerspective.ofParams]
  have e4 : k 2 2 = 1 := by simp [k, c, IntrinsicParametersPerspective.asIntrinsicsMatrix,
    IntrinsicParametersPerspective.ofParams]
  simp only [e1, e2, e3, e4, key _ _ rfl]
  rfl

/-- Multiplication by the intrinsic matrix. -/
def kmul (p : PerspectiveParams ℝ) (v : V3 ℝ) : V3 ℝ :=
  ![p.fx * v 0 + p.skew * v 1 + p.cx * v 2, p.fy * v 1 + p.cy * v 2, v 2]

/-- The sign flip of `as_camera_matrix` cancels in the final division. -/
theorem flip_div {m : Mat 3 4 ℝ} (i : Fin 3) (j : Fin 4) :
    Mat.divScalar (if Scalar.lt (m 0 0) (0 : ℝ) then Mat.neg m else m)
      ((if Scalar.lt (m 0 0) (0 : ℝ) then Mat.neg m else m) 2 3) i j = m i j / m 2 3 := by
  split <;> simp [Mat.divScalar, Mat.neg, neg_div_neg_eq]

theorem asCameraMatrix_apply (c : Camera ℝ (IntrinsicParametersPerspective ℝ)) (i : Fin 3)
    (j : Fin 4) :
    c.asCameraMatrix i j =
      Mat.mul3 c.intrinsics.asIntrinsicsMatrix c.extrinsics.cache.qt i j /
        Mat.mul3 c.intrinsics.asIntrinsicsMatrix c.extrinsics.cache.qt 2 3 := by
  have h : (Scalar.lit 0 : ℝ) = 0 := by simp
  unfold Camera.asCameraMatrix
  simp only [h]
  exact flip_div i j

theorem jacobianCache_m (c : Camera ℝ (IntrinsicParametersPerspective ℝ)) :
    (JacobianPerspectiveCache.new c).m = c.asCameraMatrix := by
  unfold JacobianPerspectiveCache.new Camera.asCameraMatrix
  have h : (Scalar.lit 0 : ℝ) = 0 := by simp
  simp only [h]
  rfl

/-- Depth of the world origin. -/
theorem kqt_23 (p : PerspectiveParams ℝ) {q : Quat ℝ} (hq : UnitQuat q) (c : V3 ℝ) :
    Mat.mul3 (IntrinsicParametersPerspective.ofParams p).asIntrinsicsMatrix
      (fromRotationAndCamcenter q c).cache.qt 2 3 = q.rotate (0 - c) 2 := by
  rw [zero_sub, rotate_neg, ← mulVec3_toRotationMatrix hq]
  simp [Mat.mul3, IntrinsicParametersPerspective.asIntrinsicsMatrix,
    IntrinsicParametersPerspective.ofParams, fromRotationAndCamcenter, V3.neg]

/-- Homogeneous image under the camera matrix. -/
theorem homImage_asCameraMatrix (p : PerspectiveParams ℝ) {q : Quat ℝ} (hq : UnitQuat q)
    (c x : V3 ℝ) :
    homImage (Camera.mk (IntrinsicParametersPerspective.ofParams p)
        (fromRotationAndCamcenter q c)).asCameraMatrix x =
      (q.rotate (0 - c) 2)⁻¹ • kmul p (q.rotate (x - c)) := by
  have hx : q.rotate (x - c) = fun a => q.toRotationMatrix a 0 * x 0 + q.toRotationMatrix a 1 * x 1 +
      q.toRotationMatrix a 2 * x 2 - Mat.mulVec3 q.toRotationMatrix c a := by
    rw [← mulVec3_toRotationMatrix hq]
    funext a; simp [Mat.mulVec3]; ring
  funext a
  simp only [homImage, Matrix.mulVec, dotProduct, Fin.sum_univ_four, Matrix.of_apply,
    asCameraMatrix_apply, kqt_23 p hq, Pi.smul_apply, smul_eq_mul]
  generalize (q.rotate (0 - c) 2) = d
  rw [hx]
  fin_cases a <;>
    simp [kmul, Mat.mul3, IntrinsicParametersPerspective.asIntrinsicsMatrix,
      IntrinsicParametersPerspective.ofParams, fromRotationAndCamcenter, V3.neg, div_eq_mul_inv] <;>
    ring

/-- `world_to_pixel` of a perspective camera. -/
theorem persp_worldToPixel_row (p : PerspectiveParams ℝ) {q : Quat ℝ} (hq : UnitQuat q) (c : V3 ℝ)
    {n : ℕ} (w : Points WorldFrame ℝ n) (i : Fin n) :
    ((Camera.mk (IntrinsicParametersPerspective.ofParams p)
        (fromRotationAndCamcenter q c)).worldToPixel w).data i =
      ![kmul p (q.rotate (w.data i - c)) 0 / q.rotate (w.data i - c) 2,
        kmul p (q.rotate (w.data i - c)) 1 / q.rotate (w.data i - c) 2] := by
  simp only [Camera.worldToPixel, IntrinsicParameters.cameraToPixel, persp_cameraToPixel,
    worldToCamera_row hq]
  generalize q.rotate (w.data i - c) = y
  funext a
  fin_cases a <;>
    simp [IntrinsicParametersPerspective.ofParams, Mat.mulVec4, V3.toHomogeneous, kmul]

/-- C21: the camera matrix projects like the camera. -/
theorem c21_projects_alike (p : PerspectiveParams ℝ) {e : ExtrinsicParameters ℝ}
    (he : ValidExtrinsics e) (h0 : (e.worldToCamera (.single 0)).data 0 2 ≠ 0) {n : ℕ}
    (w : Points WorldFrame ℝ n) (i : Fin n) (_hz : (e.worldToCamera w).data i 2 ≠ 0) :
    let c := Camera.mk (IntrinsicParametersPerspective.ofParams p) e
    homProject c.asCameraMatrix (w.data i) = (c.worldToPixel w).data i := by
  obtain ⟨q, cc, hq, rfl⟩ := he
  rw [worldToCamera_row hq] at h0
  intro c
  rw [homProject, homImage_asCameraMatrix p hq, persp_worldToPixel_row p hq]
  have hd : (q.rotate (0 - cc) 2)⁻¹ ≠ 0 := inv_ne_zero h0
  funext a
  fin_cases a <;> simp only [Pi.smul_apply, smul_eq_mul] <;>
    rw [mul_div_mul_left _ _ hd, mul_div_mul_left _ _ hd] <;> simp [kmul]

/-- C21: entry (2,3) is 1 and the third homogeneous component is depth(x)/depth(origin). -/
theorem c21_depth (p : PerspectiveParams ℝ) {e : ExtrinsicParameters ℝ}
    (he : ValidExtrinsics e) (h0 : (e.worldToCamera (.single 0)).data 0 2 ≠ 0) {n : ℕ}
    (w : Points WorldFrame ℝ n) (i : Fin n) :
    let c := Camera.mk (IntrinsicParametersPerspective.ofParams p) e
    c.asCameraMatrix 2 3 = 1 ∧
    homImage c.asCameraMatrix (w.data i) 2 =
      (e.worldToCamera w).data i 2 / (e.worldToCamera (.single 0)).data 0 2 := by
  obtain ⟨q, cc, hq, rfl⟩ := he
  rw [worldToCamera_row hq] at h0
  intro c
  constructor
  · rw [asCameraMatrix_apply]
    refine div_self ?_
    rw [kqt_23 p hq]; exact h0
  · rw [homImage_asCameraMatrix p hq, worldToCamera_row hq, worldToCamera_row hq]
    simp [kmul, Points.single, div_eq_inv_mul]

/-- Non-vacuity of C21: the camera of `exQuat` at (1,2,3) sees the world origin at depth -2. -/
example : ((fromRotationAndCamcenter exQuat ![1, 2, 3]).worldToCamera (.single 0)).data 0 2 = -2 := by
  rw [worldToCamera_row exQuat_unit, rotate_apply]
  simp [Points.single, exQuat]; norm_num

end CamGeom
