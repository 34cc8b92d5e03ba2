import Verif.Props.FloatCamera
import Verif.Props.PoseFacts
import Verif.Props.RoundingView

/-!
# The viewing ray that a camera computes for a pixel near the projection of a point
-/

namespace CamGeom
open Rounding ExtrinsicParameters Spec Matrix

/-! ### Quaternions of nearly unit norm -/

section
variable {q : Quat ℝ} {ε : ℝ}

theorem len_vector_le (h : |quatNormSq q - 1| ≤ ε) : len q.vector ^ 2 ≤ 1 + ε := by
  have h1 := (abs_le.1 h).2
  rw [len_sq]
  simp only [Quat.vector, vec3_dotProduct']
  unfold quatNormSq at h1
  nlinarith [sq_nonneg q.w]

theorem quatNormSq_inverse (q : Quat ℝ) : quatNormSq q.inverse = quatNormSq q := by
  simp [quatNormSq, Quat.inverse]

theorem len_rotate_le (h : |quatNormSq q - 1| ≤ ε) (v : Vec) :
    len (q.rotate v) ≤ (1 + 3 * ε) * len v := by
  have hε : 0 ≤ ε := (abs_nonneg _).trans h
  have hv := len_nonneg v
  refine abs_le_of_sq_le_sq' ?_ (by positivity) |>.2
  rw [len_rotate_defect]
  have c1 := pow_le_pow_left₀ (len_nonneg _) (len_cross_le q.vector v) 2
  rw [mul_pow] at c1
  have c2 := mul_le_mul_of_nonneg_right (len_vector_le h) (sq_nonneg (len v))
  have c3 : (quatNormSq q - 1) * len (q.vector ⨯₃ v) ^ 2 ≤ ε * ((1 + ε) * len v ^ 2) :=
    mul_le_mul ((le_abs_self _).trans h) (c1.trans c2) (sq_nonneg _) hε
  nlinarith [mul_nonneg hε (sq_nonneg (len v)), mul_nonneg (mul_nonneg hε hε) (sq_nonneg (len v))]

theorem len_defect_le (h : |quatNormSq q - 1| ≤ ε) (h1 : ε ≤ 1 / 4) (v : Vec) :
    distance (q.inverse.rotate (q.rotate v)) v ≤ 5 * ε * len v := by
  have hε : 0 ≤ ε := (abs_nonneg _).trans h
  have hv := len_nonneg v
  have e := rotate_inverse_defect q.inverse v
  rw [inverse_inverse, quatNormSq_inverse] at e
  have c : |quatNormSq q.inverse - 1| ≤ ε := by rw [quatNormSq_inverse]; exact h
  rw [e, distance, add_sub_cancel_left, len_smul]
  have c1 := len_cross_le q.inverse.vector (q.inverse.vector ⨯₃ v)
  have c2 := mul_le_mul_of_nonneg_left (len_cross_le q.inverse.vector v) (len_nonneg q.inverse.vector)
  have c3 := mul_le_mul_of_nonneg_right (len_vector_le c) hv
  have c4 : len (q.inverse.vector ⨯₃ (q.inverse.vector ⨯₃ v)) ≤ 5 / 4 * len v := by nlinarith
  have c5 : |4 * (1 - quatNormSq q)| ≤ 4 * ε := by
    rw [abs_mul, abs_sub_comm, abs_of_pos (by norm_num : (0 : ℝ) < 4)]
    linarith
  refine (mul_le_mul c5 c4 (len_nonneg _) (by positivity)).trans (le_of_eq (by ring))

/-- Camera coordinates. -/
theorem pose_apply (q : Quat ℝ) (c x : Vec) :
    ((fromRotationAndCamcenter q c).worldToCamera (.single x)).data 0 =
      q.rotate x + (fromRotationAndCamcenter q c).translation := by
  rw [worldToCamera_data]
  rfl

theorem translation_eq (q : Quat ℝ) (c : Vec) :
    (fromRotationAndCamcenter q c).translation = -(q.rotate c + (quatNormSq q - 1) • c) := by
  have h := c66_camcenter q c
  rw [pose_apply] at h
  refine eq_neg_of_add_eq_zero_right ?_
  rw [add_right_comm, h, neg_add_cancel]

/-- The exact ray, from the exact camera centre `q⁻¹(-t)`. -/
theorem ray_exact (h : |quatNormSq q - 1| ≤ ε) (h1 : ε ≤ 1 / 4) (t x d : Vec) (Z : ℝ) :
    distance (q.inverse.rotate (-t) + Z • q.inverse.rotate d) x ≤
      (1 + 3 * ε) * len (Z • d - (q.rotate x + t)) + 5 * ε * len x := by
  have e : q.inverse.rotate (-t) + Z • q.inverse.rotate d - x =
      q.inverse.rotate (Z • d - (q.rotate x + t)) + (q.inverse.rotate (q.rotate x) - x) := by
    rw [rotate_sub, rotate_add, rotate_smul, rotate_neg]
    abel
  have c : |quatNormSq q.inverse - 1| ≤ ε := by rw [quatNormSq_inverse]; exact h
  rw [distance, e]
  exact (len_add_le _ _).trans (add_le_add (len_rotate_le c _) (len_defect_le h h1 x))

theorem center_exact (h : |quatNormSq q - 1| ≤ ε) (h1 : ε ≤ 1 / 4) (c : Vec) :
    distance (q.inverse.rotate (-(fromRotationAndCamcenter q c).translation)) c ≤ 7 * ε * len c := by
  have hε : 0 ≤ ε := (abs_nonneg _).trans h
  have hc := len_nonneg c
  have e : q.inverse.rotate (-(fromRotationAndCamcenter q c).translation) - c =
      (q.inverse.rotate (q.rotate c) - c) + (quatNormSq q - 1) • q.inverse.rotate c := by
    rw [translation_eq, neg_neg, rotate_add, rotate_smul]
    abel
  have c1 : |quatNormSq q.inverse - 1| ≤ ε := by rw [quatNormSq_inverse]; exact h
  rw [distance, e]
  refine (len_add_le _ _).trans ?_
  rw [len_smul]
  have h2 := len_defect_le h h1 c
  have h3 := mul_le_mul h (len_rotate_le c1 c) (len_nonneg _) hε
  rw [distance] at h2
  nlinarith [mul_nonneg hε hc]

theorem abs_apply_le_len (v : Vec) (a : Fin 3) : |v a| ≤ len v := by
  rw [len, ← Real.sqrt_sq_eq_abs]
  exact Real.sqrt_le_sqrt (Finset.single_le_sum (f := fun i => v i ^ 2) (fun i _ => sq_nonneg _) (Finset.mem_univ a))

/-- The depth is at most the distance, up to rounding of the quaternion. -/
theorem depth_le (h : |quatNormSq q - 1| ≤ ε) (c x : Vec) (a : Fin 3) :
    |(q.rotate x + (fromRotationAndCamcenter q c).translation) a| ≤ (1 + 3 * ε) * distance x c + ε * len c := by
  have e : q.rotate x + (fromRotationAndCamcenter q c).translation =
      q.rotate (x - c) + (-(quatNormSq q - 1)) • c := by
    rw [translation_eq, rotate_sub, neg_smul]
    abel
  rw [e]
  refine (abs_apply_le_len _ a).trans ((len_add_le _ _).trans (add_le_add (len_rotate_le h _) ?_))
  rw [len_smul, abs_neg]
  exact mul_le_mul_of_nonneg_right h (len_nonneg c)

end

/-! ### The computed ray -/

section
variable {R : Type} [Scalar R] {fl : Rounding R}

/-- The world ray of a pixel: `camera.pixel_to_world(&pixel).to_single_ray()`. -/
def pixelRay (p : PerspectiveParams R) (q : Quat R) (c : V3 R) (px : Pixels R 1) : Ray WorldFrame R :=
  RayBundle.toSingleRay (B := SharedOriginRayBundle R)
    ((Camera.mk (IntrinsicParametersPerspective.ofParams p) (fromRotationAndCamcenter q c)).pixelToWorld px)

theorem pixelRay_eq (p : PerspectiveParams R) (q : Quat R) (c : V3 R) (px : Pixels R 1) :
    pixelRay p q c px =
      { center := (fromRotationAndCamcenter q c).cache.poseInv.transformPoint (fun _ => Scalar.lit 0)
        direction := (fromRotationAndCamcenter q c).cache.poseInv.transformVector
          (((IntrinsicParametersPerspective.ofParams p).pixelToCamera px).data 0) } := by
  have z : (![Scalar.lit 0, Scalar.lit 0, Scalar.lit 0] : V3 R) = fun _ => Scalar.lit 0 := by
    funext j; fin_cases j <;> rfl
  unfold pixelRay
  simp only [Camera.pixelToWorld, rayCameraToWorld, RayBundle.toPose, RayBundle.toSingleRay, Bundle.toSingleRay,
    Bundle.toPose, IntrinsicParameters.pixelToCamera, so_toPose, SharedOriginRayBundle.toSingleRay,
    persp_pixelToCamera, SharedOriginRayBundle.newSharedZeroOrigin, z]

theorem rayCenter_near {q : Quat R} {c : V3 R} {ε M : ℝ} (hε : |quatNormSq (fl.quat q) - 1| ≤ ε)
    (hc : ∀ a, |fl.val (c a)| ≤ M) (a : Fin 3)
    (hf : fl.isFinite ((fromRotationAndCamcenter q c).cache.poseInv.transformPoint (fun _ => Scalar.lit 0) a)) :
    |fl.val ((fromRotationAndCamcenter q c).cache.poseInv.transformPoint (fun _ => Scalar.lit 0) a) -
      (fl.quat q).inverse.rotate (-(fromRotationAndCamcenter (fl.quat q) (fl.vec c)).translation) a| ≤
      ((1 + fl.u) ^ 15 - 1) * (rotMag (1 + ε) fl.ω 0 + rotMag (1 + ε) fl.ω (transMag (1 + ε) fl.ω M)) := by
  obtain ⟨hw, hi, hj, hk⟩ := comps_le hε
  have hq := QComp.of_val fl hw hi hj hk
  have h1 := hq.inverse.rotate' (v := fun _ => Scalar.lit 0) (v' := 0) (M := 0)
    (fun b => (Comp.of_le (x := Scalar.lit 0) (by rw [fl.lit_zero.2, abs_zero])).congr fl.lit_zero.2) a
  have h2 := hq.inverse.rotate' (v := V3.neg (fromRotationAndCamcenter q c).translation)
    (v' := V3.neg (fromRotationAndCamcenter (fl.quat q) (fl.vec c)).translation)
    (fun b => (hq.translation' (c := c) (c' := fl.vec c) (fun b => Comp.of_le (hc b)) b).neg) a
  have h3 := ((h1.mono (k' := 14) (by norm_num) le_rfl).add h2) hf
  rw [rotate_zero] at h3
  have e : (0 : V3 ℝ) a + (fl.quat q).inverse.rotate
      (V3.neg (fromRotationAndCamcenter (fl.quat q) (fl.vec c)).translation) a =
      (fl.quat q).inverse.rotate (-(fromRotationAndCamcenter (fl.quat q) (fl.vec c)).translation) a := zero_add _
  rw [e] at h3
  exact h3.2

theorem rayDirection_near {q : Quat R} {c d : V3 R} {ε B : ℝ} (hε : |quatNormSq (fl.quat q) - 1| ≤ ε)
    (hd : ∀ a, |fl.val (d a)| ≤ B) (a : Fin 3)
    (hf : fl.isFinite ((fromRotationAndCamcenter q c).cache.poseInv.transformVector d a)) :
    |fl.val ((fromRotationAndCamcenter q c).cache.poseInv.transformVector d a) -
      (fl.quat q).inverse.rotate (fl.vec d) a| ≤ ((1 + fl.u) ^ 7 - 1) * rotMag (1 + ε) fl.ω B := by
  obtain ⟨hw, hi, hj, hk⟩ := comps_le hε
  have hq := QComp.of_val fl hw hi hj hk
  have h1 := hq.inverse.rotate' (v := d) (v' := fl.vec d) (fun b => Comp.of_le (hd b)) a
  exact ((h1.mono (k' := 7) (by norm_num) le_rfl) hf).2

/-- The same for `f64`. -/
theorem rayCenter_near_f64 (hu : fl.u = 1 / 2 ^ 53) (hω : fl.ω ≤ 1 / 10 ^ 100) {q : Quat R} {c : V3 R} {M ε : ℝ}
    (hM : 1 ≤ M) (hε : |quatNormSq (fl.quat q) - 1| ≤ ε) (hε1 : ε ≤ 1 / 10 ^ 9)
    (hc : ∀ a, |fl.val (c a)| ≤ M) (a : Fin 3)
    (hf : fl.isFinite ((fromRotationAndCamcenter q c).cache.poseInv.transformPoint (fun _ => Scalar.lit 0) a)) :
    |fl.val ((fromRotationAndCamcenter q c).cache.poseInv.transformPoint (fun _ => Scalar.lit 0) a) -
      (fl.quat q).inverse.rotate (-(fromRotationAndCamcenter (fl.quat q) (fl.vec c)).translation) a| ≤
      3 / 10 ^ 13 * M := by
  have hω0 := fl.ω_nonneg
  refine (rayCenter_near (hε.trans hε1) hc a hf).trans ?_
  rw [hu]
  unfold rotMag transMag
  have hq : (12 : ℝ) * (1 + 1 / 10 ^ 9) ^ 2 ≤ 121 / 10 := by norm_num
  have hq0 : (0 : ℝ) ≤ 12 * (1 + 1 / 10 ^ 9) ^ 2 := by norm_num
  generalize (12 : ℝ) * (1 + 1 / 10 ^ 9) ^ 2 = Q at hq hq0 ⊢
  have hk : ((1 : ℝ) + 1 / 2 ^ 53) ^ 15 - 1 ≤ 17 / 10 ^ 16 := by norm_num
  have hM0 : 0 ≤ M := by linarith
  calc _ ≤ 17 / 10 ^ 16 * (121 / 10 * 0 + 0 + 1 / 10 ^ 100 * (15 * (1 + 1 / 10 ^ 9) + 3) +
        (121 / 10 * (121 / 10 * M + 1 / 10 ^ 100 * (18 * M + 3)) + (121 / 10 * M + 1 / 10 ^ 100 * (18 * M + 3)) +
          1 / 10 ^ 100 * (15 * (1 + 1 / 10 ^ 9) + 3))) := by gcongr
    _ ≤ _ := by norm_num; linarith

theorem rayDirection_near_f64 (hu : fl.u = 1 / 2 ^ 53) (hω : fl.ω ≤ 1 / 10 ^ 100) {q : Quat R} {c d : V3 R} {ε : ℝ}
    (hε : |quatNormSq (fl.quat q) - 1| ≤ ε) (hε1 : ε ≤ 1 / 10 ^ 9) (hd : ∀ a, |fl.val (d a)| ≤ 11) (a : Fin 3)
    (hf : fl.isFinite ((fromRotationAndCamcenter q c).cache.poseInv.transformVector d a)) :
    |fl.val ((fromRotationAndCamcenter q c).cache.poseInv.transformVector d a) -
      (fl.quat q).inverse.rotate (fl.vec d) a| ≤ 12 / 10 ^ 14 := by
  have hω0 := fl.ω_nonneg
  refine (rayDirection_near (hε.trans hε1) hd a hf).trans ?_
  rw [hu]
  unfold rotMag
  have hk : ((1 : ℝ) + 1 / 2 ^ 53) ^ 7 - 1 ≤ 8 / 10 ^ 16 := by norm_num
  calc _ ≤ 8 / 10 ^ 16 * (12 * (1 + 1 / 10 ^ 9) ^ 2 * 11 + 11 + 1 / 10 ^ 100 * (15 * (1 + 1 / 10 ^ 9) + 3) : ℝ) := by
        gcongr
    _ ≤ _ := by norm_num

end

/-! ### The direction in the camera frame -/

theorem slope_v {v cy fy Y σ d k ω : ℝ} (hfy : 0 < |fy|) (hcy : |cy| ≤ 10 * |fy|) (hY : |Y| ≤ 10)
    (hv : |v - (fy * Y + cy)| ≤ σ * |fy|) (hσ : σ ≤ 1 / 100) (hk0 : 0 ≤ k)
    (hd : |d - (v - cy) / fy| ≤ k * ((|v| + |cy|) / |fy| + ω)) :
    |d - Y| ≤ σ + k * (31 + ω) ∧ (|v| + |cy|) / |fy| ≤ 31 ∧ |(v - cy) / fy - Y| ≤ σ := by
  have hfy' : fy ≠ 0 := abs_pos.1 hfy
  have h1 : |(v - cy) / fy - Y| ≤ σ := by
    rw [show (v - cy) / fy - Y = (v - (fy * Y + cy)) / fy by field_simp; ring, abs_div, div_le_iff₀ hfy]
    exact hv
  have h2 : (|v| + |cy|) / |fy| ≤ 31 := by
    rw [div_le_iff₀ hfy]
    have e1 : |fy * Y| ≤ 10 * |fy| := by rw [abs_mul]; nlinarith
    have e2 := abs_sub_abs_le_abs_sub v (fy * Y + cy)
    have e3 := abs_add_le (fy * Y) cy
    have e4 := mul_le_mul_of_nonneg_right hσ hfy.le
    linarith
  refine ⟨?_, h2, h1⟩
  have h3 := abs_sub_le d ((v - cy) / fy) Y
  have h4 := mul_le_mul_of_nonneg_left (add_le_add_left h2 ω) hk0
  linarith

theorem slope_u {u s y cx fx W Y σ d k ω A : ℝ} (hfx : 0 < |fx|) (hs : |s| ≤ |fx|) (hcx : |cx| ≤ 10 * |fx|)
    (hW : |W| ≤ 10) (hY : |Y| ≤ 10) (hy : |y - Y| ≤ σ) (hA : A ≤ 31) (hA0 : 0 ≤ A) (hω0 : 0 ≤ ω) (hω : ω ≤ 1 / 10)
    (hfx1 : 1 ≤ |fx|) (hu : |u - (fx * W + s * Y + cx)| ≤ σ * |fx|) (hσ : σ ≤ 1 / 100) (hk0 : 0 ≤ k)
    (hd : |d - (u - s * y - cx) / fx| ≤ k * ((|u| + (|s| * (A + ω) + ω) + |cx|) / |fx| + ω)) :
    |d - W| ≤ 2 * σ + 73 * k := by
  have hfx' : fx ≠ 0 := abs_pos.1 hfx
  have hσ0 : 0 ≤ σ := (abs_nonneg _).trans hy
  have h1 : |(u - s * y - cx) / fx - W| ≤ 2 * σ := by
    rw [show (u - s * y - cx) / fx - W = ((u - (fx * W + s * Y + cx)) - s * (y - Y)) / fx by field_simp; ring,
      abs_div, div_le_iff₀ hfx]
    have e1 := abs_sub (u - (fx * W + s * Y + cx)) (s * (y - Y))
    have e2 : |s * (y - Y)| ≤ |fx| * σ := by
      rw [abs_mul]; exact mul_le_mul hs hy (abs_nonneg _) hfx.le
    linarith
  have h2 : (|u| + (|s| * (A + ω) + ω) + |cx|) / |fx| + ω ≤ 73 := by
    rw [← le_sub_iff_add_le, div_le_iff₀ hfx]
    have e1 : |fx * W| ≤ 10 * |fx| := by rw [abs_mul]; nlinarith
    have e1' : |s * Y| ≤ 10 * |fx| := by
      rw [abs_mul]; exact (mul_le_mul hs hY (abs_nonneg _) hfx.le).trans (le_of_eq (by ring))
    have e2 := abs_sub_abs_le_abs_sub u (fx * W + s * Y + cx)
    have e3 := abs_add_three (fx * W) (s * Y) cx
    have e4 := mul_le_mul_of_nonneg_right hσ hfx.le
    have e5 : |s| * (A + ω) ≤ |fx| * (31 + 1 / 10) := by
      refine mul_le_mul hs (by linarith) (by linarith) hfx.le
    nlinarith
  have h3 := abs_sub_le d ((u - s * y - cx) / fx) W
  have h4 := mul_le_mul_of_nonneg_left h2 hk0
  linarith

end CamGeom
