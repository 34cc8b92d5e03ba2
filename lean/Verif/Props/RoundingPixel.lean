import Verif.Props.Rounding
import Verif.Props.RoundingPose

/-!
# C49: accuracy of `world_to_pixel`
-/

namespace CamGeom
open Rounding ExtrinsicParameters

variable {R : Type} [Scalar R] {n : ℕ}

/-- Perturbation of a quotient. -/
theorem quot_perturb {x z X Z δ : ℝ} (hx : |x - X| ≤ δ) (hz : |z - Z| ≤ δ) (hZ : Z ≠ 0)
    (hδ : δ ≤ |Z| / 2) : z ≠ 0 ∧ |x / z - X / Z| ≤ 2 * δ / |Z| * (|X / Z| + 1) := by
  have hZp : 0 < |Z| := abs_pos.2 hZ
  have hzZ : |Z| / 2 ≤ |z| := by
    have := abs_sub_abs_le_abs_sub Z z
    rw [abs_sub_comm] at this
    linarith
  have hzp : 0 < |z| := by linarith
  have hz0 : z ≠ 0 := abs_pos.1 hzp
  have hδ0 : 0 ≤ δ := (abs_nonneg _).trans hx
  refine ⟨hz0, ?_⟩
  have e : x / z - X / Z = ((x - X) - X / Z * (z - Z)) / z := by field_simp; ring
  rw [e, abs_div, div_le_iff₀ hzp]
  have h1 : |x - X - X / Z * (z - Z)| ≤ δ * (|X / Z| + 1) := by
    have := abs_sub (x - X) (X / Z * (z - Z))
    rw [abs_mul] at this
    have := mul_le_mul_of_nonneg_left hz (abs_nonneg (X / Z))
    linarith
  refine h1.trans ?_
  have h2 : (1 : ℝ) ≤ 2 / |Z| * |z| := by
    rw [div_mul_eq_mul_div, le_div_iff₀ hZp]; linarith
  calc δ * (|X / Z| + 1) = δ * (|X / Z| + 1) * 1 := by ring
    _ ≤ δ * (|X / Z| + 1) * (2 / |Z| * |z|) := by gcongr
    _ = _ := by ring

/-- A finite pixel coordinate comes from three finite camera coordinates. -/
theorem persp_finite (fl : Rounding R) (p : PerspectiveParams R) (w : Points CameraFrame R n)
    (i : Fin n) (a : Fin 2)
    (hf : fl.isFinite (((IntrinsicParametersPerspective.ofParams p).cameraToPixel w).data i a))
    (b : Fin 3) : fl.isFinite (w.data i b) := by
  simp only [persp_cameraToPixel] at hf
  have hn : fl.isFinite (Mat.mulVec4 (IntrinsicParametersPerspective.ofParams p).cacheP
      (V3.toHomogeneous (w.data i)) a.castSucc) := by
    fin_cases a <;> exact (fl.div hf).1
  obtain ⟨f1, -, -⟩ := fl.add hn
  obtain ⟨f2, f3, -⟩ := fl.add f1
  obtain ⟨f4, f5, -⟩ := fl.add f2
  fin_cases b
  · exact (fl.mul f4).2.1
  · exact (fl.mul f5).2.1
  · exact (fl.mul f3).2.1

theorem abs_quot_le {x z X Z ρ A : ℝ} (h : |x / z - X / Z| ≤ ρ * A) (hA : A = |X / Z| + 1)
    (hρ : ρ ≤ 1) : |x / z| ≤ 2 * A := by
  have h0 : 0 ≤ A := by rw [hA]; positivity
  have := abs_add_le (x / z - X / Z) (X / Z)
  rw [sub_add_cancel] at this
  have h1 : ρ * A ≤ 1 * A := by gcongr
  linarith

theorem inv_depth {z Z δ : ℝ} (hZ : Z ≠ 0) (hδ : δ ≤ |Z| / 2) (hz : z ≠ 0) (h : |z - Z| ≤ δ) :
    1 / |z| ≤ 2 / |Z| := by
  have : |Z| / 2 ≤ |z| := by
    have := abs_sub_abs_le_abs_sub Z z
    rw [abs_sub_comm] at this
    linarith
  rw [div_le_div_iff₀ (abs_pos.2 hz) (abs_pos.2 hZ)]
  linarith

/-- Combination of the two error sources for a linear form of the normalized coordinates. -/
theorem pixel_combine {f s c x y z X Y Z δ ω γ out m : ℝ} (hZ : Z ≠ 0) (hδ : δ ≤ |Z| / 2)
    (hx : |x - X| ≤ δ) (hy : |y - Y| ≤ δ) (hz : |z - Z| ≤ δ) (hγ : 0 ≤ γ) (hω : 0 ≤ ω) (hm : 0 ≤ m)
    (h : |out - (f * x + s * y + c * z) / z| ≤
      γ * ((|f * x| + |s * y| + |c * z| + m * ω) / |z| + ω)) :
    |out - (f * (X / Z) + s * (Y / Z) + c)| ≤
      γ * (2 * |f| * (|X / Z| + 1) + 2 * |s| * (|Y / Z| + 1) + |c| + 2 * m * ω / |Z| + ω) +
      2 * δ / |Z| * (|f| * (|X / Z| + 1) + |s| * (|Y / Z| + 1)) := by
  obtain ⟨hz0, qx⟩ := quot_perturb hx hz hZ hδ
  obtain ⟨-, qy⟩ := quot_perturb hy hz hZ hδ
  have hZp : 0 < |Z| := abs_pos.2 hZ
  have hzp : 0 < |z| := abs_pos.2 hz0
  have hδ0 : 0 ≤ δ := (abs_nonneg _).trans hx
  have hρ : 2 * δ / |Z| ≤ 1 := by rw [div_le_one hZp]; linarith
  have bx := abs_quot_le qx rfl hρ
  have by' := abs_quot_le qy rfl hρ
  have iz := inv_depth hZ hδ hz0 hz
  have e1 : (f * x + s * y + c * z) / z = f * (x / z) + s * (y / z) + c := by field_simp
  have e2 : (|f * x| + |s * y| + |c * z| + m * ω) / |z| =
      |f| * |x / z| + |s| * |y / z| + |c| + m * ω * (1 / |z|) := by
    simp only [abs_mul, abs_div]; field_simp
  rw [e1, e2] at h
  have h1 : |out - (f * (X / Z) + s * (Y / Z) + c)| ≤
      |out - (f * (x / z) + s * (y / z) + c)| + (|f| * |x / z - X / Z| + |s| * |y / z - Y / Z|) := by
    have t1 := abs_add_le (out - (f * (x / z) + s * (y / z) + c))
      (f * (x / z - X / Z) + s * (y / z - Y / Z))
    have t2 := abs_add_le (f * (x / z - X / Z)) (s * (y / z - Y / Z))
    rw [abs_mul, abs_mul] at t2
    have e : out - (f * (X / Z) + s * (Y / Z) + c) = out - (f * (x / z) + s * (y / z) + c) +
      (f * (x / z - X / Z) + s * (y / z - Y / Z)) := by ring
    rw [e]
    linarith
  have h2 : |f| * |x / z - X / Z| ≤ |f| * (2 * δ / |Z| * (|X / Z| + 1)) := by gcongr
  have h3 : |s| * |y / z - Y / Z| ≤ |s| * (2 * δ / |Z| * (|Y / Z| + 1)) := by gcongr
  have h4 : γ * (|f| * |x / z| + |s| * |y / z| + |c| + m * ω * (1 / |z|) + ω) ≤
      γ * (|f| * (2 * (|X / Z| + 1)) + |s| * (2 * (|Y / Z| + 1)) + |c| + m * ω * (2 / |Z|) + ω) := by
    gcongr
  have e3 : 2 * m * ω / |Z| = m * ω * (2 / |Z|) := by ring
  rw [e3]
  linarith

/-- C49: error of a finite pixel computed by `world_to_pixel` of a perspective camera.

`X` is the exact camera-frame position, `δ` the error bound of C47; the point must not be so close to
the principal plane that its depth is uncertain (`δ ≤ |X 2| / 2`). -/
theorem c49_world_to_pixel (fl : Rounding R) (p : PerspectiveParams R) (q : Quat R) (c : V3 R)
    (Q M : ℝ) (hw : |fl.val q.w| ≤ Q) (hi : |fl.val q.i| ≤ Q) (hj : |fl.val q.j| ≤ Q)
    (hk : |fl.val q.k| ≤ Q) (hc : ∀ a, |fl.val (c a)| ≤ M) (w : Points WorldFrame R n) (i : Fin n)
    (hx : ∀ a, |fl.val (w.data i a)| ≤ M) (X : V3 ℝ)
    (hX : X = ((fromRotationAndCamcenter (fl.quat q) (fl.vec c)).worldToCamera
          ⟨fun i => fl.vec (w.data i)⟩).data i)
    (δ : ℝ) (hδ : δ = ((1 + fl.u) ^ 8 - 1) *
      ((24 * Q ^ 2 + 1) * M + fl.ω * (18 * M + 15 * Q + 6)))
    (hZ : X 2 ≠ 0) (hδZ : δ ≤ |X 2| / 2) :
    (fl.isFinite (((Camera.mk (IntrinsicParametersPerspective.ofParams p)
        (fromRotationAndCamcenter q c)).worldToPixel w).data i 0) →
      |fl.val (((Camera.mk (IntrinsicParametersPerspective.ofParams p)
          (fromRotationAndCamcenter q c)).worldToPixel w).data i 0) -
        Spec.pinhole (fl.val p.fx) (fl.val p.fy) (fl.val p.skew) (fl.val p.cx) (fl.val p.cy) X 0| ≤
      ((1 + fl.u) ^ 4 - 1) * (2 * |fl.val p.fx| * (|X 0 / X 2| + 1) +
        2 * |fl.val p.skew| * (|X 1 / X 2| + 1) + |fl.val p.cx| + 6 * fl.ω / |X 2| + fl.ω) +
      2 * δ / |X 2| * (|fl.val p.fx| * (|X 0 / X 2| + 1) + |fl.val p.skew| * (|X 1 / X 2| + 1))) ∧
    (fl.isFinite (((Camera.mk (IntrinsicParametersPerspective.ofParams p)
        (fromRotationAndCamcenter q c)).worldToPixel w).data i 1) →
      |fl.val (((Camera.mk (IntrinsicParametersPerspective.ofParams p)
          (fromRotationAndCamcenter q c)).worldToPixel w).data i 1) -
        Spec.pinhole (fl.val p.fx) (fl.val p.fy) (fl.val p.skew) (fl.val p.cx) (fl.val p.cy) X 1| ≤
      ((1 + fl.u) ^ 3 - 1) * (2 * |fl.val p.fy| * (|X 1 / X 2| + 1) + |fl.val p.cy| +
        4 * fl.ω / |X 2| + fl.ω) +
      2 * δ / |X 2| * (|fl.val p.fy| * (|X 1 / X 2| + 1))) := by
  have main : ∀ a, fl.isFinite (((Camera.mk (IntrinsicParametersPerspective.ofParams p)
        (fromRotationAndCamcenter q c)).worldToPixel w).data i a) → ∀ b,
      |fl.val (((fromRotationAndCamcenter q c).worldToCamera w).data i b) - X b| ≤ δ := by
    intro a ha b
    have := c47_world_to_camera fl q c Q M hw hi hj hk hc w i hx b
      (persp_finite fl p ((fromRotationAndCamcenter q c).worldToCamera w) i a ha b)
    rw [hδ, hX]
    exact this
  obtain ⟨hu, hv⟩ := c48_perspective fl p ((fromRotationAndCamcenter q c).worldToCamera w) i _ _ _
    rfl rfl rfl
  have p3 : 0 ≤ (1 + fl.u) ^ 3 - 1 := by linarith [one_le_pow fl 3]
  have p4 : 0 ≤ (1 + fl.u) ^ 4 - 1 := by linarith [one_le_pow fl 4]
  have hω := fl.ω_nonneg
  constructor
  · intro hf
    have m := main 0 hf
    have h := pixel_combine hZ hδZ (m 0) (m 1) (m 2) p4 hω (by norm_num) (hu hf).2
    refine (le_of_eq ?_).trans (h.trans (le_of_eq ?_))
    · congr 2
    · ring
  · intro hf
    have m := main 1 hf
    have h0 := (hv hf).2
    have h := pixel_combine (f := fl.val p.fy) (s := 0) (m := 2) hZ hδZ (m 1) (m 1) (m 2) p3 hω
      (by norm_num) (by simpa using h0)
    refine (le_of_eq ?_).trans (h.trans (le_of_eq ?_))
    · congr 2
      simp [Spec.pinhole]
    · rw [abs_zero]; ring

/-- Non-vacuity of C49 (53-bit arithmetic, identity pose, point (0, 0, 1), `Q = M = 1`): the depth is 1
and the error bound `δ` is less than half of it. -/
example : ((fromRotationAndCamcenter (Fp64.rounding.quat ⟨.some 1, .some 0, .some 0, .some 0⟩)
      (Fp64.rounding.vec fun _ => .some 0)).worldToCamera
        (⟨fun _ => Fp64.rounding.vec ![.some 0, .some 0, .some 1]⟩ : Points WorldFrame ℝ 1)).data 0 2 =
      1 ∧
    ((1 + Fp64.rounding.u) ^ 8 - 1) *
      ((24 * 1 ^ 2 + 1) * 1 + Fp64.rounding.ω * (18 * 1 + 15 * 1 + 6)) ≤ |(1 : ℝ)| / 2 := by
  constructor
  · rw [worldToCamera_data]
    simp [fromRotationAndCamcenter, Isometry.transformPoint, Quat.rotate, V3.add, V3.scale, V3.cross,
      V3.neg, Mat.mulVec3, Quat.vector, Quat.toRotationMatrix, Fp64.rounding, Rounding.quat,
      Rounding.vec, Fp64.val]
  · norm_num [Fp64.rounding]

end CamGeom
