import Verif.Props.RoundingMatrix
import Verif.Props.Linearize
import Verif.Spec.RoundingPowi

/-!
# C73: accuracy of the linearization

`linearize_at` in floating point, compared with the Jacobian of the same camera in exact arithmetic.
-/

namespace CamGeom
open Rounding ExtrinsicParameters Spec Matrix

variable {R : Type} [Scalar R]

/-- Magnitude of the entries of the camera matrix when the depth of the world origin is `T`. -/
noncomputable def camMag (F Q ω M T : ℝ) : ℝ :=
  2 * matMag F Q ω M / |T| + ω + 2 * transMag Q ω M / |T| * (matMag F Q ω M / |T|)

/-- Magnitude of the homogeneous image of a point with coordinates at most `M` under a matrix with
entries at most `B`. -/
def homMag (B ω M : ℝ) : ℝ := 3 * (B * M + ω) + B

/-- Magnitude of the intermediate results of the Jacobian: matrix entries at most `B`, homogeneous
image at most `H`, homogeneous depth `D`. -/
noncomputable def linMag (B H ω D : ℝ) : ℝ :=
  (B * (4 / D ^ 2 + ω + 6 * H / |D| ^ 3) + ω) * H + ω + (2 * B / |D| + ω + 2 * H / |D| * (B / |D|))

variable {fl : Rounding R} {Q M F : ℝ} {k l : ℕ} {N H X D : ℝ} {x y : R}

theorem gap_le (fl : Rounding R) {k l : ℕ} (h : k ≤ l) : (1 + fl.u) ^ k - 1 ≤ (1 + fl.u) ^ l - 1 := by
  have := pow_le_pow_right₀ (by linarith [fl.u_nonneg] : 1 ≤ 1 + fl.u) h
  linarith

/-- A quotient of two computed numbers. -/
theorem Approx.div_approx (hx : fl.Approx k N x X) (hy : fl.Approx l H y D) (hfy : fl.isFinite y)
    (hf : fl.isFinite (x / y)) (hD : D ≠ 0) (hδ : ((1 + fl.u) ^ l - 1) * H ≤ |D| / 2) {m : ℕ}
    (hk : k + 1 ≤ m) (hl : l ≤ m) :
    fl.Approx m (2 * N / |D| + fl.ω + 2 * H / |D| * (N / |D|)) (x / y) (X / D) := by
  have hN := hx.nonneg
  have hH := hy.nonneg
  have hDp : 0 < |D| := abs_pos.2 hD
  have hω := fl.ω_nonneg
  have hXD : |X / D| ≤ N / |D| := by rw [abs_div]; exact div_le_div_of_nonneg_right hx.1 hDp.le
  have h0 : 0 ≤ N / |D| := by positivity
  have h1 : 0 ≤ 2 * H / |D| * (N / |D|) := by positivity
  have e0 : 2 * N / |D| = 2 * (N / |D|) := by ring
  refine ⟨by linarith, (div_error hx hfy hf hy.2 hD hδ).trans ?_⟩
  have hm := one_le_pow fl m
  have s1 : ((1 + fl.u) ^ (k + 1) - 1) * (2 * N / |D| + fl.ω) ≤
      ((1 + fl.u) ^ m - 1) * (2 * N / |D| + fl.ω) :=
    mul_le_mul_of_nonneg_right (gap_le fl hk) (by positivity)
  have s2 : 2 * (((1 + fl.u) ^ l - 1) * H) / |D| * |X / D| ≤
      ((1 + fl.u) ^ m - 1) * (2 * H / |D| * (N / |D|)) := by
    have e : 2 * (((1 + fl.u) ^ l - 1) * H) / |D| * |X / D| =
      ((1 + fl.u) ^ l - 1) * (2 * H / |D| * |X / D|) := by ring
    rw [e]
    refine mul_le_mul (gap_le fl hl) ?_ (by positivity) (by linarith)
    exact mul_le_mul_of_nonneg_left hXD (by positivity)
  linarith

/-- The reciprocal square of a computed number. -/
theorem Approx.powi_neg_two (law : RoundingPowi fl) (hy : fl.Approx l H y D) (hyy : fl.isFinite (y * y))
    (hf : fl.isFinite (Scalar.powi y (-2))) (hD : D ≠ 0) (hδ : ((1 + fl.u) ^ l - 1) * H ≤ |D| / 2)
    (hl : 8 ≤ l) :
    fl.Approx l (4 / D ^ 2 + fl.ω + 6 * H / |D| ^ 3) (Scalar.powi y (-2)) (1 / D ^ 2) := by
  have hH := hy.nonneg
  have hDp : 0 < |D| := abs_pos.2 hD
  have hω := fl.ω_nonneg
  have hyD : |D| / 2 ≤ |fl.val y| := by
    have := abs_sub_abs_le_abs_sub D (fl.val y)
    rw [abs_sub_comm] at this
    linarith [hy.2]
  have hyp : 0 < |fl.val y| := by linarith
  have hy0 : fl.val y ≠ 0 := abs_pos.1 hyp
  have hi : 1 / |fl.val y| ≤ 2 / |D| := inv_depth hD hδ hy0 hy.2
  have hi2 : 1 / fl.val y ^ 2 ≤ 4 / D ^ 2 := by
    rw [← sq_abs (fl.val y), ← sq_abs D]
    have := mul_le_mul hi hi (by positivity) (by positivity)
    have e1 : 1 / |fl.val y| ^ 2 = 1 / |fl.val y| * (1 / |fl.val y|) := by ring
    have e2 : 4 / |D| ^ 2 = 2 / |D| * (2 / |D|) := by ring
    rw [e1, e2]; exact this
  have hl0 := one_le_pow fl l
  have s1 := law.powi_neg_two (fl.mul hyy).1 hy0 hyy hf
  have s2 : ((1 + fl.u) ^ 8 - 1) * (1 / fl.val y ^ 2 + fl.ω) ≤
      ((1 + fl.u) ^ l - 1) * (4 / D ^ 2 + fl.ω) :=
    mul_le_mul (gap_le fl hl) (by linarith) (by positivity) (by linarith)
  have s3 : |1 / fl.val y ^ 2 - 1 / D ^ 2| ≤ ((1 + fl.u) ^ l - 1) * (6 * H / |D| ^ 3) := by
    have e : 1 / fl.val y ^ 2 - 1 / D ^ 2 =
        (D - fl.val y) * (1 / fl.val y * (1 / D ^ 2) + 1 / fl.val y ^ 2 * (1 / D)) := by
      field_simp
      ring
    have b : |1 / fl.val y * (1 / D ^ 2) + 1 / fl.val y ^ 2 * (1 / D)| ≤ 6 / |D| ^ 3 := by
      refine (abs_add_le _ _).trans ?_
      rw [abs_mul, abs_mul, abs_div, abs_div, abs_div, abs_div, abs_one, abs_pow, abs_pow, sq_abs,
        sq_abs]
      have b1 : 1 / |fl.val y| * (1 / D ^ 2) ≤ 2 / |D| * (1 / D ^ 2) :=
        mul_le_mul_of_nonneg_right hi (by positivity)
      have b2 : 1 / fl.val y ^ 2 * (1 / |D|) ≤ 4 / D ^ 2 * (1 / |D|) :=
        mul_le_mul_of_nonneg_right hi2 (by positivity)
      have e3 : 6 / |D| ^ 3 = 2 / |D| * (1 / D ^ 2) + 4 / D ^ 2 * (1 / |D|) := by
        rw [← sq_abs D]; field_simp; norm_num
      linarith
    rw [e, abs_mul, abs_sub_comm]
    calc _ ≤ ((1 + fl.u) ^ l - 1) * H * (6 / |D| ^ 3) :=
          mul_le_mul hy.2 b (abs_nonneg _) ((abs_nonneg _).trans hy.2)
      _ = _ := by ring
  refine ⟨?_, ?_⟩
  · rw [abs_of_nonneg (by positivity)]
    have : 1 / D ^ 2 ≤ 4 / D ^ 2 := by gcongr; norm_num
    have : 0 ≤ 6 * H / |D| ^ 3 := by positivity
    linarith
  · have := abs_add_le (fl.val (Scalar.powi y (-2)) - 1 / fl.val y ^ 2)
      (1 / fl.val y ^ 2 - 1 / D ^ 2)
    rw [sub_add_sub_cancel] at this
    linarith

/-- One row of the homogeneous image. -/
theorem hom_comp {B : ℝ} {m : Fin 4 → R} {m' : Fin 4 → ℝ} {v : V3 R} {v' : V3 ℝ}
    (hm : ∀ b, fl.Comp 11 B (m b) (m' b)) (hv : ∀ b, fl.Comp 0 M (v b) (v' b)) :
    fl.Comp 15 (homMag B fl.ω M) (m 0 * v 0 + m 1 * v 1 + m 2 * v 2 + m 3)
      (m' 0 * v' 0 + m' 1 * v' 1 + m' 2 * v' 2 + m' 3) := by
  have t := fun (b : Fin 4) (b' : Fin 3) => (hm b).mul (hv b')
  have h := (((t 0 0).add (t 1 1)).add ((t 2 2).mono (k' := 13) (by norm_num) le_rfl)).add
    ((hm 3).mono (k' := 14) (by norm_num) le_rfl)
  exact h.mono (by norm_num) (by unfold homMag; linarith)

/-- One entry of the Jacobian. -/
theorem entry_comp (law : RoundingPowi fl) {B : ℝ} {p2 p0 d f : R} {P2 P0 D' F' : ℝ}
    (h2 : fl.Comp 11 B p2 P2) (h0 : fl.Comp 11 B p0 P0) (hd : fl.Comp 15 H d D')
    (hfn : fl.Comp 15 H f F') (hdd : fl.isFinite (d * d)) (hD : D' ≠ 0)
    (hδ : ((1 + fl.u) ^ 15 - 1) * H ≤ |D'| / 2) :
    fl.Comp 44 (linMag B H fl.ω D') (-p2 * Scalar.powi d (-2) * f + p0 / d)
      (P0 / D' - F' * P2 / D' ^ 2) := by
  have hfd := (fl.mul hdd).1
  have hpw : fl.Comp 15 (4 / D' ^ 2 + fl.ω + 6 * H / |D'| ^ 3) (Scalar.powi d (-2)) (1 / D' ^ 2) :=
    fun hf => Approx.powi_neg_two law (hd hfd) hdd hf hD hδ (by norm_num)
  have hdiv : fl.Comp 15 (2 * B / |D'| + fl.ω + 2 * H / |D'| * (B / |D'|)) (p0 / d) (P0 / D') :=
    fun hf => Approx.div_approx (h0 (fl.div hf).1) (hd hfd) hfd hf hD hδ (by norm_num) le_rfl
  have h := (((h2.neg.mul hpw).mul hfn).mono (k' := 43) (by norm_num) le_rfl).add
    (hdiv.mono (k' := 43) (by norm_num) le_rfl)
  exact (h.congr (by ring)).mono le_rfl (by unfold linMag; exact le_rfl)

/-- The stored matrix, in the form used by the calculus. -/
theorem cache_comp {p : PerspectiveParams R} {q : Quat R} {c : V3 R} (hF : 1 ≤ F)
    (hfx : |fl.val p.fx| ≤ F) (hfy : |fl.val p.fy| ≤ F) (hs : |fl.val p.skew| ≤ F)
    (hcx : |fl.val p.cx| ≤ F) (hcy : |fl.val p.cy| ≤ F)
    (hw : |fl.val q.w| ≤ Q) (hi : |fl.val q.i| ≤ Q) (hj : |fl.val q.j| ≤ Q) (hk : |fl.val q.k| ≤ Q)
    (hc : ∀ a, |fl.val (c a)| ≤ M) (T : ℝ)
    (hT : T = (fromRotationAndCamcenter (fl.quat q) (fl.vec c)).translation 2)
    (hT0 : T ≠ 0) (hδT : ((1 + fl.u) ^ 7 - 1) * transMag Q fl.ω M ≤ |T| / 2)
    (m : Mat 3 4 R) (hm : m = (JacobianPerspectiveCache.new (Camera.mk
      (IntrinsicParametersPerspective.ofParams p) (fromRotationAndCamcenter q c))).m)
    (hfin : ∀ a b, fl.isFinite (m a b)) (a : Fin 3) (b : Fin 4) :
    fl.Comp 11 (camMag F Q fl.ω M T) (m a b)
      ((Camera.mk (IntrinsicParametersPerspective.ofParams (fl.params p))
        (fromRotationAndCamcenter (fl.quat q) (fl.vec c))).asCameraMatrix a b) := by
  have hM : 0 ≤ M := (abs_nonneg _).trans (hc 0)
  have hω := fl.ω_nonneg
  have hTp : 0 < |T| := abs_pos.2 hT0
  have hF0 : 0 ≤ F := by linarith
  have ht0 : 0 ≤ transMag Q fl.ω M := by unfold transMag; positivity
  have hm0 : 0 ≤ matMag F Q fl.ω M := by unfold matMag; positivity
  subst hm
  intro _
  have h := flip_error hF hfx hfy hs hcx hcy (QComp.of_val fl hw hi hj hk) hc
    (Scalar.lt (Mat.mul3 (IntrinsicParametersPerspective.ofParams p).asIntrinsicsMatrix
        (fromRotationAndCamcenter q c).cache.qt 0 0) 0) hT rfl hT0 hδT _ rfl _ rfl
    (hfin 2 3) a b (hfin a b)
  have e23 : Mat.mul3 (IntrinsicParametersPerspective.ofParams (fl.params p)).asIntrinsicsMatrix
        (fromRotationAndCamcenter (fl.quat q) (fl.vec c)).cache.qt 2 3 = T := by
    rw [hT]
    simp [Mat.mul3, IntrinsicParametersPerspective.asIntrinsicsMatrix,
      IntrinsicParametersPerspective.ofParams, fromRotationAndCamcenter,
      ExtrinsicParameters.translation]
  set A := (Camera.mk (IntrinsicParametersPerspective.ofParams (fl.params p))
        (fromRotationAndCamcenter (fl.quat q) (fl.vec c))).asCameraMatrix a b with hA'
  have hA : |A| ≤ matMag F Q fl.ω M / |T| := by
    rw [hA', asCameraMatrix_apply]
    simp only [e23, abs_div]
    exact div_le_div_of_nonneg_right (kqt_mag hF hfx hfy hs hcx hcy hw hi hj hk hc a b) hTp.le
  have hN : 0 ≤ matMag F Q fl.ω M / |T| := by positivity
  have e0 : 2 * matMag F Q fl.ω M / |T| = 2 * (matMag F Q fl.ω M / |T|) := by ring
  have h1 : 0 ≤ 2 * transMag Q fl.ω M / |T| * (matMag F Q fl.ω M / |T|) := by positivity
  refine ⟨by unfold camMag; linarith, h.trans ?_⟩
  have p11 := one_le_pow fl 11
  have s2 : 2 * (((1 + fl.u) ^ 7 - 1) * transMag Q fl.ω M) / |T| * |A| ≤
      ((1 + fl.u) ^ 11 - 1) * (2 * transMag Q fl.ω M / |T| * (matMag F Q fl.ω M / |T|)) := by
    have e : 2 * (((1 + fl.u) ^ 7 - 1) * transMag Q fl.ω M) / |T| * |A| =
      ((1 + fl.u) ^ 7 - 1) * (2 * transMag Q fl.ω M / |T| * |A|) := by ring
    rw [e]
    refine mul_le_mul (gap_le fl (by norm_num)) ?_ (by positivity) (by linarith)
    exact mul_le_mul_of_nonneg_left hA (by positivity)
  unfold camMag
  linarith

/-- C73: every finite entry of the computed Jacobian differs from the entry of the exact Jacobian by at
most 44 roundings of a quantity depending on the magnitudes of the parameters and on the depths `T` of
the world origin and `D` of the point relative to it. -/
theorem c73_linearize (fl : Rounding R) (law : RoundingPowi fl) (p : PerspectiveParams R) (q : Quat R)
    (c : V3 R) (F Q M : ℝ) (hF : 1 ≤ F) (hfx : |fl.val p.fx| ≤ F) (hfy : |fl.val p.fy| ≤ F)
    (hs : |fl.val p.skew| ≤ F) (hcx : |fl.val p.cx| ≤ F) (hcy : |fl.val p.cy| ≤ F)
    (hw : |fl.val q.w| ≤ Q) (hi : |fl.val q.i| ≤ Q) (hj : |fl.val q.j| ≤ Q) (hk : |fl.val q.k| ≤ Q)
    (hc : ∀ a, |fl.val (c a)| ≤ M) (x : V3 R) (hx : ∀ a, |fl.val (x a)| ≤ M) (T B H D : ℝ)
    (hT : T = (fromRotationAndCamcenter (fl.quat q) (fl.vec c)).translation 2)
    (hT0 : T ≠ 0) (hδT : ((1 + fl.u) ^ 7 - 1) * transMag Q fl.ω M ≤ |T| / 2)
    (hB : B = camMag F Q fl.ω M T) (hH : H = homMag B fl.ω M)
    (hD : D = homImage (Camera.mk (IntrinsicParametersPerspective.ofParams (fl.params p))
      (fromRotationAndCamcenter (fl.quat q) (fl.vec c))).asCameraMatrix (fl.vec x) 2)
    (hD0 : D ≠ 0) (hδD : ((1 + fl.u) ^ 15 - 1) * H ≤ |D| / 2) :
    let cache := JacobianPerspectiveCache.new
      (Camera.mk (IntrinsicParametersPerspective.ofParams p) (fromRotationAndCamcenter q c))
    let exact := JacobianPerspectiveCache.new
      (Camera.mk (IntrinsicParametersPerspective.ofParams (fl.params p))
        (fromRotationAndCamcenter (fl.quat q) (fl.vec c)))
    (∀ a b, fl.isFinite (cache.m a b)) →
    (let d := cache.m 2 0 * x 0 + cache.m 2 1 * x 1 + cache.m 2 2 * x 2 + cache.m 2 3
     fl.isFinite (d * d)) →
    ∀ a b, fl.isFinite (cache.linearizeAt (.single x) a b) →
      |fl.val (cache.linearizeAt (.single x) a b) - exact.linearizeAt (.single (fl.vec x)) a b| ≤
        ((1 + fl.u) ^ 44 - 1) * linMag B H fl.ω D := by
  intro cache exact hfin hfd a b hf
  set P := (Camera.mk (IntrinsicParametersPerspective.ofParams (fl.params p))
      (fromRotationAndCamcenter (fl.quat q) (fl.vec c))).asCameraMatrix with hP
  have hm : ∀ a b, fl.Comp 11 B (cache.m a b) (P a b) := fun a b => by
    rw [hB]
    exact cache_comp hF hfx hfy hs hcx hcy hw hi hj hk hc T hT hT0 hδT _ rfl hfin a b
  have hv : ∀ b, fl.Comp 0 M (x b) (fl.vec x b) := fun b => Comp.of_le (hx b)
  have hr : ∀ a, fl.Comp 15 H
      (cache.m a 0 * x 0 + cache.m a 1 * x 1 + cache.m a 2 * x 2 + cache.m a 3)
      (homImage P (fl.vec x) a) := fun a => by
    rw [hH]
    exact (hom_comp (hm a) hv).congr (by
      simp [homImage, Matrix.mulVec, dotProduct, Fin.sum_univ_four])
  have hd := hr 2
  rw [← hD] at hd
  have main := fun (a : Fin 3) (b : Fin 4) =>
    entry_comp law (hm 2 b) (hm a b) hd (hr a) hfd hD0 hδD
  rw [linearizeAt_apply, show exact.m = P from jacobianCache_m _, ← hD]
  fin_cases a <;> fin_cases b
  · exact (main 0 0 hf).2
  · exact (main 0 1 hf).2
  · exact (main 0 2 hf).2
  · exact (main 1 0 hf).2
  · exact (main 1 1 hf).2
  · exact (main 1 2 hf).2

/-- The witness arithmetic has the law. -/
theorem Fp64.roundingPowi : RoundingPowi Fp64.rounding where
  powi_neg_two := by
    intro x hx _ _ hf
    cases x with
    | none => exact hx.elim
    | some x =>
      have e : (Scalar.powi (Fp64.some x) (-2)) = Fp64.fl (x ^ (-2 : ℤ)) := rfl
      rw [e] at hf ⊢
      have h := Fp64.fl_err hf
      have e2 : x ^ (-2 : ℤ) = 1 / x ^ 2 := by rw [zpow_neg, one_div]; norm_cast
      rw [e2] at h ⊢
      have h1 : Fp64.rounding.u = 2⁻¹ ^ 53 := rfl
      have h3 : 0 ≤ 1 / x ^ 2 := by positivity
      rw [abs_of_nonneg h3] at h
      refine h.trans ?_
      have h2 : Fp64.rounding.u ≤ (1 + Fp64.rounding.u) ^ 8 - 1 := by
        rw [h1]; norm_num
      have := Fp64.rounding.ω_nonneg
      rw [← h1]
      exact mul_le_mul h2 (by change 1 / x ^ 2 ≤ 1 / x ^ 2 + _; linarith) h3
        (by linarith [Fp64.rounding.u_nonneg])

/-- Non-vacuity of C73 (53-bit arithmetic, no rotation, camera centre (0, 0, -1), the world origin as
point): the depths are certain and everything is finite. -/
example : let q : Quat Fp64 := ⟨.some 1, .some 0, .some 0, .some 0⟩
    let c : V3 Fp64 := ![.some 0, .some 0, .some (-1)]
    let x : V3 Fp64 := fun _ => .some 0
    let p : PerspectiveParams Fp64 := ⟨.some 3, .some 3, .some 0, .some 0, .some 0⟩
    let fl := Fp64.rounding
    let cache := JacobianPerspectiveCache.new (Camera.mk (.ofParams p) (fromRotationAndCamcenter q c))
    let B := camMag 3 1 fl.ω 1 1
    (fromRotationAndCamcenter (fl.quat q) (fl.vec c)).translation 2 = 1 ∧
    ((1 + fl.u) ^ 7 - 1) * transMag 1 fl.ω 1 ≤ |(1 : ℝ)| / 2 ∧
    homImage (Camera.mk (.ofParams (fl.params p))
      (fromRotationAndCamcenter (fl.quat q) (fl.vec c))).asCameraMatrix (fl.vec x) 2 = 1 ∧
    ((1 + fl.u) ^ 15 - 1) * homMag B fl.ω 1 ≤ |(1 : ℝ)| / 2 ∧
    (∀ a b, fl.isFinite (cache.m a b)) ∧
    (let d := cache.m 2 0 * x 0 + cache.m 2 1 * x 1 + cache.m 2 2 * x 2 + cache.m 2 3
     fl.isFinite (d * d)) ∧
    ∀ a b, fl.isFinite (cache.linearizeAt (.single x) a b) := by
  intro q c x p fl cache B
  have l0 : (Scalar.lit 0 : Fp64) = .some 0 := by simp [Scalar.lit]
  have l1 : (Scalar.lit 1 : Fp64) = .some 1 := by simp [Scalar.lit]
  have l2 : (Scalar.lit 2 : Fp64) = .some 2 := by simp [Scalar.lit]
  have z0 : (0 : Fp64) = .some 0 := rfl
  have hn : ∀ x : ℝ, -(Fp64.some x) = Fp64.some (-x) := fun _ => rfl
  have hlt : Scalar.lt (Fp64.some 3) (Fp64.some 0) = false := by
    simp [Scalar.lt]
  have hpw : Scalar.powi (Fp64.some 1) (-2) = Fp64.some 1 := by
    change Fp64.fl ((1 : ℝ) ^ (-2 : ℤ)) = _
    simp
  have hT : (fromRotationAndCamcenter (fl.quat q) (fl.vec c)).translation 2 = 1 := by
    simp [ExtrinsicParameters.translation, fromRotationAndCamcenter, V3.neg, Mat.mulVec3,
      Quat.toRotationMatrix, Rounding.quat, Rounding.vec, Fp64.rounding, Fp64.val, q, c, fl]
  have hq : (fromRotationAndCamcenter q c).cache.qt =
      ![![.some 1, .some 0, .some 0, .some 0], ![.some 0, .some 1, .some 0, .some 0],
      ![.some 0, .some 0, .some 1, .some 1]] := by
    funext a b
    fin_cases a <;> fin_cases b <;>
      simp [fromRotationAndCamcenter, Quat.toRotationMatrix, V3.neg, Mat.mulVec3, Fp64.mul_some,
        Fp64.add_some, Fp64.sub_some, q, c, l2, hn]
  have hk : Mat.mul3 (IntrinsicParametersPerspective.ofParams p).asIntrinsicsMatrix
      (fromRotationAndCamcenter q c).cache.qt =
      ![![.some 3, .some 0, .some 0, .some 0], ![.some 0, .some 3, .some 0, .some 0],
      ![.some 0, .some 0, .some 1, .some 1]] := by
    rw [hq]
    funext a b
    fin_cases a <;> fin_cases b <;>
      simp [Mat.mul3, IntrinsicParametersPerspective.asIntrinsicsMatrix, p,
        IntrinsicParametersPerspective.ofParams, Fp64.mul_some, Fp64.add_some, l0, l1]
  have hm : cache.m = ![![.some 3, .some 0, .some 0, .some 0], ![.some 0, .some 3, .some 0, .some 0],
      ![.some 0, .some 0, .some 1, .some 1]] := by
    have e : ∀ m : Mat 3 4 Fp64, m = Mat.mul3
        (IntrinsicParametersPerspective.ofParams p).asIntrinsicsMatrix
        (fromRotationAndCamcenter q c).cache.qt → cache.m = Mat.divScalar
          (if Scalar.lt (m 0 0) 0 then Mat.neg m else m)
          ((if Scalar.lt (m 0 0) 0 then Mat.neg m else m) 2 3) := by rintro m rfl; rfl
    rw [e _ hk.symm]
    have h0 : Scalar.lt ((![![.some 3, .some 0, .some 0, .some 0], ![.some 0, .some 3, .some 0, .some 0],
      ![.some 0, .some 0, .some 1, .some 1]] : Mat 3 4 Fp64) 0 0) 0 = false := hlt
    simp only [h0]
    funext a b
    fin_cases a <;> fin_cases b <;> simp [Mat.divScalar, Fp64.div_some]
  refine ⟨hT, ?_, ?_, ?_, ?_, ?_, ?_⟩
  · norm_num [transMag, fl, Fp64.rounding]
  · simp [homImage, asCameraMatrix_apply, Matrix.mulVec, dotProduct, Fin.sum_univ_four, Mat.mul3,
      IntrinsicParametersPerspective.asIntrinsicsMatrix,
      IntrinsicParametersPerspective.ofParams, fromRotationAndCamcenter, Quat.toRotationMatrix,
      V3.neg, Mat.mulVec3, Rounding.quat, Rounding.vec, Fp64.rounding, Fp64.val, q, c, fl, x]
  · norm_num [homMag, B, camMag, matMag, transMag, fl, Fp64.rounding]
  · rw [hm]
    intro a b
    fin_cases a <;> fin_cases b <;> trivial
  · rw [hm]
    simp [x, Fp64.mul_some, Fp64.add_some, fl, Fp64.rounding]
  · intro a b
    simp only [JacobianPerspectiveCache.linearizeAt, hm]
    fin_cases a <;> fin_cases b <;>
      simp [x, Fp64.mul_some, Fp64.add_some, Fp64.div_some, fl, Fp64.rounding, Points.single, hn, hpw]

end CamGeom
