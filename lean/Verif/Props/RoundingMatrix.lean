import Verif.Props.RoundingCamera
import Verif.Props.CameraMatrix

/-!
# C72: accuracy of the camera matrix

`as_camera_matrix` and the matrix kept by `JacobianPerspectiveCache` in floating point, compared with
the camera matrix of the same camera in exact arithmetic.
-/

namespace CamGeom
open Rounding ExtrinsicParameters Spec Matrix

variable {R : Type} [Scalar R]

/-- The real parameters represented by scalar parameters. -/
noncomputable def Rounding.params (fl : Rounding R) (p : PerspectiveParams R) : PerspectiveParams ℝ :=
  ⟨fl.val p.fx, fl.val p.fy, fl.val p.skew, fl.val p.cx, fl.val p.cy⟩

/-- Magnitude bound of an entry of `K [R | t]`: intrinsic parameters at most `F`, quaternion components
at most `Q`, coordinates of the camera centre at most `M`. -/
def matMag (F Q ω M : ℝ) : ℝ := 3 * (F * (4 * Q ^ 2 + 6 * ω + transMag Q ω M) + ω)

variable {fl : Rounding R} {Q M F : ℝ}

/-- The intrinsic matrix is stored exactly. -/
theorem intrinsics_comp {p : PerspectiveParams R} (hF : 1 ≤ F) (hfx : |fl.val p.fx| ≤ F)
    (hfy : |fl.val p.fy| ≤ F) (hs : |fl.val p.skew| ≤ F) (hcx : |fl.val p.cx| ≤ F)
    (hcy : |fl.val p.cy| ≤ F) (a b : Fin 3) :
    fl.Comp 0 F ((IntrinsicParametersPerspective.ofParams p).asIntrinsicsMatrix a b)
      ((IntrinsicParametersPerspective.ofParams (fl.params p)).asIntrinsicsMatrix a b) := by
  have h0 : fl.Comp 0 F (Scalar.lit 0 : R) (Scalar.lit 0 : ℝ) :=
    (Comp.of_le (by rw [fl.lit_zero.2, abs_zero]; linarith)).congr (by simp [fl.lit_zero.2])
  have h1 : fl.Comp 0 F (Scalar.lit 1 : R) (Scalar.lit 1 : ℝ) :=
    (Comp.of_le (by rw [fl.lit_one.2, abs_one]; exact hF)).congr (by simp [fl.lit_one.2])
  fin_cases a <;> fin_cases b <;>
    first
      | exact h0 | exact h1 | exact Comp.of_le hfx | exact Comp.of_le hfy | exact Comp.of_le hs
      | exact Comp.of_le hcx | exact Comp.of_le hcy

/-- The extrinsic matrix `[R | t]`. -/
theorem QComp.qt {q : Quat R} {q' : Quat ℝ} {c : V3 R} {c' : V3 ℝ}
    (hq : QComp fl 0 Q q q') (hc : ∀ i, fl.Comp 0 M (c i) (c' i)) (hM : 0 ≤ M) (a : Fin 3) (b : Fin 4) :
    fl.Comp 7 (4 * Q ^ 2 + 6 * fl.ω + transMag Q fl.ω M) ((fromRotationAndCamcenter q c).cache.qt a b)
      ((fromRotationAndCamcenter q' c').cache.qt a b) := by
  have hω := fl.ω_nonneg
  have t0 : 0 ≤ transMag Q fl.ω M := by unfold transMag; positivity
  have r := fun b => (hq.rotationMatrix a b).mono (k' := 7) (by norm_num)
    (B' := 4 * Q ^ 2 + 6 * fl.ω + transMag Q fl.ω M) (by linarith)
  have t := (hq.translation' hc a).mono (k' := 7) le_rfl
    (B' := 4 * Q ^ 2 + 6 * fl.ω + transMag Q fl.ω M) (by
      have : 0 ≤ 4 * Q ^ 2 := by positivity
      linarith)
  fin_cases b
  · have := r 0; fin_cases a <;> exact this
  · have := r 1; fin_cases a <;> exact this
  · have := r 2; fin_cases a <;> exact this
  · fin_cases a <;> exact t

/-- The product `K [R | t]` before the division. -/
theorem kqt_comp {p : PerspectiveParams R} {q : Quat R} {c : V3 R} (hF : 1 ≤ F)
    (hfx : |fl.val p.fx| ≤ F) (hfy : |fl.val p.fy| ≤ F) (hs : |fl.val p.skew| ≤ F)
    (hcx : |fl.val p.cx| ≤ F) (hcy : |fl.val p.cy| ≤ F) (hq : QComp fl 0 Q q (fl.quat q))
    (hc : ∀ i, |fl.val (c i)| ≤ M) (a : Fin 3) (b : Fin 4) :
    fl.Comp 10 (matMag F Q fl.ω M)
      (Mat.mul3 (IntrinsicParametersPerspective.ofParams p).asIntrinsicsMatrix
        (fromRotationAndCamcenter q c).cache.qt a b)
      (Mat.mul3 (IntrinsicParametersPerspective.ofParams (fl.params p)).asIntrinsicsMatrix
        (fromRotationAndCamcenter (fl.quat q) (fl.vec c)).cache.qt a b) := by
  have hM : 0 ≤ M := (abs_nonneg _).trans (hc 0)
  have k := intrinsics_comp hF hfx hfy hs hcx hcy a
  have t := fun j => hq.qt (c := c) (c' := fl.vec c) (fun i => Comp.of_le (hc i)) hM j b
  have h := (((k 0).mul (t 0)).add ((k 1).mul (t 1))).add
    (((k 2).mul (t 2)).mono (k' := 9) (by norm_num) le_rfl)
  exact h.mono (by norm_num) (by unfold matMag; linarith)

/-- The divisor is the cached depth of the world origin, without any further rounding. -/
theorem kqt_23_exact {p : PerspectiveParams R} {q : Quat R} {c : V3 R}
    (hf : fl.isFinite (Mat.mul3 (IntrinsicParametersPerspective.ofParams p).asIntrinsicsMatrix
        (fromRotationAndCamcenter q c).cache.qt 2 3)) :
    fl.isFinite ((fromRotationAndCamcenter q c).translation 2) ∧
    fl.val (Mat.mul3 (IntrinsicParametersPerspective.ofParams p).asIntrinsicsMatrix
        (fromRotationAndCamcenter q c).cache.qt 2 3) =
      fl.val ((fromRotationAndCamcenter q c).translation 2) := by
  set t := (fromRotationAndCamcenter q c).translation with ht
  have e : Mat.mul3 (IntrinsicParametersPerspective.ofParams p).asIntrinsicsMatrix
      (fromRotationAndCamcenter q c).cache.qt 2 3 =
      Scalar.lit 0 * t 0 + Scalar.lit 0 * t 1 + Scalar.lit 1 * t 2 := rfl
  rw [e] at hf ⊢
  obtain ⟨f1, f2, -⟩ := fl.add hf
  obtain ⟨f3, f4, -⟩ := fl.add f1
  have f5 := (fl.mul f3).2.1
  have f6 := (fl.mul f4).2.1
  have f7 := (fl.mul f2).2.1
  obtain ⟨g1, e1⟩ := fl.zero_mul fl.lit_zero.1 f5 fl.lit_zero.2
  obtain ⟨g2, e2⟩ := fl.zero_mul fl.lit_zero.1 f6 fl.lit_zero.2
  obtain ⟨g3, e3⟩ := fl.one_mul fl.lit_one.1 f7 fl.lit_one.2
  obtain ⟨g4, e4⟩ := fl.zero_add g1 g2 e1
  obtain ⟨g5, e5⟩ := fl.zero_add g4 g3 (e4.trans e2)
  exact ⟨f7, e5.trans e3⟩

/-- A quotient whose divisor has itself an error. -/
theorem div_error {k : ℕ} {N δ X T : ℝ} {x y : R} (hx : fl.Approx k N x X) (hfy : fl.isFinite y)
    (hf : fl.isFinite (x / y)) (hy : |fl.val y - T| ≤ δ) (hT : T ≠ 0) (hδ : δ ≤ |T| / 2) :
    |fl.val (x / y) - X / T| ≤
      ((1 + fl.u) ^ (k + 1) - 1) * (2 * N / |T| + fl.ω) + 2 * δ / |T| * |X / T| := by
  have hd := (Approx.div hf hfy hx).2
  have hy0 : fl.val y ≠ 0 := ((fl.div hf).2 hfy).1
  have hi := inv_depth hT hδ hy0 hy
  have hN := hx.nonneg
  have h1 : ((1 + fl.u) ^ (k + 1) - 1) * (N / |fl.val y| + fl.ω) ≤
      ((1 + fl.u) ^ (k + 1) - 1) * (2 * N / |T| + fl.ω) := by
    have := one_le_pow fl (k + 1)
    refine mul_le_mul_of_nonneg_left ?_ (by linarith)
    have : N * (1 / |fl.val y|) ≤ N * (2 / |T|) := mul_le_mul_of_nonneg_left hi hN
    have e1 : N / |fl.val y| = N * (1 / |fl.val y|) := by ring
    have e2 : 2 * N / |T| = N * (2 / |T|) := by ring
    linarith
  have h2 : |X / fl.val y - X / T| ≤ 2 * δ / |T| * |X / T| := by
    have e : X / fl.val y - X / T = (T - fl.val y) * (1 / fl.val y) * (X / T) := by
      field_simp
    rw [e, abs_mul, abs_mul, abs_div, abs_one, abs_sub_comm]
    refine mul_le_mul_of_nonneg_right ?_ (abs_nonneg _)
    have : |fl.val y - T| * (1 / |fl.val y|) ≤ δ * (2 / |T|) :=
      mul_le_mul hy hi (by positivity) ((abs_nonneg _).trans hy)
    have e2 : 2 * δ / |T| = δ * (2 / |T|) := by ring
    linarith
  have := abs_add_le (fl.val (x / y) - X / fl.val y) (X / fl.val y - X / T)
  rw [sub_add_sub_cancel] at this
  linarith

/-- Both branches of the sign flip. -/
theorem flip_error {p : PerspectiveParams R} {q : Quat R} {c : V3 R} (hF : 1 ≤ F)
    (hfx : |fl.val p.fx| ≤ F) (hfy : |fl.val p.fy| ≤ F) (hs : |fl.val p.skew| ≤ F)
    (hcx : |fl.val p.cx| ≤ F) (hcy : |fl.val p.cy| ≤ F) (hq : QComp fl 0 Q q (fl.quat q))
    (hc : ∀ i, |fl.val (c i)| ≤ M) (flip : Bool) {δ T : ℝ}
    (hT : T = (fromRotationAndCamcenter (fl.quat q) (fl.vec c)).translation 2)
    (hδ : δ = ((1 + fl.u) ^ 7 - 1) * transMag Q fl.ω M) (hT0 : T ≠ 0) (hδT : δ ≤ |T| / 2)
    (m : Mat 3 4 R) (hm : m = Mat.mul3 (IntrinsicParametersPerspective.ofParams p).asIntrinsicsMatrix
        (fromRotationAndCamcenter q c).cache.qt) (m' : Mat 3 4 R)
    (hm' : m' = if flip then Mat.neg m else m)
    (hf23 : fl.isFinite (Mat.divScalar m' (m' 2 3) 2 3)) (a : Fin 3) (b : Fin 4)
    (hf : fl.isFinite (Mat.divScalar m' (m' 2 3) a b)) :
    |fl.val (Mat.divScalar m' (m' 2 3) a b) -
      (Camera.mk (IntrinsicParametersPerspective.ofParams (fl.params p))
        (fromRotationAndCamcenter (fl.quat q) (fl.vec c))).asCameraMatrix a b| ≤
      ((1 + fl.u) ^ 11 - 1) * (2 * matMag F Q fl.ω M / |T| + fl.ω) + 2 * δ / |T| *
        |(Camera.mk (IntrinsicParametersPerspective.ofParams (fl.params p))
          (fromRotationAndCamcenter (fl.quat q) (fl.vec c))).asCameraMatrix a b| := by
  set X := Mat.mul3 (IntrinsicParametersPerspective.ofParams (fl.params p)).asIntrinsicsMatrix
        (fromRotationAndCamcenter (fl.quat q) (fl.vec c)).cache.qt a b with hX
  have e23 : Mat.mul3 (IntrinsicParametersPerspective.ofParams (fl.params p)).asIntrinsicsMatrix
        (fromRotationAndCamcenter (fl.quat q) (fl.vec c)).cache.qt 2 3 = T := by
    rw [hT]
    simp [Mat.mul3, IntrinsicParametersPerspective.asIntrinsicsMatrix,
      IntrinsicParametersPerspective.ofParams, fromRotationAndCamcenter,
      ExtrinsicParameters.translation]
  have eA : (Camera.mk (IntrinsicParametersPerspective.ofParams (fl.params p))
        (fromRotationAndCamcenter (fl.quat q) (fl.vec c))).asCameraMatrix a b = X / T := by
    rw [asCameraMatrix_apply]
    simp only [e23, hX]
  rw [eA]
  have hcomp := kqt_comp hF hfx hfy hs hcx hcy hq hc a b
  rw [← hm, ← hX] at hcomp
  have f23 : fl.isFinite (m' 2 3) := (fl.div hf23).1
  have fab : fl.isFinite (m' a b) := (fl.div hf).1
  have ht : ∀ x : R, x = m 2 3 → fl.isFinite x → |fl.val x - T| ≤ δ := by
    intro x hx hxf
    rw [hx, hm] at hxf ⊢
    obtain ⟨g1, g2⟩ := kqt_23_exact hxf
    rw [g2, hT, hδ]
    exact (hq.translation' (c := c) (c' := fl.vec c) (fun i => Comp.of_le (hc i)) 2 g1).2
  cases flip
  · simp only [Bool.false_eq_true, if_false] at hm'
    rw [hm'] at fab f23 hf ⊢
    exact div_error (hcomp fab) f23 hf (ht _ rfl f23) hT0 hδT
  · simp only [if_true] at hm'
    rw [hm'] at fab f23 hf ⊢
    have g23 := fl.neg f23
    have h := div_error (T := -T) (δ := δ) (hcomp.neg fab) f23 hf (by
      rw [show fl.val (m.neg 2 3) = - fl.val (m 2 3) from g23.2,
        show -fl.val (m 2 3) - -T = -(fl.val (m 2 3) - T) by ring, abs_neg]
      exact ht _ rfl g23.1) (neg_ne_zero.2 hT0) (by rwa [abs_neg])
    rw [neg_div_neg_eq, abs_neg] at h
    exact h

/-- C72: every entry of the computed camera matrix is close to the entry of the exact one.

`T` is the exact depth of the world origin, `δ` the error of its computed value; the origin must not be so
close to the principal plane that its depth is uncertain. -/
theorem c72_camera_matrix (fl : Rounding R) (p : PerspectiveParams R) (q : Quat R) (c : V3 R)
    (F Q M : ℝ) (hF : 1 ≤ F) (hfx : |fl.val p.fx| ≤ F) (hfy : |fl.val p.fy| ≤ F)
    (hs : |fl.val p.skew| ≤ F) (hcx : |fl.val p.cx| ≤ F) (hcy : |fl.val p.cy| ≤ F)
    (hw : |fl.val q.w| ≤ Q) (hi : |fl.val q.i| ≤ Q) (hj : |fl.val q.j| ≤ Q) (hk : |fl.val q.k| ≤ Q)
    (hc : ∀ a, |fl.val (c a)| ≤ M) (δ T : ℝ)
    (hT : T = (fromRotationAndCamcenter (fl.quat q) (fl.vec c)).translation 2)
    (hδ : δ = ((1 + fl.u) ^ 7 - 1) * (12 * Q ^ 2 * M + fl.ω * (18 * M + 3)))
    (hT0 : T ≠ 0) (hδT : δ ≤ |T| / 2) :
    let cam := Camera.mk (IntrinsicParametersPerspective.ofParams p) (fromRotationAndCamcenter q c)
    let exact := Camera.mk (IntrinsicParametersPerspective.ofParams (fl.params p))
      (fromRotationAndCamcenter (fl.quat q) (fl.vec c))
    (∀ a b, fl.isFinite (cam.asCameraMatrix a b)) → ∀ a b,
      |fl.val (cam.asCameraMatrix a b) - exact.asCameraMatrix a b| ≤
        ((1 + fl.u) ^ 11 - 1) * (6 * (F * (4 * Q ^ 2 + 6 * fl.ω +
            (12 * Q ^ 2 * M + fl.ω * (18 * M + 3))) + fl.ω) / |T| + fl.ω) +
          2 * δ / |T| * |exact.asCameraMatrix a b| := by
  intro cam exact hfin a b
  have h := flip_error hF hfx hfy hs hcx hcy (QComp.of_val fl hw hi hj hk) hc
    (Scalar.lt (Mat.mul3 (IntrinsicParametersPerspective.ofParams p).asIntrinsicsMatrix
        (fromRotationAndCamcenter q c).cache.qt 0 0) (Scalar.lit 0)) hT hδ hT0 hδT _ rfl _ rfl
    (hfin 2 3) a b (hfin a b)
  refine h.trans (le_of_eq ?_)
  unfold matMag transMag
  ring

/-- C72: the same bound for the matrix `JacobianPerspectiveCache::new` keeps. -/
theorem c72_linearization_cache (fl : Rounding R) (p : PerspectiveParams R) (q : Quat R) (c : V3 R)
    (F Q M : ℝ) (hF : 1 ≤ F) (hfx : |fl.val p.fx| ≤ F) (hfy : |fl.val p.fy| ≤ F)
    (hs : |fl.val p.skew| ≤ F) (hcx : |fl.val p.cx| ≤ F) (hcy : |fl.val p.cy| ≤ F)
    (hw : |fl.val q.w| ≤ Q) (hi : |fl.val q.i| ≤ Q) (hj : |fl.val q.j| ≤ Q) (hk : |fl.val q.k| ≤ Q)
    (hc : ∀ a, |fl.val (c a)| ≤ M) (δ T : ℝ)
    (hT : T = (fromRotationAndCamcenter (fl.quat q) (fl.vec c)).translation 2)
    (hδ : δ = ((1 + fl.u) ^ 7 - 1) * (12 * Q ^ 2 * M + fl.ω * (18 * M + 3)))
    (hT0 : T ≠ 0) (hδT : δ ≤ |T| / 2) :
    let cam := Camera.mk (IntrinsicParametersPerspective.ofParams p) (fromRotationAndCamcenter q c)
    let exact := Camera.mk (IntrinsicParametersPerspective.ofParams (fl.params p))
      (fromRotationAndCamcenter (fl.quat q) (fl.vec c))
    (∀ a b, fl.isFinite ((JacobianPerspectiveCache.new cam).m a b)) → ∀ a b,
      |fl.val ((JacobianPerspectiveCache.new cam).m a b) - exact.asCameraMatrix a b| ≤
        ((1 + fl.u) ^ 11 - 1) * (6 * (F * (4 * Q ^ 2 + 6 * fl.ω +
            (12 * Q ^ 2 * M + fl.ω * (18 * M + 3))) + fl.ω) / |T| + fl.ω) +
          2 * δ / |T| * |exact.asCameraMatrix a b| := by
  intro cam exact hfin a b
  have h := flip_error hF hfx hfy hs hcx hcy (QComp.of_val fl hw hi hj hk) hc
    (Scalar.lt (Mat.mul3 (IntrinsicParametersPerspective.ofParams p).asIntrinsicsMatrix
        (fromRotationAndCamcenter q c).cache.qt 0 0) 0) hT hδ hT0 hδT _ rfl _ rfl
    (hfin 2 3) a b (hfin a b)
  refine h.trans (le_of_eq ?_)
  unfold matMag transMag
  ring

theorem pow_le_quadratic {u : ℝ} (hu : 0 ≤ u) : ∀ n : ℕ, (n : ℝ) * u ≤ 1 →
    (1 + u) ^ n ≤ 1 + n * u + (n * u) ^ 2
  | 0, _ => by norm_num
  | n + 1, h => by
    push_cast at h ⊢
    have h1 : (n : ℝ) * u ≤ 1 := by nlinarith
    have ih := pow_le_quadratic hu n h1
    have hn : (0 : ℝ) ≤ n := n.cast_nonneg
    rw [pow_succ]
    have h2 : (1 + u) ^ n * (1 + u) ≤ (1 + n * u + (n * u) ^ 2) * (1 + u) := by gcongr
    have h3 : (n * u) ^ 2 * u ≤ 1 * (n * u * u) := by
      have : (n : ℝ) * u * (n * u * u) ≤ 1 * (n * u * u) := by gcongr
      nlinarith
    nlinarith [sq_nonneg u]

/-- Size of the exact matrix before the division. -/
theorem kqt_mag {p : PerspectiveParams R} {q : Quat R} {c : V3 R} (hF : 1 ≤ F)
    (hfx : |fl.val p.fx| ≤ F) (hfy : |fl.val p.fy| ≤ F) (hs : |fl.val p.skew| ≤ F)
    (hcx : |fl.val p.cx| ≤ F) (hcy : |fl.val p.cy| ≤ F)
    (hw : |fl.val q.w| ≤ Q) (hi : |fl.val q.i| ≤ Q) (hj : |fl.val q.j| ≤ Q) (hk : |fl.val q.k| ≤ Q)
    (hc : ∀ i, |fl.val (c i)| ≤ M) (a : Fin 3) (b : Fin 4) :
    |Mat.mul3 (IntrinsicParametersPerspective.ofParams (fl.params p)).asIntrinsicsMatrix
        (fromRotationAndCamcenter (fl.quat q) (fl.vec c)).cache.qt a b| ≤ matMag F Q fl.ω M := by
  have hM : 0 ≤ M := (abs_nonneg _).trans (hc 0)
  have hω := fl.ω_nonneg
  have hK : ∀ a b, |(IntrinsicParametersPerspective.ofParams (fl.params p)).asIntrinsicsMatrix a b| ≤
      F := by
    have h0 : |(Scalar.lit 0 : ℝ)| ≤ F := by simp; linarith
    have h1 : |(Scalar.lit 1 : ℝ)| ≤ F := by simp; exact hF
    intro a b
    fin_cases a <;> fin_cases b <;>
      first | exact h0 | exact h1 | exact hfx | exact hfy | exact hs | exact hcx | exact hcy
  have hE : ∀ a b, |(fromRotationAndCamcenter (fl.quat q) (fl.vec c)).cache.qt a b| ≤
      4 * Q ^ 2 + 6 * fl.ω + transMag Q fl.ω M := by
    have r := fun a b => (rot_le (q := fl.quat q) hw hi hj hk a b).trans
      (show 4 * Q ^ 2 ≤ 4 * Q ^ 2 + 6 * fl.ω + transMag Q fl.ω M by
        have : 0 ≤ transMag Q fl.ω M := by unfold transMag; positivity
        linarith)
    have t := fun a => (trans_le (q := fl.quat q) hw hi hj hk (c := fl.vec c) hc a).trans
      (show 12 * Q ^ 2 * M ≤ 4 * Q ^ 2 + 6 * fl.ω + transMag Q fl.ω M by
        have : 0 ≤ fl.ω * (18 * M + 3) := by positivity
        have : 0 ≤ 4 * Q ^ 2 := by positivity
        unfold transMag; linarith)
    intro a b
    fin_cases b
    · have := r a 0; fin_cases a <;> exact this
    · have := r a 1; fin_cases a <;> exact this
    · have := r a 2; fin_cases a <;> exact this
    · have := t a; fin_cases a <;> exact this
  have m : ∀ j, |(IntrinsicParametersPerspective.ofParams (fl.params p)).asIntrinsicsMatrix a j *
      (fromRotationAndCamcenter (fl.quat q) (fl.vec c)).cache.qt j b| ≤
      F * (4 * Q ^ 2 + 6 * fl.ω + transMag Q fl.ω M) := fun j => by
    rw [abs_mul]
    exact mul_le_mul (hK a j) (hE j b) (abs_nonneg _) (by linarith)
  have h := abs_add_three _ _ _ |>.trans (add_le_add (add_le_add (m 0) (m 1)) (m 2))
  refine h.trans ?_
  unfold matMag
  linarith

theorem simple_arith {u F ρ : ℝ} (hF : 1 ≤ F) (hρ0 : 0 ≤ ρ) (hρ1 : 1 ≤ 15 * ρ) (hu0 : 0 ≤ u) :
    12 * u * (120 * F * ρ + 1 / 1000) + 240 * u * ρ * (60 * F * ρ) ≤ 40000 * u * F * ρ ^ 2 := by
  have hFρ : 0 ≤ F * ρ := by have : 0 ≤ F := by linarith
                             positivity
  have h1 : F * ρ * 1 ≤ F * ρ * (15 * ρ) := by gcongr
  have h2 : 1 ≤ 15 * (F * ρ) := by nlinarith
  have h3 : 12 * (120 * F * ρ + 1 / 1000) + 240 * ρ * (60 * F * ρ) ≤ 40000 * F * ρ ^ 2 := by
    nlinarith
  have := mul_le_mul_of_nonneg_left h3 hu0
  nlinarith

/-- C72, in round numbers: for a quaternion of nearly unit norm the error is at most
`40000 u F ((1 + M) / |T|)²`, where `F` bounds the intrinsic parameters, `M` the coordinates of the camera
centre, and `T` is the depth of the world origin. -/
theorem c72_simple (fl : Rounding R) (hu : fl.u ≤ 1 / 2 ^ 20) (hω : fl.ω ≤ 1 / 1000)
    (p : PerspectiveParams R) (q : Quat R) (c : V3 R)
    (F M : ℝ) (hF : 1 ≤ F) (hfx : |fl.val p.fx| ≤ F) (hfy : |fl.val p.fy| ≤ F)
    (hs : |fl.val p.skew| ≤ F) (hcx : |fl.val p.cx| ≤ F) (hcy : |fl.val p.cy| ≤ F)
    (hq : |quatNormSq (fl.quat q) - 1| ≤ 1 / 10)
    (hc : ∀ a, |fl.val (c a)| ≤ M) (T : ℝ)
    (hT : T = (fromRotationAndCamcenter (fl.quat q) (fl.vec c)).translation 2)
    (hT0 : 240 * fl.u * (1 + M) ≤ |T|) (hTne : T ≠ 0) :
    let cam := Camera.mk (IntrinsicParametersPerspective.ofParams p) (fromRotationAndCamcenter q c)
    let exact := Camera.mk (IntrinsicParametersPerspective.ofParams (fl.params p))
      (fromRotationAndCamcenter (fl.quat q) (fl.vec c))
    (∀ a b, fl.isFinite (cam.asCameraMatrix a b)) → ∀ a b,
      |fl.val (cam.asCameraMatrix a b) - exact.asCameraMatrix a b| ≤
        40000 * fl.u * F * ((1 + M) / |T|) ^ 2 := by
  intro cam exact hfin a b
  have hu0 := fl.u_nonneg
  have hω0 := fl.ω_nonneg
  have hM : 0 ≤ M := (abs_nonneg _).trans (hc 0)
  have hTp : 0 < |T| := abs_pos.2 hTne
  obtain ⟨hw, hi, hj, hk⟩ := comps_le hq
  have p7 : (1 + fl.u) ^ 7 - 1 ≤ 8 * fl.u := by
    have := pow_le_quadratic hu0 7 (by norm_num; linarith)
    norm_num at this; nlinarith
  have p11 : (1 + fl.u) ^ 11 - 1 ≤ 12 * fl.u := by
    have := pow_le_quadratic hu0 11 (by norm_num; linarith)
    norm_num at this; nlinarith
  have p7' : 0 ≤ (1 + fl.u) ^ 7 - 1 := by linarith [one_le_pow fl 7]
  have p11' : 0 ≤ (1 + fl.u) ^ 11 - 1 := by linarith [one_le_pow fl 11]
  have hωM : fl.ω * (18 * M + 3) ≤ 1 / 1000 * (18 * M + 3) := by gcongr
  have ht : transMag (1 + 1 / 10) fl.ω M ≤ 15 * (1 + M) := by
    unfold transMag; linarith
  have ht0 : 0 ≤ transMag (1 + 1 / 10) fl.ω M := by unfold transMag; positivity
  have hm : matMag F (1 + 1 / 10) fl.ω M ≤ 60 * F * (1 + M) := by
    unfold matMag
    have h1 : F * (4 * (1 + 1 / 10) ^ 2 + 6 * fl.ω + transMag (1 + 1 / 10) fl.ω M) ≤
        F * (199 / 10 * (1 + M)) := by
      refine mul_le_mul_of_nonneg_left ?_ (by linarith)
      linarith
    nlinarith [mul_nonneg (by linarith : 0 ≤ F) hM]
  have hQ := QComp.of_val fl hw hi hj hk
  have hδ : ((1 + fl.u) ^ 7 - 1) * transMag (1 + 1 / 10) fl.ω M ≤ 120 * fl.u * (1 + M) := by
    calc _ ≤ 8 * fl.u * (15 * (1 + M)) := mul_le_mul p7 ht ht0 (by linarith)
      _ = _ := by ring
  have hm0 : 0 ≤ matMag F (1 + 1 / 10) fl.ω M := by
    unfold matMag; have : 0 ≤ F := by linarith
    positivity
  have h := flip_error hF hfx hfy hs hcx hcy hQ hc
    (Scalar.lt (Mat.mul3 (IntrinsicParametersPerspective.ofParams p).asIntrinsicsMatrix
        (fromRotationAndCamcenter q c).cache.qt 0 0) (Scalar.lit 0)) hT rfl hTne (by linarith) _ rfl _ rfl
    (hfin 2 3) a b (hfin a b)
  refine h.trans ?_
  have hX := (kqt_mag hF hfx hfy hs hcx hcy hw hi hj hk hc a b).trans hm
  have e23 : Mat.mul3 (IntrinsicParametersPerspective.ofParams (fl.params p)).asIntrinsicsMatrix
        (fromRotationAndCamcenter (fl.quat q) (fl.vec c)).cache.qt 2 3 = T := by
    rw [hT]
    simp [Mat.mul3, IntrinsicParametersPerspective.asIntrinsicsMatrix,
      IntrinsicParametersPerspective.ofParams, fromRotationAndCamcenter,
      ExtrinsicParameters.translation]
  have hA : |exact.asCameraMatrix a b| ≤ 60 * F * (1 + M) / |T| := by
    rw [asCameraMatrix_apply]
    simp only [exact, e23, abs_div]
    gcongr
  have hTle : |T| ≤ 15 * (1 + M) := by
    have := trans_le (q := fl.quat q) hw hi hj hk (c := fl.vec c) hc 2
    rw [← hT] at this
    linarith
  set ρ := (1 + M) / |T| with hρ
  have hρ1 : 1 ≤ 15 * ρ := by rw [hρ, ← mul_div_assoc, le_div_iff₀ hTp]; linarith
  have hρ0 : 0 ≤ ρ := by positivity
  have hA' : |exact.asCameraMatrix a b| ≤ 60 * F * ρ := by
    rw [hρ, ← mul_div_assoc]; exact hA
  have s1 : ((1 + fl.u) ^ 11 - 1) * (2 * matMag F (1 + 1 / 10) fl.ω M / |T| + fl.ω) ≤
      12 * fl.u * (120 * F * ρ + 1 / 1000) := by
    refine mul_le_mul p11 ?_ (by positivity) (by linarith)
    have : 2 * matMag F (1 + 1 / 10) fl.ω M / |T| ≤ 120 * F * ρ := by
      rw [hρ, ← mul_div_assoc]
      exact div_le_div_of_nonneg_right (by linarith) hTp.le
    linarith
  have s2 : 2 * (((1 + fl.u) ^ 7 - 1) * transMag (1 + 1 / 10) fl.ω M) / |T| *
      |exact.asCameraMatrix a b| ≤ 240 * fl.u * ρ * (60 * F * ρ) := by
    refine mul_le_mul ?_ hA' (abs_nonneg _) (by positivity)
    rw [hρ, ← mul_div_assoc]
    exact div_le_div_of_nonneg_right (by linarith) hTp.le
  exact (add_le_add s1 s2).trans (simple_arith hF hρ0 hρ1 hu0)

/-- Non-vacuity of C72 (53-bit arithmetic, no rotation, camera centre (0, 0, -1)): the depth of the origin
is 1, it is certain, and the matrix is finite. -/
example : let q : Quat Fp64 := ⟨.some 1, .some 0, .some 0, .some 0⟩
    let c : V3 Fp64 := ![.some 0, .some 0, .some (-1)]
    (fromRotationAndCamcenter (Fp64.rounding.quat q) (Fp64.rounding.vec c)).translation 2 = 1 ∧
    240 * Fp64.rounding.u * (1 + 1) ≤ 1 ∧ quatNormSq (Fp64.rounding.quat q) = 1 ∧
    ∀ a b, Fp64.rounding.isFinite ((Camera.mk (.ofParams ⟨.some 3, .some 3, .some 0, .some 0, .some 0⟩)
      (fromRotationAndCamcenter q c)).asCameraMatrix a b) := by
  intro q c
  have l0 : (Scalar.lit 0 : Fp64) = .some 0 := by simp [Scalar.lit]
  have l1 : (Scalar.lit 1 : Fp64) = .some 1 := by simp [Scalar.lit]
  have l2 : (Scalar.lit 2 : Fp64) = .some 2 := by simp [Scalar.lit]
  have hn : ∀ x : ℝ, -(Fp64.some x) = Fp64.some (-x) := fun _ => rfl
  have hlt : Scalar.lt (Fp64.some 3) (Fp64.some 0) = false := by
    simp [Scalar.lt]
  refine ⟨?_, by norm_num [Fp64.rounding],
    by norm_num [quatNormSq, Rounding.quat, Fp64.rounding, Fp64.val, q], ?_⟩
  · simp [ExtrinsicParameters.translation, fromRotationAndCamcenter, V3.neg, Mat.mulVec3,
      Quat.toRotationMatrix, Rounding.quat, Rounding.vec, Fp64.rounding, Fp64.val, q, c]
  · have h00 : Mat.mul3 (IntrinsicParametersPerspective.ofParams
        ⟨.some 3, .some 3, .some 0, .some 0, .some 0⟩).asIntrinsicsMatrix
        (fromRotationAndCamcenter q c).cache.qt 0 0 = (Fp64.some 3) := by
      simp [Mat.mul3, IntrinsicParametersPerspective.asIntrinsicsMatrix,
        IntrinsicParametersPerspective.ofParams, fromRotationAndCamcenter, Quat.toRotationMatrix,
        Fp64.mul_some, Fp64.add_some, Fp64.sub_some, q, l0, l1, l2]
    intro a b
    unfold Camera.asCameraMatrix
    simp only [h00, l0, hlt]
    fin_cases a <;> fin_cases b <;>
      simp [Mat.mul3, Mat.divScalar, IntrinsicParametersPerspective.asIntrinsicsMatrix,
        IntrinsicParametersPerspective.ofParams, fromRotationAndCamcenter, Quat.toRotationMatrix,
        V3.neg, Mat.mulVec3,
        Fp64.mul_some, Fp64.add_some, Fp64.sub_some, Fp64.div_some, q, c, l0, l1, l2, hn,
        Fp64.rounding]

end CamGeom
