import Verif.Props.RoundingLinearize
import Verif.Props.FloatCamera
import Verif.Props.FloatTriangulation
import Verif.Lemmas.RoundingTight

/-!
# C87: camera matrix and linearization in `f64`

The bounds of C72 and C73 with finiteness as a conclusion.  The division by the depth of the world origin scales all
entries of the matrix alike, and the Jacobian does not depend on the scale; so the error of that depth does not enter
the error of the Jacobian, and the bound is sharper than that of C73.
-/

namespace CamGeom
open Rounding ExtrinsicParameters Spec Matrix

variable {R : Type} [Scalar R] {fl : Rounding R} {Q M F G : ℝ} {k l m : ℕ}

/-! ### Accuracy of the Jacobian -/

/-- One entry of the rotational part of `K [R | t]`. -/
theorem kr_comp {p : PerspectiveParams R} {q : Quat R} {c : V3 R} {ρ : ℝ}
    (hr : ∀ a b, fl.Comp 4 ρ (q.toRotationMatrix a b) ((fl.quat q).toRotationMatrix a b)) (a : Fin 3)
    (hK : ∀ j, fl.Comp 0 G ((IntrinsicParametersPerspective.ofParams p).asIntrinsicsMatrix a j)
      ((IntrinsicParametersPerspective.ofParams (fl.params p)).asIntrinsicsMatrix a j)) (b : Fin 3) :
    fl.Comp 10 (3 * (G * ρ + fl.ω))
      (Mat.mul3 (IntrinsicParametersPerspective.ofParams p).asIntrinsicsMatrix
        (fromRotationAndCamcenter q c).cache.qt a b.castSucc)
      (Mat.mul3 (IntrinsicParametersPerspective.ofParams (fl.params p)).asIntrinsicsMatrix
        (fromRotationAndCamcenter (fl.quat q) (fl.vec c)).cache.qt a b.castSucc) := by
  have t : ∀ j, fl.Comp 7 ρ ((fromRotationAndCamcenter q c).cache.qt j b.castSucc)
      ((fromRotationAndCamcenter (fl.quat q) (fl.vec c)).cache.qt j b.castSucc) := fun j => by
    have r := (hr j b).mono (k' := 7) (by norm_num) le_rfl
    fin_cases j <;> fin_cases b <;> exact r
  have h := (((hK 0).mul (t 0)).add ((hK 1).mul (t 1))).add
    (((hK 2).mul (t 2)).mono (k' := 9) (by norm_num) le_rfl)
  exact h.mono (by norm_num) (by linarith)

/-- One entry of the last column of `K [R | t]`. -/
theorem kt_comp {p : PerspectiveParams R} {q : Quat R} {c : V3 R} {τ : ℝ}
    (ht : ∀ a, fl.Comp 7 τ ((fromRotationAndCamcenter q c).translation a)
      ((fromRotationAndCamcenter (fl.quat q) (fl.vec c)).translation a)) (a : Fin 3)
    (hK : ∀ j, fl.Comp 0 G ((IntrinsicParametersPerspective.ofParams p).asIntrinsicsMatrix a j)
      ((IntrinsicParametersPerspective.ofParams (fl.params p)).asIntrinsicsMatrix a j)) :
    fl.Comp 10 (3 * (G * τ + fl.ω))
      (Mat.mul3 (IntrinsicParametersPerspective.ofParams p).asIntrinsicsMatrix
        (fromRotationAndCamcenter q c).cache.qt a 3)
      (Mat.mul3 (IntrinsicParametersPerspective.ofParams (fl.params p)).asIntrinsicsMatrix
        (fromRotationAndCamcenter (fl.quat q) (fl.vec c)).cache.qt a 3) := by
  have t : ∀ j, fl.Comp 7 τ ((fromRotationAndCamcenter q c).cache.qt j 3)
      ((fromRotationAndCamcenter (fl.quat q) (fl.vec c)).cache.qt j 3) := fun j => by
    have r := ht j
    fin_cases j <;> exact r
  have h := (((hK 0).mul (t 0)).add ((hK 1).mul (t 1))).add
    (((hK 2).mul (t 2)).mono (k' := 9) (by norm_num) le_rfl)
  exact h.mono (by norm_num) (by linarith)

/-- The third row of `K [R | t]` is that of `[R | t]`, without any further rounding. -/
theorem row2_exact {p : PerspectiveParams R} {q : Quat R} {c : V3 R} {b : Fin 4}
    (hf : fl.isFinite (Mat.mul3 (IntrinsicParametersPerspective.ofParams p).asIntrinsicsMatrix
        (fromRotationAndCamcenter q c).cache.qt 2 b)) :
    fl.isFinite ((fromRotationAndCamcenter q c).cache.qt 2 b) ∧
    fl.val (Mat.mul3 (IntrinsicParametersPerspective.ofParams p).asIntrinsicsMatrix
        (fromRotationAndCamcenter q c).cache.qt 2 b) = fl.val ((fromRotationAndCamcenter q c).cache.qt 2 b) := by
  set t := fun a => (fromRotationAndCamcenter q c).cache.qt a b with ht
  have e : Mat.mul3 (IntrinsicParametersPerspective.ofParams p).asIntrinsicsMatrix
      (fromRotationAndCamcenter q c).cache.qt 2 b =
      Scalar.lit 0 * t 0 + Scalar.lit 0 * t 1 + Scalar.lit 1 * t 2 := rfl
  rw [e] at hf ⊢
  obtain ⟨f1, f2, -⟩ := fl.add hf
  obtain ⟨f3, f4, -⟩ := fl.add f1
  have f5 := (fl.mul f3).2.1
  have f6 := (fl.mul f4).2.1
  have f7 := (fl.mul f2).2.1
  obtain ⟨g1, e1⟩ := fl.zero_mul fl.lit_zero.1 f5 fl.lit_zero.2
  obtain ⟨g2, e2⟩ := fl.zero_mul fl.lit_zero.1 f6 fl.lit_zero.2
  obtain ⟨g3, e3⟩ := fl.one_mul fl.lit_one.1 f7 fl.lit_one.2
  obtain ⟨g4, e4⟩ := fl.zero_add g1 g2 e1
  obtain ⟨g5, e5⟩ := fl.zero_add g4 g3 (e4.trans e2)
  exact ⟨f7, e5.trans e3⟩

theorem row2_real (p : PerspectiveParams ℝ) (q : Quat ℝ) (c : V3 ℝ) (b : Fin 4) :
    Mat.mul3 (IntrinsicParametersPerspective.ofParams p).asIntrinsicsMatrix
      (fromRotationAndCamcenter q c).cache.qt 2 b = (fromRotationAndCamcenter q c).cache.qt 2 b := by
  simp [Mat.mul3, IntrinsicParametersPerspective.asIntrinsicsMatrix, IntrinsicParametersPerspective.ofParams]

theorem row2_comp {p : PerspectiveParams R} {q : Quat R} {c : V3 R} {ρ τ : ℝ}
    (hr : ∀ a b, fl.Comp 4 ρ (q.toRotationMatrix a b) ((fl.quat q).toRotationMatrix a b))
    (ht : ∀ a, fl.Comp 7 τ ((fromRotationAndCamcenter q c).translation a)
      ((fromRotationAndCamcenter (fl.quat q) (fl.vec c)).translation a)) :
    (∀ b : Fin 3, fl.Comp 10 ρ
      (Mat.mul3 (IntrinsicParametersPerspective.ofParams p).asIntrinsicsMatrix
        (fromRotationAndCamcenter q c).cache.qt 2 b.castSucc)
      (Mat.mul3 (IntrinsicParametersPerspective.ofParams (fl.params p)).asIntrinsicsMatrix
        (fromRotationAndCamcenter (fl.quat q) (fl.vec c)).cache.qt 2 b.castSucc)) ∧
    fl.Comp 10 τ
      (Mat.mul3 (IntrinsicParametersPerspective.ofParams p).asIntrinsicsMatrix
        (fromRotationAndCamcenter q c).cache.qt 2 3)
      (Mat.mul3 (IntrinsicParametersPerspective.ofParams (fl.params p)).asIntrinsicsMatrix
        (fromRotationAndCamcenter (fl.quat q) (fl.vec c)).cache.qt 2 3) := by
  refine ⟨fun b hf => ?_, fun hf => ?_⟩
  · obtain ⟨h1, h2⟩ := row2_exact hf
    have r := (hr 2 b).mono (k' := 10) (by norm_num) le_rfl
    rw [row2_real]
    refine Approx.of_eq ?_ h2
    fin_cases b <;> exact r h1
  · obtain ⟨h1, h2⟩ := row2_exact hf
    rw [row2_real]
    exact Approx.of_eq (((ht 2).mono (k' := 10) (by norm_num) le_rfl) h1) h2

/-- Magnitude of a Jacobian entry computed from entries `b₂`, `b₀` of two rows whose homogeneous images are at most
`h₂`, `h₀`, when the third component of the image is `D`. -/
noncomputable def jacMag (b₂ h₂ b₀ h₀ ω D : ℝ) : ℝ :=
  (b₂ * (4 / D ^ 2 + ω + 6 * h₂ / |D| ^ 3) + ω) * h₀ + ω + (2 * b₀ / |D| + ω + 2 * h₂ / |D| * (b₀ / |D|))

theorem jac_comp (law : RoundingPowi fl) {b₂ h₂ b₀ h₀ : ℝ} {p2 p0 d f : R} {P2 P0 D F' : ℝ}
    (h2 : fl.Comp 11 b₂ p2 P2) (h0 : fl.Comp 11 b₀ p0 P0) (hd : fl.Comp 15 h₂ d D)
    (hfn : fl.Comp 15 h₀ f F') (hdd : fl.isFinite (d * d)) (hD : D ≠ 0)
    (hδ : ((1 + fl.u) ^ 15 - 1) * h₂ ≤ |D| / 2) :
    fl.Comp 44 (jacMag b₂ h₂ b₀ h₀ fl.ω D) (-p2 * Scalar.powi d (-2) * f + p0 / d)
      (P0 / D - F' * P2 / D ^ 2) := by
  have hfd := (fl.mul hdd).1
  have hpw : fl.Comp 15 (4 / D ^ 2 + fl.ω + 6 * h₂ / |D| ^ 3) (Scalar.powi d (-2)) (1 / D ^ 2) :=
    fun hf => Approx.powi_neg_two law (hd hfd) hdd hf hD hδ (by norm_num)
  have hdiv : fl.Comp 15 (2 * b₀ / |D| + fl.ω + 2 * h₂ / |D| * (b₀ / |D|)) (p0 / d) (P0 / D) :=
    fun hf => Approx.div_approx (h0 (fl.div hf).1) (hd hfd) hfd hf hD hδ (by norm_num) le_rfl
  have h := (((h2.neg.mul hpw).mul hfn).mono (k' := 43) (by norm_num) le_rfl).add
    (hdiv.mono (k' := 43) (by norm_num) le_rfl)
  exact (h.congr (by ring)).mono le_rfl (by unfold jacMag; exact le_rfl)

/-- One row of the homogeneous image, with a bound for the entries and one for the last. -/
theorem row_comp {B C : ℝ} {m : Fin 4 → R} {m' : Fin 4 → ℝ} {v : V3 R} {v' : V3 ℝ}
    (hm : ∀ b : Fin 3, fl.Comp 11 B (m b.castSucc) (m' b.castSucc)) (h3 : fl.Comp 11 C (m 3) (m' 3))
    (hv : ∀ b, fl.Comp 0 M (v b) (v' b)) :
    fl.Comp 15 (3 * (B * M + fl.ω) + C) (m 0 * v 0 + m 1 * v 1 + m 2 * v 2 + m 3)
      (m' 0 * v' 0 + m' 1 * v' 1 + m' 2 * v' 2 + m' 3) := by
  have t := fun (b b' : Fin 3) => (hm b).mul (hv b')
  have h := (((t 0 0).add (t 1 1)).add ((t 2 2).mono (k' := 13) (by norm_num) le_rfl)).add
    (h3.mono (k' := 14) (by norm_num) le_rfl)
  exact h.mono (by norm_num) (by linarith)

/-- The computed depth of the point, in units of the divisor. -/
theorem depth_comp {m : Mat 3 4 R} {X : Fin 3 → Fin 4 → ℝ} {s : R} {r₂ t₂ : ℝ} (a : Fin 3)
    (h2 : ∀ b : Fin 3, fl.Comp 10 r₂ (m a b.castSucc) (X a b.castSucc)) (h23 : fl.Comp 10 t₂ (m a 3) (X a 3))
    (hs : fl.isFinite s) (S : ℝ) (hS : S = fl.val s) (x : V3 R) (hx : ∀ b, |fl.val (x b)| ≤ M)
    (P : Mat 3 4 R) (hP : ∀ a b, P a b = m a b / s) :
    fl.Comp 15 (3 * ((r₂ / |S| + fl.ω) * M + fl.ω) + (t₂ / |S| + fl.ω))
      (P a 0 * x 0 + P a 1 * x 1 + P a 2 * x 2 + P a 3) (homImage X (fl.vec x) a / S) := by
  have dv : ∀ {N : ℝ} {y : R} {Y : ℝ}, fl.Comp 10 N y Y → fl.Comp 11 (N / |S| + fl.ω) (y / s) (Y / S) := by
    intro N y Y h hf
    rw [hS]
    exact Approx.div hf hs (h (fl.div hf).1)
  refine (row_comp (m := P a) (m' := fun b => X a b / S) (v' := fl.vec x) (fun b => by rw [hP]; exact dv (h2 b))
    (by rw [hP]; exact dv h23) (fun b => Comp.of_le (hx b))).congr ?_
  simp only [homImage, Matrix.mulVec, dotProduct, Fin.sum_univ_four, Matrix.of_apply, Matrix.cons_val]
  ring

/-- Rounding-error bound of the Jacobian relative to the Jacobian of the unscaled matrix `X = K [R | t]`: `m` are the
entries before the division, `S` the value of the divisor. -/
theorem jacobian_error (law : RoundingPowi fl) {m : Mat 3 4 R} {X : Fin 3 → Fin 4 → ℝ} {s : R}
    {r₂ t₂ r₀ t₀ : ℝ} (a : Fin 3)
    (h2 : ∀ b : Fin 3, fl.Comp 10 r₂ (m 2 b.castSucc) (X 2 b.castSucc)) (h23 : fl.Comp 10 t₂ (m 2 3) (X 2 3))
    (ha : ∀ b : Fin 3, fl.Comp 10 r₀ (m a b.castSucc) (X a b.castSucc)) (ha3 : fl.Comp 10 t₀ (m a 3) (X a 3))
    (hs : fl.isFinite s) (S : ℝ) (hS : S = fl.val s) (hS0 : S ≠ 0) (x : V3 R) (hx : ∀ b, |fl.val (x b)| ≤ M)
    (P : Mat 3 4 R) (hP : ∀ a b, P a b = m a b / s)
    (Z : ℝ) (hZ : Z = homImage X (fl.vec x) 2) (hZ0 : Z ≠ 0) (b₂ h₂ b₀ h₀ : ℝ) (hb₂ : b₂ = r₂ / |S| + fl.ω)
    (hb₀ : b₀ = r₀ / |S| + fl.ω) (hh₂ : h₂ = 3 * (b₂ * M + fl.ω) + (t₂ / |S| + fl.ω))
    (hh₀ : h₀ = 3 * (b₀ * M + fl.ω) + (t₀ / |S| + fl.ω))
    (hδ : ((1 + fl.u) ^ 15 - 1) * h₂ ≤ |Z / S| / 2)
    (hdd : let d := P 2 0 * x 0 + P 2 1 * x 1 + P 2 2 * x 2 + P 2 3
      fl.isFinite (d * d)) (b : Fin 3)
    (hf : fl.isFinite (-P 2 b.castSucc * Scalar.powi (P 2 0 * x 0 + P 2 1 * x 1 + P 2 2 * x 2 + P 2 3) (-2) *
      (P a 0 * x 0 + P a 1 * x 1 + P a 2 * x 2 + P a 3) +
      P a b.castSucc / (P 2 0 * x 0 + P 2 1 * x 1 + P 2 2 * x 2 + P 2 3))) :
    |fl.val (-P 2 b.castSucc * Scalar.powi (P 2 0 * x 0 + P 2 1 * x 1 + P 2 2 * x 2 + P 2 3) (-2) *
      (P a 0 * x 0 + P a 1 * x 1 + P a 2 * x 2 + P a 3) +
      P a b.castSucc / (P 2 0 * x 0 + P 2 1 * x 1 + P 2 2 * x 2 + P 2 3)) -
      (X a b.castSucc / Z - homImage X (fl.vec x) a * X 2 b.castSucc / Z ^ 2)| ≤
      ((1 + fl.u) ^ 44 - 1) * jacMag b₂ h₂ b₀ h₀ fl.ω (Z / S) := by
  have dv : ∀ {N : ℝ} {y : R} {Y : ℝ}, fl.Comp 10 N y Y → fl.Comp 11 (N / |S| + fl.ω) (y / s) (Y / S) := by
    intro N y Y h hf
    rw [hS]
    exact Approx.div hf hs (h (fl.div hf).1)
  have hm2 : ∀ b : Fin 3, fl.Comp 11 b₂ (P 2 b.castSucc) (X 2 b.castSucc / S) := fun b => by
    rw [hP, hb₂]; exact dv (h2 b)
  have hma : ∀ b : Fin 3, fl.Comp 11 b₀ (P a b.castSucc) (X a b.castSucc / S) := fun b => by
    rw [hP, hb₀]; exact dv (ha b)
  have r2 := depth_comp 2 h2 h23 hs S hS x hx P hP
  have ra := depth_comp a ha ha3 hs S hS x hx P hP
  rw [← hb₂, ← hh₂, ← hZ] at r2
  rw [← hb₀, ← hh₀] at ra
  have key := jac_comp law (hm2 b) (hma b) r2 ra hdd (div_ne_zero hZ0 hS0) hδ
  refine le_of_eq_of_le ?_ (key hf).2
  congr 2
  field_simp

/-- The magnitude in round numbers. -/
theorem jacMag_le {ω S Z F v b₂ h₂ b₀ h₀ : ℝ} (hω : 0 ≤ ω) (hF : 1 ≤ F) (hv : 1 ≤ v) (hS : 0 < |S|) (hZ : 0 < |Z|)
    (hb₂' : b₂ ≤ 6 / 5 / |S|) (hh₂ : 0 ≤ h₂) (hh₂' : h₂ ≤ 7 * v / |S|) (hb₀ : 0 ≤ b₀)
    (hb₀' : b₀ ≤ 4 * F / |S|) (hh₀ : 0 ≤ h₀) (hh₀' : h₀ ≤ 19 * F * v / |S|) (hZv : |Z| ≤ 7 * v)
    (ω1 : ω ≤ S ^ 2 / Z ^ 2) (ω2 : ω ≤ |S| / Z ^ 2) (ω3 : ω ≤ 1 / |Z|) :
    jacMag b₂ h₂ b₀ h₀ ω (Z / S) ≤ 2800 * F * v ^ 2 / |Z| ^ 3 := by
  set σ := |S| with hσ
  set z := |Z| with hz
  have eS : S ^ 2 = σ ^ 2 := (sq_abs S).symm
  have eZ : Z ^ 2 = z ^ 2 := (sq_abs Z).symm
  have hF0 : 0 ≤ F := by linarith
  have hv0 : 0 ≤ v := by linarith
  rw [eS, eZ] at ω1
  rw [eZ] at ω2
  have g1 : 4 / (Z / S) ^ 2 + ω + 6 * h₂ / |Z / S| ^ 3 ≤ σ ^ 2 * (5 / z ^ 2 + 42 * v / z ^ 3) := by
    rw [div_pow, eZ, eS, abs_div, ← hz, ← hσ, div_pow]
    have e1 : 6 * h₂ / (z ^ 3 / σ ^ 3) ≤ 6 * (7 * v / σ) / (z ^ 3 / σ ^ 3) := by gcongr
    have e2 : 6 * (7 * v / σ) / (z ^ 3 / σ ^ 3) = σ ^ 2 * (42 * v / z ^ 3) := by field_simp; norm_num
    have e3 : 4 / (z ^ 2 / σ ^ 2) = 4 * (σ ^ 2 / z ^ 2) := by field_simp
    have e4 : σ ^ 2 * (5 / z ^ 2 + 42 * v / z ^ 3) = 5 * (σ ^ 2 / z ^ 2) + σ ^ 2 * (42 * v / z ^ 3) := by ring
    linarith
  have g0 : 0 ≤ 4 / (Z / S) ^ 2 + ω + 6 * h₂ / |Z / S| ^ 3 := by positivity
  have g2 : b₂ * (4 / (Z / S) ^ 2 + ω + 6 * h₂ / |Z / S| ^ 3) + ω ≤ σ * (7 / z ^ 2 + 252 / 5 * v / z ^ 3) := by
    have : b₂ * (4 / (Z / S) ^ 2 + ω + 6 * h₂ / |Z / S| ^ 3) ≤
        6 / 5 / σ * (σ ^ 2 * (5 / z ^ 2 + 42 * v / z ^ 3)) := mul_le_mul hb₂' g1 g0 (by positivity)
    have e : 6 / 5 / σ * (σ ^ 2 * (5 / z ^ 2 + 42 * v / z ^ 3)) + σ / z ^ 2 = σ * (7 / z ^ 2 + 252 / 5 * v / z ^ 3) := by
      field_simp; ring
    linarith
  have g3 : (b₂ * (4 / (Z / S) ^ 2 + ω + 6 * h₂ / |Z / S| ^ 3) + ω) * h₀ ≤
      (7 / z ^ 2 + 252 / 5 * v / z ^ 3) * (19 * F * v) := by
    have : (b₂ * (4 / (Z / S) ^ 2 + ω + 6 * h₂ / |Z / S| ^ 3) + ω) * h₀ ≤
        σ * (7 / z ^ 2 + 252 / 5 * v / z ^ 3) * (19 * F * v / σ) := mul_le_mul g2 hh₀' hh₀ (by positivity)
    have e : σ * (7 / z ^ 2 + 252 / 5 * v / z ^ 3) * (19 * F * v / σ) = (7 / z ^ 2 + 252 / 5 * v / z ^ 3) * (19 * F * v) := by
      field_simp
    linarith
  have g4 : 2 * b₀ / |Z / S| ≤ 8 * F / z := by
    rw [abs_div, ← hz, ← hσ]
    have : 2 * b₀ / (z / σ) ≤ 2 * (4 * F / σ) / (z / σ) := by gcongr
    have e : 2 * (4 * F / σ) / (z / σ) = 8 * F / z := by field_simp; norm_num
    linarith
  have g5 : 2 * h₂ / |Z / S| * (b₀ / |Z / S|) ≤ 56 * F * v / z ^ 2 := by
    rw [abs_div, ← hz, ← hσ]
    have : 2 * h₂ / (z / σ) * (b₀ / (z / σ)) ≤ 2 * (7 * v / σ) / (z / σ) * (4 * F / σ / (z / σ)) := by gcongr
    have e : 2 * (7 * v / σ) / (z / σ) * (4 * F / σ / (z / σ)) = 56 * F * v / z ^ 2 := by field_simp; norm_num
    linarith
  have g6 : 1 / z ≤ F / z := by gcongr
  have total : jacMag b₂ h₂ b₀ h₀ ω (Z / S) ≤
      (7 / z ^ 2 + 252 / 5 * v / z ^ 3) * (19 * F * v) + 10 * F / z + 56 * F * v / z ^ 2 := by
    unfold jacMag
    have e : 10 * F / z = 8 * F / z + 2 * (F / z) := by ring
    linarith
  refine total.trans ?_
  have e : (7 / z ^ 2 + 252 / 5 * v / z ^ 3) * (19 * F * v) + 10 * F / z + 56 * F * v / z ^ 2 =
      F / z ^ 3 * (189 * (v * z) + 4788 / 5 * v ^ 2 + 10 * z ^ 2) := by field_simp; ring
  have e' : 2800 * F * v ^ 2 / z ^ 3 = F / z ^ 3 * (2800 * v ^ 2) := by field_simp
  rw [e, e']
  refine mul_le_mul_of_nonneg_left ?_ (by positivity)
  have h1 : v * z ≤ v * (7 * v) := by gcongr
  have h2 : z ^ 2 ≤ (7 * v) ^ 2 := by gcongr
  nlinarith

/-- An entry of the matrix after the sign flip and the division, which cancels the flip. -/
theorem divided_comp {m : Mat 3 4 R} {X : Fin 3 → Fin 4 → ℝ} {N H T : ℝ} (flip : Bool) (a : Fin 3) (b : Fin 4)
    (hm : fl.Comp 10 N (m a b) (X a b)) (hs : fl.Comp 10 H (m 2 3) T) (hT : T ≠ 0)
    (hδ : ((1 + fl.u) ^ 10 - 1) * H ≤ |T| / 2) (hfs : fl.isFinite ((if flip then Mat.neg m else m) 2 3))
    (hf : fl.isFinite (Mat.divScalar (if flip then Mat.neg m else m) ((if flip then Mat.neg m else m) 2 3) a b)) :
    |fl.val (Mat.divScalar (if flip then Mat.neg m else m) ((if flip then Mat.neg m else m) 2 3) a b) - X a b / T| ≤
      ((1 + fl.u) ^ 11 - 1) * (2 * N / |T| + fl.ω + 2 * H / |T| * (N / |T|)) := by
  cases flip
  · exact (Approx.div_approx (hm (fl.div hf).1) (hs hfs) hfs hf hT hδ (m := 11) (by norm_num) (by norm_num)).2
  · have := (Approx.div_approx (hm.neg (fl.div hf).1) (hs.neg hfs) hfs hf (neg_ne_zero.2 hT) (by rwa [abs_neg])
      (m := 11) (by norm_num) (by norm_num)).2
    rw [neg_div_neg_eq, abs_neg] at this
    exact this

/-- The bound in round numbers. -/
theorem divided_round {ω T F v N H : ℝ} (hF : 1 ≤ F) (hv : 1 ≤ v) (hT : 0 < |T|) (hω : ω ≤ 1 / 100)
    (hN0 : 0 ≤ N) (hN : N ≤ 10 * F * v) (hH : H ≤ 3.1 * v) (hTv : |T| ≤ 3.1 * v) :
    2 * N / |T| + ω + 2 * H / |T| * (N / |T|) ≤ 128 * (F * (v / |T|) ^ 2) := by
  set ρ := v / |T| with hρ
  have ρ1 : 1 ≤ 3.1 * ρ := by rw [hρ, ← mul_div_assoc, one_le_div hT]; exact hTv
  have e1 : 2 * N / |T| ≤ 20 * (F * ρ) := by
    rw [hρ, div_le_iff₀ hT]
    have : 20 * (F * (v / |T|)) * |T| = 20 * (F * v) := by field_simp
    rw [this]; linarith
  have e2 : N / |T| ≤ 10 * (F * ρ) := by linarith [show 2 * N / |T| = 2 * (N / |T|) by ring]
  have e3 : 2 * H / |T| ≤ 6.2 * ρ := by
    rw [hρ, div_le_iff₀ hT, mul_assoc, div_mul_cancel₀ _ hT.ne']
    linarith
  have r0 : 0 ≤ ρ := by positivity
  have e4 : 2 * H / |T| * (N / |T|) ≤ 6.2 * ρ * (10 * (F * ρ)) := mul_le_mul e3 e2 (by positivity) (by positivity)
  have e5 : F * ρ * 1 ≤ F * ρ * (3.1 * ρ) := mul_le_mul_of_nonneg_left ρ1 (by positivity)
  have e6 : 1 * 1 ≤ F * (3.1 * ρ) := mul_le_mul hF ρ1 (by norm_num) (by linarith)
  have e7 : 6.2 * ρ * (10 * (F * ρ)) = 62 * (F * ρ ^ 2) := by ring
  have e8 : F * ρ * (3.1 * ρ) = 3.1 * (F * ρ ^ 2) := by ring
  norm_num at e6 e8 ⊢
  linarith

/-! ### Finiteness -/

theorem kqt_range (r : RoundingRange fl) (p : PerspectiveParams R)
    (hp : ∀ x ∈ [p.fx, p.fy, p.skew, p.cx, p.cy], InRange fl m x) {q : Quat R} (hq : QInRange fl q) {c : V3 R}
    (hc : ∀ a, InRange fl k (c a)) (hk : m + k + 9 ≤ r.top) (a : Fin 3) (b : Fin 4) :
    InRange fl (m + k + 9) (Mat.mul3 (IntrinsicParametersPerspective.ofParams p).asIntrinsicsMatrix
        (fromRotationAndCamcenter q c).cache.qt a b) := by
  simp only [List.mem_cons, List.not_mem_nil, or_false, forall_eq_or_imp, forall_eq] at hp
  obtain ⟨b1, b2, b3, b4, b5⟩ := hp
  have h0 : InRange fl m (Scalar.lit 0 : R) := InRange.lit_zero fl
  have h1 : InRange fl m (Scalar.lit 1 : R) := (InRange.lit_one fl).mono (by omega)
  have hK : ∀ j, InRange fl m ((IntrinsicParametersPerspective.ofParams p).asIntrinsicsMatrix a j) := by
    intro j
    fin_cases a <;> fin_cases j <;>
      first | exact h0 | exact h1 | exact b1 | exact b2 | exact b3 | exact b4 | exact b5
  have hE : ∀ j, InRange fl (k + 7) ((fromRotationAndCamcenter q c).cache.qt j b) := by
    intro j
    have e1 := fun b => (hq.rotationMatrix r (by omega) j b).mono (k := k + 7) (by omega)
    have e2 := hq.translation r hc (by omega) j
    fin_cases b
    · have := e1 0; fin_cases j <;> exact this
    · have := e1 1; fin_cases j <;> exact this
    · have := e1 2; fin_cases j <;> exact this
    · fin_cases j <;> exact e2
  have t := fun j => (hK j).mul r (hE j) (by omega)
  exact ((((t 0).add r (t 1) (by omega)).add r ((t 2).mono (by omega)) (by omega))).mono (by omega)

/-- Entries of the matrix after the sign flip and the division. -/
theorem divided_range (r : RoundingRange fl) {m' : Mat 3 4 R} (flip : Bool) {j : ℕ}
    (hm : ∀ a b, InRange fl j (m' a b)) (hs : 1 / 2 ^ l ≤ |fl.val (m' 2 3)|) (hk : j + l ≤ r.top) (a : Fin 3)
    (b : Fin 4) :
    InRange fl (j + l) (Mat.divScalar (if flip then Mat.neg m' else m') ((if flip then Mat.neg m' else m') 2 3) a b) := by
  cases flip
  · exact (hm a b).div r (hm 2 3).1 hs hk
  · have h := (hm 2 3).neg r
    refine ((hm a b).neg r).div r h.1 ?_ hk
    show 1 / 2 ^ l ≤ |fl.val (-m' 2 3)|
    rw [(fl.neg h.1).2, abs_neg]
    exact hs

/-- `powi(-2)` of a number bounded away from zero. -/
theorem powi_range {f : Format} {lib : Libm f} {d : RustFloat f lib} {e : ℕ}
    (hf : (RustFloat.rounding f lib).isFinite (d * d))
    (h : 1 / 2 ^ e ≤ |(RustFloat.rounding f lib).val (d * d)|) (he : e ≤ (RustFloat.range f lib).top) :
    InRange (RustFloat.rounding f lib) e (Scalar.powi d (-2)) := by
  have e1 : (Scalar.powi d (-2) : RustFloat f lib) = (1 : RustFloat f lib) / (d * d) := Flt.powi_neg_two (f := f) d
  rw [e1]
  have := (InRange.one (RustFloat.rounding f lib)).div (RustFloat.range f lib) hf h (by omega)
  exact this.mono (by omega)

/-- An entry of the Jacobian of a matrix with entries in range. -/
theorem jac_range (r : RoundingRange fl) {P : Mat 3 4 R} {A e g : ℕ} (hP : ∀ a b, InRange fl A (P a b)) {x : V3 R}
    (hx : ∀ a, InRange fl k (x a)) (d : R) (hd : d = P 2 0 * x 0 + P 2 1 * x 1 + P 2 2 * x 2 + P 2 3)
    (hdl : 1 / 2 ^ g ≤ |fl.val d|) (hpw : InRange fl e (Scalar.powi d (-2)))
    (hk : 2 * A + k + 4 + e + g ≤ r.top) (a : Fin 3) (b : Fin 3) :
    InRange fl (2 * A + k + 4 + e + g) (-P 2 b.castSucc * Scalar.powi d (-2) *
      (P a 0 * x 0 + P a 1 * x 1 + P a 2 * x 2 + P a 3) + P a b.castSucc / d) := by
  have hrow : ∀ a, InRange fl (A + k + 3) (P a 0 * x 0 + P a 1 * x 1 + P a 2 * x 2 + P a 3) := by
    intro a
    have t := fun (b : Fin 4) (j : Fin 3) => (hP a b).mul r (hx j) (by omega)
    exact (((t 0 0).add r (t 1 1) (by omega)).add r ((t 2 2).mono (by omega)) (by omega)).add r
      ((hP a 3).mono (by omega)) (by omega)
  have h1 := (((hP 2 b.castSucc).neg r).mul r hpw (by omega)).mul r (hrow a) (by omega)
  have hdf : fl.isFinite d := hd ▸ (hrow 2).1
  have h2 := (hP a b.castSucc).div r hdf hdl (by omega)
  exact ((h1.mono (k := 2 * A + k + 3 + e + g) (by omega)).add r (h2.mono (by omega)) (by omega)).mono (by omega)

/-! ### `f64` -/

section F64

variable {lib : Libm Format.b64}

theorem f64_pow_le {n : ℕ} (hn : n ≤ 50) : (1 + Format.b64.u) ^ n - 1 ≤ (n + 1) * Format.b64.u := by
  have h0 : (0 : ℝ) ≤ Format.b64.u := by rw [Format.u_b64]; positivity
  have hn' : (n : ℝ) ≤ 50 := by exact_mod_cast hn
  have hu : Format.b64.u ≤ 1 / 2500 := by rw [Format.u_b64]; norm_num
  have := pow_le_quadratic h0 n (by nlinarith)
  have : ((n : ℝ) * Format.b64.u) ^ 2 ≤ 2500 * Format.b64.u * Format.b64.u := by
    have hn0 : (0 : ℝ) ≤ n := n.cast_nonneg
    have : (n : ℝ) ^ 2 ≤ 2500 := by nlinarith
    nlinarith [sq_nonneg Format.b64.u]
  nlinarith

/-- Size of the cached translation. -/
theorem f64_transMag (hM0 : 0 ≤ M) (hM : M ≤ 2 ^ 20) :
    transMag (1 + 1 / 10 ^ 15) Format.b64.ω M ≤ 12.01 * M + 1 / 10 ^ 6 := by
  have ω1 := Format.ω_b64
  have ω2 : Format.b64.ω ≤ 1 / 10 ^ 20 := ω1.trans (by norm_num)
  have ω0 := Format.b64.ω_pos
  unfold transMag
  have : Format.b64.ω * (18 * M + 3) ≤ 1 / 10 ^ 20 * (18 * 2 ^ 20 + 3) := by gcongr
  norm_num at this ⊢
  nlinarith

/-- The hypotheses of C87: an `f64` camera in ordinary ranges.  `F` bounds the intrinsic parameters, `M` the coordinates
of the camera centre, and the depth `T` of the world origin is not tiny. -/
structure MatrixRange (p : PerspectiveParams (F64 lib)) (q : Quat (F64 lib)) (c : V3 (F64 lib)) (F M T : ℝ) : Prop where
  one_le : 1 ≤ F
  le : F ≤ 2 ^ 20
  nonneg : 0 ≤ M
  scene : M ≤ 2 ^ 20
  params : ∀ x ∈ [p.fx, p.fy, p.skew, p.cx, p.cy], Flt.Bounded (f := .b64) F x
  rotation : NearUnit lib (1 / 10 ^ 15) q
  centre : ∀ a, Flt.Bounded (f := .b64) M (c a)
  depth : T = (fromRotationAndCamcenter ((RustFloat.rounding .b64 lib).quat q)
    ((RustFloat.rounding .b64 lib).vec c)).translation 2
  away : 1 / 10 ^ 9 * (1 + M) ≤ |T|

namespace MatrixRange

variable {p : PerspectiveParams (F64 lib)} {q : Quat (F64 lib)} {c : V3 (F64 lib)} {T : ℝ}

theorem qcomp (h : MatrixRange p q c F M T) :
    QComp (RustFloat.rounding .b64 lib) 0 (1 + 1 / 10 ^ 15) q ((RustFloat.rounding .b64 lib).quat q) := by
  obtain ⟨q1, q2, q3, q4⟩ := h.rotation.comps
  exact QComp.of_val _ q1 q2 q3 q4

theorem kqt_range (h : MatrixRange p q c F M T) (a : Fin 3) (b : Fin 4) :
    InRange (RustFloat.rounding .b64 lib) 49
      (Mat.mul3 (IntrinsicParametersPerspective.ofParams p).asIntrinsicsMatrix
        (fromRotationAndCamcenter q c).cache.qt a b) :=
  CamGeom.kqt_range (m := 20) (k := 20) (RustFloat.range .b64 lib) p (fun x hx => (h.params x hx).inRange h.le)
    (h.rotation.inRange (by norm_num)) (fun a => (h.centre a).inRange h.scene) (by
      show 20 + 20 + 9 ≤ 1023
      norm_num) a b

theorem rotation_tight (h : MatrixRange p q c F M T) (a b : Fin 3) :
    (RustFloat.rounding .b64 lib).Comp 4 1.001 (q.toRotationMatrix a b)
      (((RustFloat.rounding .b64 lib).quat q).toRotationMatrix a b) := by
  have ω1 : (RustFloat.rounding .b64 lib).ω ≤ 1 / 10 ^ 100 := Format.ω_b64
  have h1 := (abs_le.1 h.rotation.quatNormSq).2
  refine (CamGeom.rotation_tight (n := 1 + 1 / 10 ^ 15) (by linarith) a b).mono le_rfl ?_
  norm_num at ω1 ⊢
  linarith

theorem translation_tight (h : MatrixRange p q c F M T) (a : Fin 3) :
    (RustFloat.rounding .b64 lib).Comp 7 (3.01 * M + 1 / 10 ^ 6) ((fromRotationAndCamcenter q c).translation a)
      ((fromRotationAndCamcenter ((RustFloat.rounding .b64 lib).quat q)
        ((RustFloat.rounding .b64 lib).vec c)).translation a) := by
  have ω1 : (RustFloat.rounding .b64 lib).ω ≤ 1 / 10 ^ 100 := Format.ω_b64
  have hM := h.nonneg
  refine (CamGeom.translation_tight h.rotation_tight (fun i => (h.centre i).2) a).mono le_rfl ?_
  norm_num at ω1 ⊢
  linarith

/-- The divisor. -/
theorem divisor (h : MatrixRange p q c F M T) :
    |(RustFloat.rounding .b64 lib).val (Mat.mul3 (IntrinsicParametersPerspective.ofParams p).asIntrinsicsMatrix
        (fromRotationAndCamcenter q c).cache.qt 2 3) - T| ≤ 1 / 10 ^ 13 * (1 + M) := by
  obtain ⟨g1, g2⟩ := kqt_23_exact (h.kqt_range 2 3).1
  rw [g2, h.depth]
  have e := (h.qcomp.translation' (c := c) (c' := (RustFloat.rounding .b64 lib).vec c)
    (fun i => Comp.of_le (h.centre i).2) 2 g1).2
  refine e.trans ?_
  have t := f64_transMag h.nonneg h.scene
  have p7 := f64_pow_le (n := 7) (by norm_num)
  have hM := h.nonneg
  refine (mul_le_mul p7 t ?_ ?_).trans ?_
  · have := Format.b64.ω_pos
    show 0 ≤ transMag _ Format.b64.ω M
    unfold transMag; positivity
  · rw [Format.u_b64]; positivity
  · rw [Format.u_b64]; norm_num; nlinarith

theorem divisor_low (h : MatrixRange p q c F M T) :
    |T| / 2 ≤ |(RustFloat.rounding .b64 lib).val (Mat.mul3
      (IntrinsicParametersPerspective.ofParams p).asIntrinsicsMatrix (fromRotationAndCamcenter q c).cache.qt 2 3)| ∧
    1 / 2 ^ 31 ≤ |(RustFloat.rounding .b64 lib).val (Mat.mul3
      (IntrinsicParametersPerspective.ofParams p).asIntrinsicsMatrix (fromRotationAndCamcenter q c).cache.qt 2 3)| := by
  have h1 := h.divisor
  have h2 := h.away
  have hM := h.nonneg
  have h3 := abs_sub_abs_le_abs_sub T ((RustFloat.rounding .b64 lib).val (Mat.mul3
      (IntrinsicParametersPerspective.ofParams p).asIntrinsicsMatrix (fromRotationAndCamcenter q c).cache.qt 2 3))
  rw [abs_sub_comm] at h3
  constructor
  · norm_num at h1 h2 ⊢; linarith
  · norm_num at h1 h2 ⊢; linarith

theorem divisor_high (h : MatrixRange p q c F M T) :
    |(RustFloat.rounding .b64 lib).val (Mat.mul3
      (IntrinsicParametersPerspective.ofParams p).asIntrinsicsMatrix (fromRotationAndCamcenter q c).cache.qt 2 3)| ≤
      14 * (1 + M) := by
  obtain ⟨q1, q2, q3, q4⟩ := h.rotation.comps
  have h1 := h.divisor
  have hM := h.nonneg
  have h2 := trans_le (q := (RustFloat.rounding .b64 lib).quat q) q1 q2 q3 q4
    (c := (RustFloat.rounding .b64 lib).vec c) (fun i => (h.centre i).2) 2
  rw [← h.depth] at h2
  have h3 := abs_add_le ((RustFloat.rounding .b64 lib).val (Mat.mul3
      (IntrinsicParametersPerspective.ofParams p).asIntrinsicsMatrix
        (fromRotationAndCamcenter q c).cache.qt 2 3) - T) T
  rw [sub_add_cancel] at h3
  norm_num at h1 h2 ⊢
  nlinarith

theorem matrix_range (h : MatrixRange p q c F M T) (flip : Bool) (a : Fin 3) (b : Fin 4) :
    let m := Mat.mul3 (IntrinsicParametersPerspective.ofParams p).asIntrinsicsMatrix
        (fromRotationAndCamcenter q c).cache.qt
    InRange (RustFloat.rounding .b64 lib) 80
      (Mat.divScalar (if flip then Mat.neg m else m) ((if flip then Mat.neg m else m) 2 3) a b) :=
  divided_range (RustFloat.range .b64 lib) flip h.kqt_range h.divisor_low.2 (by
    show 49 + 31 ≤ 1023
    norm_num) a b

theorem kqt_flip (h : MatrixRange p q c F M T) (flip : Bool) (a : Fin 3) (b : Fin 4) :
    let m := Mat.mul3 (IntrinsicParametersPerspective.ofParams p).asIntrinsicsMatrix
        (fromRotationAndCamcenter q c).cache.qt
    InRange (RustFloat.rounding .b64 lib) 49 ((if flip then Mat.neg m else m) a b) := by
  cases flip
  · exact h.kqt_range a b
  · exact (h.kqt_range a b).neg (RustFloat.range .b64 lib)

theorem entry_two_three (h : MatrixRange p q c F M T) :
    (RustFloat.rounding .b64 lib).Comp 10 (3.01 * M + 1 / 10 ^ 6)
      (Mat.mul3 (IntrinsicParametersPerspective.ofParams p).asIntrinsicsMatrix
        (fromRotationAndCamcenter q c).cache.qt 2 3) T := by
  have := (row2_comp (p := p) h.rotation_tight h.translation_tight).2
  rw [row2_real] at this
  rw [h.depth]
  exact this

theorem depth_le (h : MatrixRange p q c F M T) : |T| ≤ 3.1 * (1 + M) := by
  have hM := h.nonneg
  have := (h.entry_two_three (h.kqt_range 2 3).1).1
  refine this.trans ?_
  norm_num
  linarith

theorem entry (h : MatrixRange p q c F M T) (a : Fin 3) (b : Fin 4) :
    (RustFloat.rounding .b64 lib).Comp 10 (9.1 * F * M + 3.1 * F)
      (Mat.mul3 (IntrinsicParametersPerspective.ofParams p).asIntrinsicsMatrix
        (fromRotationAndCamcenter q c).cache.qt a b)
      (Mat.mul3 (IntrinsicParametersPerspective.ofParams ((RustFloat.rounding .b64 lib).params p)).asIntrinsicsMatrix
        (fromRotationAndCamcenter ((RustFloat.rounding .b64 lib).quat q)
          ((RustFloat.rounding .b64 lib).vec c)).cache.qt a b) := by
  have ω1 : (RustFloat.rounding .b64 lib).ω ≤ 1 / 10 ^ 100 := Format.ω_b64
  have hM := h.nonneg
  have hF := h.one_le
  have hFM : 0 ≤ F * M := by positivity
  have hK : ∀ j, (RustFloat.rounding .b64 lib).Comp 0 F
      ((IntrinsicParametersPerspective.ofParams p).asIntrinsicsMatrix a j)
      ((IntrinsicParametersPerspective.ofParams ((RustFloat.rounding .b64 lib).params p)).asIntrinsicsMatrix a j) :=
    fun j => intrinsics_comp hF (h.params p.fx (by simp)).2 (h.params p.fy (by simp)).2
    (h.params p.skew (by simp)).2 (h.params p.cx (by simp)).2 (h.params p.cy (by simp)).2 a j
  have r := fun b => (kr_comp (c := c) h.rotation_tight a hK b).mono (B' := 9.1 * F * M + 3.1 * F) le_rfl (by
    norm_num at ω1 ⊢
    linarith)
  refine Fin.lastCases ?_ r b
  refine (kt_comp h.translation_tight a hK).mono le_rfl ?_
  norm_num at ω1 ⊢
  nlinarith

end MatrixRange

/-- C87: `as_camera_matrix` of an `f64` camera in ordinary ranges is finite and accurate. -/
theorem c87_f64_camera_matrix {p : PerspectiveParams (F64 lib)} {q : Quat (F64 lib)} {c : V3 (F64 lib)} {T : ℝ}
    (h : MatrixRange p q c F M T)
    (cam : Camera (F64 lib) (IntrinsicParametersPerspective (F64 lib)))
    (hcam : cam = ⟨.ofParams p, fromRotationAndCamcenter q c⟩)
    (exact : Camera ℝ (IntrinsicParametersPerspective ℝ))
    (hexact : exact = ⟨.ofParams ((RustFloat.rounding .b64 lib).params p),
      fromRotationAndCamcenter ((RustFloat.rounding .b64 lib).quat q) ((RustFloat.rounding .b64 lib).vec c)⟩)
    (a : Fin 3) (b : Fin 4) :
    Flt.isFinite (f := .b64) (cam.asCameraMatrix a b) ∧
    |Flt.val (f := .b64) (cam.asCameraMatrix a b) - exact.asCameraMatrix a b| ≤
      2 / 10 ^ 13 * F * ((1 + M) / |T|) ^ 2 := by
  subst hcam hexact
  set fl := RustFloat.rounding .b64 lib with hfl
  have hM := h.nonneg
  have hF := h.one_le
  have hfin : fl.isFinite ((Camera.mk (IntrinsicParametersPerspective.ofParams p)
      (fromRotationAndCamcenter q c)).asCameraMatrix a b) := (h.matrix_range _ a b).1
  refine ⟨hfin, ?_⟩
  have ω1 : fl.ω ≤ 1 / 10 ^ 100 := Format.ω_b64
  have hT : 1 / 10 ^ 9 * (1 + M) ≤ |T| := h.away
  have hTp : 0 < |T| := lt_of_lt_of_le (by positivity) hT
  have p10 : (1 + fl.u) ^ 10 - 1 ≤ 2 / 10 ^ 15 := by
    show (1 + Format.b64.u) ^ 10 - 1 ≤ _
    rw [Format.u_b64]; norm_num
  have p11 : (1 + fl.u) ^ 11 - 1 ≤ 1.3 / 10 ^ 15 := by
    show (1 + Format.b64.u) ^ 11 - 1 ≤ _
    rw [Format.u_b64]; norm_num
  have hs := h.entry_two_three
  have hTv := h.depth_le
  rw [asCameraMatrix_apply, row2_real]
  change |fl.val ((Camera.mk (IntrinsicParametersPerspective.ofParams p)
      (fromRotationAndCamcenter q c)).asCameraMatrix a b) - _ /
      (fromRotationAndCamcenter (fl.quat q) (fl.vec c)).translation 2| ≤ _
  rw [← h.depth]
  have key := divided_comp (m := Mat.mul3 (IntrinsicParametersPerspective.ofParams p).asIntrinsicsMatrix
        (fromRotationAndCamcenter q c).cache.qt) (X := Mat.mul3 (IntrinsicParametersPerspective.ofParams
        (fl.params p)).asIntrinsicsMatrix (fromRotationAndCamcenter (fl.quat q) (fl.vec c)).cache.qt) _ a b
    (h.entry a b) hs (abs_pos.1 hTp) (by
      have : ((1 + fl.u) ^ 10 - 1) * (3.01 * M + 1 / 10 ^ 6) ≤ 2 / 10 ^ 15 * (3.01 * M + 1 / 10 ^ 6) := by gcongr
      refine this.trans ?_
      norm_num at hT ⊢
      linarith) (h.kqt_flip _ 2 3).1 hfin
  refine key.trans ?_
  have r := divided_round (ω := fl.ω) (T := T) (F := F) (v := 1 + M) (N := 9.1 * F * M + 3.1 * F)
    (H := 3.01 * M + 1 / 10 ^ 6) hF (by linarith) hTp (ω1.trans (by norm_num)) (by positivity)
    (by
      have : 0 ≤ F * M := by positivity
      norm_num; linarith) (by norm_num; linarith) hTv
  have pos : 0 ≤ F * ((1 + M) / |T|) ^ 2 := mul_nonneg (by linarith) (sq_nonneg _)
  calc _ ≤ ((1 + fl.u) ^ 11 - 1) * (128 * (F * ((1 + M) / |T|) ^ 2)) :=
        mul_le_mul_of_nonneg_left r (by linarith [one_le_pow fl 11])
    _ ≤ 1.3 / 10 ^ 15 * (128 * (F * ((1 + M) / |T|) ^ 2)) := by gcongr
    _ ≤ 2 / 10 ^ 13 * (F * ((1 + M) / |T|) ^ 2) := by norm_num; linarith
    _ = _ := by ring

/-- Arithmetic for `f64_jacobian`: magnitudes in units of the divisor. -/
theorem f64_mags {ω S r t : ℝ} (hω0 : 0 ≤ ω) (hω : ω ≤ 1 / 10 ^ 40) (hM0 : 0 ≤ M) (hM : M ≤ 2 ^ 20) (hF : 1 ≤ F)
    (hS : 0 < |S|) (hS' : |S| ≤ 14 * (1 + M)) {α β : ℝ} (hr : r ≤ α * F) (ht : t ≤ β * F * M + F / 10) :
    r / |S| + ω ≤ (α + 1 / 10) * F / |S| ∧
    3 * ((r / |S| + ω) * M + ω) + (t / |S| + ω) ≤ ((3 * α + β + 1 / 10) * M + 1) * F / |S| := by
  have hSω : ω * |S| ≤ 1 / 10 ^ 30 := by
    have : ω * |S| ≤ 1 / 10 ^ 40 * (14 * (1 + 2 ^ 20)) := by gcongr; linarith
    exact this.trans (by norm_num)
  have hSω0 : 0 ≤ ω * |S| := by positivity
  have hMω : ω * |S| * M ≤ 1 / 10 ^ 20 := by
    have : ω * |S| * M ≤ 1 / 10 ^ 30 * 2 ^ 20 := by gcongr
    exact this.trans (by norm_num)
  constructor
  · rw [le_div_iff₀ hS, add_mul, div_mul_cancel₀ _ hS.ne']
    norm_num at hSω ⊢
    nlinarith
  · rw [le_div_iff₀ hS]
    have e : (3 * ((r / |S| + ω) * M + ω) + (t / |S| + ω)) * |S| =
        3 * (r * M) + 3 * (ω * |S| * M) + 4 * (ω * |S|) + t := by
      field_simp
      ring
    rw [e]
    have h1 : r * M ≤ α * F * M := by gcongr
    have h2 : 0 ≤ F * M := by positivity
    norm_num at hSω hMω ⊢
    nlinarith

theorem f64_arith (hF : 1 ≤ F) (hM0 : 0 ≤ M) : ((3 * 3.01 + 9.1 + 1 / 10) * M + 1) * F ≤ 19 * F * (1 + M) := by
  have : 0 ≤ F * M := mul_nonneg (by linarith) hM0
  norm_num
  nlinarith

set_option maxHeartbeats 800000 in
/-- The Jacobian computed from a matrix `m` with the accuracy of `K [R | t]`, after division by its last entry. -/
theorem f64_jacobian {m : Mat 3 4 (F64 lib)} {X : Fin 3 → Fin 4 → ℝ} (hF : 1 ≤ F) (hM0 : 0 ≤ M) (hM : M ≤ 2 ^ 20)
    (a : Fin 3)
    (h2 : ∀ b : Fin 3, (RustFloat.rounding .b64 lib).Comp 10 1.01 (m 2 b.castSucc) (X 2 b.castSucc))
    (h23 : (RustFloat.rounding .b64 lib).Comp 10 (3.01 * M + 1 / 10 ^ 6) (m 2 3) (X 2 3))
    (ha : ∀ b : Fin 3, (RustFloat.rounding .b64 lib).Comp 10 (3.01 * F) (m a b.castSucc) (X a b.castSucc))
    (ha3 : (RustFloat.rounding .b64 lib).Comp 10 (9.1 * F * M + F / 10) (m a 3) (X a 3))
    (hm : ∀ a b, InRange (RustFloat.rounding .b64 lib) 49 (m a b)) (S : ℝ)
    (hS : S = (RustFloat.rounding .b64 lib).val (m 2 3)) (hS1 : 1 / 2 ^ 31 ≤ |S|) (hS2 : |S| ≤ 14 * (1 + M))
    (x : V3 (F64 lib)) (hx : ∀ b, Flt.Bounded (f := .b64) M (x b)) (Z : ℝ)
    (hZ : Z = homImage X ((RustFloat.rounding .b64 lib).vec x) 2) (hZ1 : 1 / 10 ^ 9 * (1 + M) ≤ |Z|)
    (P : Mat 3 4 (F64 lib)) (hP : ∀ a b, P a b = m a b / m 2 3) (d : F64 lib)
    (hd : d = P 2 0 * x 0 + P 2 1 * x 1 + P 2 2 * x 2 + P 2 3) (b : Fin 3) :
    (RustFloat.rounding .b64 lib).isFinite (-P 2 b.castSucc * Scalar.powi d (-2) *
      (P a 0 * x 0 + P a 1 * x 1 + P a 2 * x 2 + P a 3) + P a b.castSucc / d) ∧
    |(RustFloat.rounding .b64 lib).val (-P 2 b.castSucc * Scalar.powi d (-2) *
      (P a 0 * x 0 + P a 1 * x 1 + P a 2 * x 2 + P a 3) + P a b.castSucc / d) -
      (X a b.castSucc / Z - homImage X ((RustFloat.rounding .b64 lib).vec x) a * X 2 b.castSucc / Z ^ 2)| ≤
      2 / 10 ^ 11 * F * (1 + M) ^ 2 / |Z| ^ 3 := by
  set fl := RustFloat.rounding .b64 lib with hfl
  have hω : fl.ω = Format.b64.ω := rfl
  have hu : fl.u = Format.b64.u := rfl
  have ω0 : 0 ≤ fl.ω := fl.ω_nonneg
  have ω1 : fl.ω ≤ 1 / 10 ^ 40 := by rw [hω]; exact Format.ω_b64.trans (by norm_num)
  have hSp : 0 < |S| := lt_of_lt_of_le (by positivity) hS1
  have hS0 : S ≠ 0 := abs_pos.1 hSp
  have hv : 1 ≤ 1 + M := by linarith
  have hZp : 0 < |Z| := lt_of_lt_of_le (by positivity) hZ1
  have hZ0 : Z ≠ 0 := abs_pos.1 hZp
  -- magnitudes
  obtain ⟨m1, m2⟩ := f64_mags (F := 1) (α := 1.01) (β := 3.01) (r := 1.01) (t := 3.01 * M + 1 / 10 ^ 6) ω0 ω1 hM0 hM
    le_rfl hSp hS2 (by norm_num) (by norm_num)
  obtain ⟨m3, m4⟩ := f64_mags (F := F) (α := 3.01) (β := 9.1) (r := 3.01 * F) (t := 9.1 * F * M + F / 10) ω0 ω1 hM0
    hM hF hSp hS2 le_rfl le_rfl
  set b₂ := 1.01 / |S| + fl.ω with hb₂
  set h₂ := 3 * (b₂ * M + fl.ω) + ((3.01 * M + 1 / 10 ^ 6) / |S| + fl.ω) with hh₂
  set b₀ := 3.01 * F / |S| + fl.ω with hb₀
  set h₀ := 3 * (b₀ * M + fl.ω) + ((9.1 * F * M + F / 10) / |S| + fl.ω) with hh₀
  have b₂0 : 0 ≤ b₂ := by positivity
  have h₂0 : 0 ≤ h₂ := by positivity
  have b₀0 : 0 ≤ b₀ := by positivity
  have h₀0 : 0 ≤ h₀ := by positivity
  have b₂1 : b₂ ≤ 6 / 5 / |S| := m1.trans (by gcongr; norm_num)
  have h₂1 : h₂ ≤ 7 * (1 + M) / |S| := m2.trans (div_le_div_of_nonneg_right (by norm_num; linarith) hSp.le)
  have b₀1 : b₀ ≤ 4 * F / |S| := m3.trans (by gcongr; norm_num)
  have h₀1 : h₀ ≤ 19 * F * (1 + M) / |S| := m4.trans (div_le_div_of_nonneg_right (f64_arith hF hM0) hSp.le)
  -- depth
  have hdep := depth_comp 2 h2 h23 (hm 2 3).1 S hS x (fun b => (hx b).2) P hP
  rw [← hb₂, ← hh₂, ← hZ, ← hd] at hdep
  have hPr : ∀ a b, InRange fl 80 (P a b) := fun a b => by
    rw [hP]
    exact (hm a b).div (l := 31) (RustFloat.range .b64 lib) (hm 2 3).1 (by rw [← hS]; exact hS1) (by
      show 49 + 31 ≤ 1023
      norm_num)
  have hxr : ∀ a, InRange fl 20 (x a) := fun a => (hx a).inRange hM
  have htop : (RustFloat.range .b64 lib).top = 1023 := rfl
  have hdr : InRange fl 103 d := by
    have t := fun (b : Fin 4) (j : Fin 3) => (hPr 2 b).mul (RustFloat.range .b64 lib) (hxr j) (by rw [htop]; norm_num)
    rw [hd]
    exact (((t 0 0).add _ (t 1 1) (by rw [htop]; norm_num)).add _ ((t 2 2).mono (by norm_num))
      (by rw [htop]; norm_num)).add _ ((hPr 2 3).mono (by norm_num)) (by rw [htop]; norm_num)
  have hA := hdep hdr.1
  have p15 := f64_pow_le (n := 15) (by norm_num)
  have p15' : ((1 + fl.u) ^ 15 - 1) ≤ 1 / 10 ^ 14 := by
    rw [hu]
    refine p15.trans ?_
    rw [Format.u_b64]
    norm_num
  have hδ : ((1 + fl.u) ^ 15 - 1) * h₂ ≤ |Z / S| / 2 := by
    have e1 : ((1 + fl.u) ^ 15 - 1) * h₂ ≤ 1 / 10 ^ 14 * (7 * (1 + M) / |S|) :=
      mul_le_mul p15' h₂1 h₂0 (by norm_num)
    refine e1.trans ?_
    rw [abs_div, ← mul_div_assoc, div_right_comm]
    refine div_le_div_of_nonneg_right ?_ hSp.le
    norm_num at hZ1 ⊢
    linarith
  have hDlow : |Z / S| / 2 ≤ |fl.val d| := by
    have := abs_sub_abs_le_abs_sub (Z / S) (fl.val d)
    rw [abs_sub_comm] at this
    linarith [hA.2]
  have hD2 : 1 / 2 ^ 34 ≤ |Z / S| := by
    rw [abs_div, div_le_div_iff₀ (by positivity) hSp]
    norm_num at hZ1 ⊢
    linarith
  have hd2 : 1 / 2 ^ 35 ≤ |fl.val d| := by
    refine le_trans ?_ hDlow
    norm_num at hD2 ⊢
    linarith
  have hddr : InRange fl 206 (d * d) := hdr.mul (RustFloat.range .b64 lib) hdr (by rw [htop]; norm_num)
  have hddl : 1 / 2 ^ 71 ≤ |fl.val (d * d)| := by
    have h1 := (fl.mul hddr.1).2.2
    have h2 : 1 / 2 ^ 70 ≤ fl.val d * fl.val d := by
      rw [← abs_mul_abs_self (fl.val d)]
      calc (1 : ℝ) / 2 ^ 70 = 1 / 2 ^ 35 * (1 / 2 ^ 35) := by norm_num
        _ ≤ _ := by gcongr
    have h3 : |fl.val d * fl.val d| = fl.val d * fl.val d := abs_of_nonneg (mul_self_nonneg _)
    have h4 := abs_sub_abs_le_abs_sub (fl.val d * fl.val d) (fl.val (d * d))
    rw [abs_sub_comm, h3] at h4
    rw [h3] at h1
    have h5 : fl.u * (fl.val d * fl.val d + fl.ω) ≤ 1 / 10 ^ 3 * (fl.val d * fl.val d + fl.ω) := by
      have : fl.u ≤ 1 / 10 ^ 3 := by rw [hu, Format.u_b64]; norm_num
      have := mul_self_nonneg (fl.val d)
      gcongr
    norm_num at h2 h5 ω1 ⊢
    linarith
  have hpw : InRange fl 71 (Scalar.powi d (-2)) := powi_range hddr.1 hddl (by rw [htop]; norm_num)
  have hfin := (jac_range (RustFloat.range .b64 lib) hPr hxr d hd hd2 hpw (by rw [htop]; norm_num) a b).1
  refine ⟨hfin, ?_⟩
  have key := jacobian_error (RustFloat.roundingPowi .b64 lib) a h2 h23 ha ha3 (hm 2 3).1 S hS hS0 x
    (fun b => (hx b).2) P hP Z hZ hZ0 b₂ h₂ b₀ h₀ hb₂ hb₀ hh₂ hh₀ hδ (by rw [← hd]; exact hddr.1) b
    (by rw [← hd]; exact hfin)
  rw [← hd] at key
  refine key.trans ?_
  -- round numbers
  have hZv : |Z| ≤ 7 * (1 + M) := by
    have h1 := hA.1.trans h₂1
    rw [abs_div] at h1
    exact (div_le_div_iff_of_pos_right hSp).1 h1
  have hZ2 : Z ^ 2 ≤ 10 ^ 16 := by
    rw [← sq_abs]
    have : |Z| ≤ 10 ^ 8 := by norm_num at hM ⊢; linarith
    calc |Z| ^ 2 ≤ (10 ^ 8) ^ 2 := by gcongr
      _ = _ := by norm_num
  have hZ2p : 0 < Z ^ 2 := by positivity
  have hmag := jacMag_le (ω := fl.ω) (S := S) (Z := Z) (F := F) (v := 1 + M) ω0 hF hv hSp hZp b₂1 h₂0 h₂1 b₀0 b₀1 h₀0 h₀1
    hZv (by
      rw [le_div_iff₀ hZ2p, ← sq_abs S]
      calc fl.ω * Z ^ 2 ≤ 1 / 10 ^ 40 * 10 ^ 16 := by gcongr
        _ ≤ (1 / 2 ^ 31) ^ 2 := by norm_num
        _ ≤ _ := by gcongr) (by
      rw [le_div_iff₀ hZ2p]
      calc fl.ω * Z ^ 2 ≤ 1 / 10 ^ 40 * 10 ^ 16 := by gcongr
        _ ≤ 1 / 2 ^ 31 := by norm_num
        _ ≤ _ := hS1) (by
      rw [le_div_iff₀ hZp]
      have : |Z| ≤ 10 ^ 8 := by norm_num at hM ⊢; linarith
      calc fl.ω * |Z| ≤ 1 / 10 ^ 40 * 10 ^ 8 := by gcongr
        _ ≤ 1 := by norm_num)
  have p44 : (1 + fl.u) ^ 44 - 1 ≤ 51 / 10 ^ 16 := by
    rw [hu]
    refine (f64_pow_le (n := 44) (by norm_num)).trans ?_
    rw [Format.u_b64]
    norm_num
  have pos : 0 ≤ F * (1 + M) ^ 2 / |Z| ^ 3 := by positivity
  calc _ ≤ ((1 + fl.u) ^ 44 - 1) * (2800 * F * (1 + M) ^ 2 / |Z| ^ 3) :=
        mul_le_mul_of_nonneg_left hmag (by linarith [one_le_pow fl 44])
    _ ≤ 51 / 10 ^ 16 * (2800 * F * (1 + M) ^ 2 / |Z| ^ 3) := by gcongr
    _ = 51 / 10 ^ 16 * 2800 * (F * (1 + M) ^ 2 / |Z| ^ 3) := by ring
    _ ≤ 2 / 10 ^ 11 * (F * (1 + M) ^ 2 / |Z| ^ 3) := by gcongr; norm_num
    _ = _ := by ring

theorem linearizeAt_scaled {c : JacobianPerspectiveCache ℝ} {X : Fin 3 → Fin 4 → ℝ} {T : ℝ} (hT : T ≠ 0)
    (h : ∀ a b, c.m a b = X a b / T) (x : Vec) (hZ : homImage X x 2 ≠ 0) (a : Fin 2) (b : Fin 3) :
    c.linearizeAt (.single x) a b = X a.castSucc b.castSucc / homImage X x 2 -
      homImage X x a.castSucc * X 2 b.castSucc / homImage X x 2 ^ 2 := by
  have hom : ∀ a, homImage c.m x a = homImage X x a / T := by
    intro a
    simp only [homImage, Matrix.mulVec, dotProduct, Fin.sum_univ_four, Matrix.of_apply, Matrix.cons_val, h]
    ring
  rw [linearizeAt_apply, hom, hom, h, h]
  field_simp

/-- C87: `linearize_at` of an `f64` camera in ordinary ranges is finite and accurate: `Z` is the depth of the point. -/
theorem c87_f64_linearize {p : PerspectiveParams (F64 lib)} {q : Quat (F64 lib)} {c : V3 (F64 lib)} {T : ℝ}
    (h : MatrixRange p q c F M T)
    (cam : Camera (F64 lib) (IntrinsicParametersPerspective (F64 lib)))
    (hcam : cam = ⟨.ofParams p, fromRotationAndCamcenter q c⟩)
    (exact : Camera ℝ (IntrinsicParametersPerspective ℝ))
    (hexact : exact = ⟨.ofParams ((RustFloat.rounding .b64 lib).params p),
      fromRotationAndCamcenter ((RustFloat.rounding .b64 lib).quat q) ((RustFloat.rounding .b64 lib).vec c)⟩)
    (x : V3 (F64 lib)) (hx : ∀ a, Flt.Bounded (f := .b64) M (x a)) (Z : ℝ)
    (hZ : Z = homImage exact.extrinsics.matrix ((RustFloat.rounding .b64 lib).vec x) 2)
    (hZ1 : 1 / 10 ^ 9 * (1 + M) ≤ |Z|) (a : Fin 2) (b : Fin 3) :
    Flt.isFinite (f := .b64) ((JacobianPerspectiveCache.new cam).linearizeAt (.single x) a b) ∧
    |Flt.val (f := .b64) ((JacobianPerspectiveCache.new cam).linearizeAt (.single x) a b) -
      (JacobianPerspectiveCache.new exact).linearizeAt (.single ((RustFloat.rounding .b64 lib).vec x)) a b| ≤
      2 / 10 ^ 11 * F * (1 + M) ^ 2 / |Z| ^ 3 := by
  subst hcam hexact
  set fl := RustFloat.rounding .b64 lib with hfl
  have hM := h.nonneg
  have hF := h.one_le
  have ω0 : 0 ≤ fl.ω := fl.ω_nonneg
  have ω1 : fl.ω ≤ 1 / 10 ^ 40 := Format.ω_b64.trans (by norm_num)
  set X := Mat.mul3 (IntrinsicParametersPerspective.ofParams (fl.params p)).asIntrinsicsMatrix
        (fromRotationAndCamcenter (fl.quat q) (fl.vec c)).cache.qt with hX
  set m := Mat.mul3 (IntrinsicParametersPerspective.ofParams p).asIntrinsicsMatrix
        (fromRotationAndCamcenter q c).cache.qt with hm
  have hT0 : T ≠ 0 := by
    rw [← abs_pos]
    exact lt_of_lt_of_le (by positivity) h.away
  have hX23 : X 2 3 = T := by
    rw [hX, row2_real, h.depth]
    rfl
  have hZX : Z = homImage X (fl.vec x) 2 := by
    rw [hZ]
    simp only [homImage, Matrix.mulVec, dotProduct, Fin.sum_univ_four, Matrix.of_apply, Matrix.cons_val, hX, row2_real]
    rfl
  have hZ0 : Z ≠ 0 := by
    rw [← abs_pos]
    exact lt_of_lt_of_le (by positivity) hZ1
  have eX : (JacobianPerspectiveCache.new (Camera.mk (IntrinsicParametersPerspective.ofParams (fl.params p))
      (fromRotationAndCamcenter (fl.quat q) (fl.vec c)))).linearizeAt (.single (fl.vec x)) a b =
      X a.castSucc b.castSucc / Z - homImage X (fl.vec x) a.castSucc * X 2 b.castSucc / Z ^ 2 := by
    rw [hZX]
    refine linearizeAt_scaled hT0 (fun a b => ?_) _ (hZX ▸ hZ0) a b
    rw [jacobianCache_m, asCameraMatrix_apply, ← hX23]
  rw [eX]
  -- accuracy of the matrix before the division
  have hK : ∀ (a : Fin 3) j, fl.Comp 0 F ((IntrinsicParametersPerspective.ofParams p).asIntrinsicsMatrix a j)
      ((IntrinsicParametersPerspective.ofParams (fl.params p)).asIntrinsicsMatrix a j) := fun a j =>
    intrinsics_comp hF (h.params p.fx (by simp)).2 (h.params p.fy (by simp)).2 (h.params p.skew (by simp)).2
      (h.params p.cx (by simp)).2 (h.params p.cy (by simp)).2 a j
  have c2 := row2_comp (p := p) h.rotation_tight h.translation_tight
  have c2r : ∀ b : Fin 3, fl.Comp 10 1.01 (m 2 b.castSucc) (X 2 b.castSucc) := fun b =>
    (c2.1 b).mono le_rfl (by norm_num)
  have c2t : fl.Comp 10 (3.01 * M + 1 / 10 ^ 6) (m 2 3) (X 2 3) := c2.2
  have car : ∀ b : Fin 3, fl.Comp 10 (3.01 * F) (m a.castSucc b.castSucc) (X a.castSucc b.castSucc) := fun b =>
    (kr_comp h.rotation_tight a.castSucc (hK a.castSucc) b).mono le_rfl (by
      norm_num at ω1 ⊢
      linarith)
  have cat : fl.Comp 10 (9.1 * F * M + F / 10) (m a.castSucc 3) (X a.castSucc 3) :=
    (kt_comp h.translation_tight a.castSucc (hK a.castSucc)).mono le_rfl (by
      have hFM : 0 ≤ F * M := by positivity
      norm_num at ω1 ⊢
      nlinarith)
  have low := h.divisor_low.2
  have high := h.divisor_high
  rw [← hm, ← hfl] at low high
  have e : ∀ P : Mat 3 4 (F64 lib), (JacobianPerspectiveCache.mk P).linearizeAt (.single x) a b =
      -P 2 b.castSucc * Scalar.powi (P 2 0 * x 0 + P 2 1 * x 1 + P 2 2 * x 2 + P 2 3) (-2) *
      (P a.castSucc 0 * x 0 + P a.castSucc 1 * x 1 + P a.castSucc 2 * x 2 + P a.castSucc 3) +
      P a.castSucc b.castSucc / (P 2 0 * x 0 + P 2 1 * x 1 + P 2 2 * x 2 + P 2 3) := by
    intro P
    fin_cases a <;> fin_cases b <;> rfl
  have unf : JacobianPerspectiveCache.new (Camera.mk (IntrinsicParametersPerspective.ofParams p)
      (fromRotationAndCamcenter q c)) = ⟨Mat.divScalar (if Scalar.lt (m 0 0) 0 then Mat.neg m else m)
        ((if Scalar.lt (m 0 0) 0 then Mat.neg m else m) 2 3)⟩ := rfl
  rw [unf, e]
  rcases Bool.eq_false_or_eq_true (Scalar.lt (m 0 0) 0) with hs | hs
  · -- flipped
    simp only [hs, if_true]
    have hn : ∀ a b, InRange fl 49 (Mat.neg m a b) := fun a b => (h.kqt_range a b).neg (RustFloat.range .b64 lib)
    have hv : fl.val (Mat.neg m 2 3) = -fl.val (m 2 3) := (fl.neg (hn 2 3).1).2
    have homn : ∀ a, homImage (fun a b => -X a b) (fl.vec x) a = -homImage X (fl.vec x) a := by
      intro a
      simp only [homImage, Matrix.mulVec, dotProduct, Fin.sum_univ_four, Matrix.of_apply, Matrix.cons_val]
      ring
    have key := f64_jacobian (m := Mat.neg m) (X := fun a b => -X a b) hF hM h.scene a.castSucc
      (fun b => (c2r b).neg) c2t.neg (fun b => (car b).neg) cat.neg hn (-fl.val (m 2 3)) hv.symm
      (by rw [abs_neg]; exact low) (by rw [abs_neg]; exact high) x hx (-Z) (by rw [homn, ← hZX])
      (by rw [abs_neg]; exact hZ1) (Mat.divScalar (Mat.neg m) (Mat.neg m 2 3)) (fun _ _ => rfl) _ rfl b
    rw [abs_neg, homn] at key
    refine ⟨key.1, le_of_eq_of_le ?_ key.2⟩
    congr 2
    field_simp
  · simp only [hs, Bool.false_eq_true, if_false]
    exact f64_jacobian (m := m) (X := X) hF hM h.scene a.castSucc c2r c2t car cat h.kqt_range (fl.val (m 2 3)) rfl
      low high x hx Z hZX hZ1 (Mat.divScalar m (m 2 3)) (fun _ _ => rfl) _ rfl b

/-- Focal lengths 5 and 7, skew 1, principal point (3, 2), no rotation, centre (0, 0, 8). -/
theorem sample_matrixRange : MatrixRange (lib := lib) ⟨digit lib 5, digit lib 7, digit lib 1, digit lib 3, digit lib 2⟩
    ⟨digit lib 1, digit lib 0, digit lib 0, digit lib 0⟩ ![digit lib 0, digit lib 0, digit lib 8] 7 9 (-8) := by
  have b : ∀ (k : Fin 10) {B : ℝ}, ((k : ℕ) : ℝ) ≤ B → Flt.Bounded (f := .b64) B (digit lib k) := fun k B hk =>
    ⟨trivial, by rw [val_digit lib, abs_of_nonneg (Nat.cast_nonneg _)]; exact hk⟩
  have v0 : (RustFloat.rounding .b64 lib).val (digit lib 0) = 0 := (val_digit lib _).trans (by norm_num)
  have v1 : (RustFloat.rounding .b64 lib).val (digit lib 1) = 1 := (val_digit lib _).trans (by norm_num)
  have v8 : (RustFloat.rounding .b64 lib).val (digit lib 8) = 8 := (val_digit lib _).trans (by norm_num)
  refine ⟨by norm_num, by norm_num, by norm_num, by norm_num, ?_, ⟨trivial, trivial, trivial, trivial, ?_⟩, ?_, ?_,
    by norm_num⟩
  · intro y hy
    simp only [List.mem_cons, List.not_mem_nil, or_false] at hy
    rcases hy with rfl | rfl | rfl | rfl | rfl <;> exact b _ (by norm_num)
  · show |(RustFloat.rounding .b64 lib).val (digit lib 1) ^ 2 + (RustFloat.rounding .b64 lib).val (digit lib 0) ^ 2 +
      (RustFloat.rounding .b64 lib).val (digit lib 0) ^ 2 + (RustFloat.rounding .b64 lib).val (digit lib 0) ^ 2 - 1| ≤ _
    rw [v1, v0]
    norm_num
  · intro a
    fin_cases a <;> exact b _ (by norm_num)
  · simp [fromRotationAndCamcenter, ExtrinsicParameters.translation, Rounding.quat, Rounding.vec, v0, v1, v8,
      Quat.toRotationMatrix, V3.neg, Mat.mulVec3]

/-- Non-vacuity of C87: the derivative at the point (3, 2, 9), which has depth 1. -/
example (cam : Camera (F64 lib) (IntrinsicParametersPerspective (F64 lib)))
    (hcam : cam = ⟨.ofParams ⟨digit lib 5, digit lib 7, digit lib 1, digit lib 3, digit lib 2⟩,
      fromRotationAndCamcenter ⟨digit lib 1, digit lib 0, digit lib 0, digit lib 0⟩
        ![digit lib 0, digit lib 0, digit lib 8]⟩) (a : Fin 2) (b : Fin 3) :
    Flt.isFinite (f := .b64) ((JacobianPerspectiveCache.new cam).linearizeAt
      (.single ![digit lib 3, digit lib 2, digit lib 9]) a b) := by
  have v : ∀ k, (RustFloat.rounding .b64 lib).val (digit lib k) = (k : ℕ) := val_digit lib
  refine (c87_f64_linearize sample_matrixRange cam hcam _ rfl _ (fun a => ?_) 1 ?_ (by norm_num) a b).1
  · have bd : ∀ (k : Fin 10), Flt.Bounded (f := .b64) 9 (digit lib k) := fun k =>
      ⟨trivial, by
        rw [val_digit lib, abs_of_nonneg (Nat.cast_nonneg _)]
        exact_mod_cast Nat.le_of_lt_succ k.isLt⟩
    fin_cases a <;> exact bd _
  · simp [homImage, Matrix.mulVec, dotProduct, Fin.sum_univ_four, fromRotationAndCamcenter,
      ExtrinsicParameters.matrix, Rounding.quat, Rounding.vec, v, Quat.toRotationMatrix, V3.neg, Mat.mulVec3]
    norm_num

end F64

end CamGeom
