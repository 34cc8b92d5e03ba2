import Verif.Lemmas.FloatTolerance
import Verif.Props.CameraMatrix

/-!
# C90: which camera matrices `from_normalized_3x4_matrix` accepts in `f32` and `f64`, and what the tolerance costs

The tolerance is the scalar type's `EPSILON = 2^(1-p)`.
-/

namespace CamGeom

open Spec

/-- Within `e` of `x`; infinities and NaN are not. -/
def Flt.Within {f : Format} (e : ℝ) (a : Flt f) (x : ℝ) : Prop := a.isFinite ∧ |a.val - x| ≤ e

/-- The last column, the last row and the entry below the first are those of `[K | 0]`, up to `e`. -/
def NormalizedUpTo {f : Format} (e : ℝ) (p : Mat 3 4 (Flt f)) : Prop :=
  (p 0 3).Within e 0 ∧ (p 1 0).Within e 0 ∧ (p 1 3).Within e 0 ∧ (p 2 0).Within e 0 ∧ (p 2 1).Within e 0 ∧
    (p 2 2).Within e 1 ∧ (p 2 3).Within e 0

variable {f : Format} {lib : Libm f}

/-- C90, any floating-point format: a matrix is accepted exactly if the seven entries are finite and within
`EPSILON = 2^(1-p)` of `0, 0, 0, 0, 0, 1, 0`; everything else is `InvalidInput`. -/
theorem c90_accepted_iff {eps : RustFloat f lib} (he : Flt.isFinite (f := f) eps)
    (hv : Flt.val (f := f) eps = 2 ^ (1 - (f.p : ℤ))) (p : Mat 3 4 (RustFloat f lib)) :
    ((∃ c, IntrinsicParametersPerspective.fromNormalized3x4Matrix eps p = .ok c) ↔
      NormalizedUpTo (f := f) (2 ^ (1 - (f.p : ℤ))) p) ∧
    (¬ NormalizedUpTo (f := f) (2 ^ (1 - (f.p : ℤ))) p →
      IntrinsicParametersPerspective.fromNormalized3x4Matrix eps p = .error .invalidInput) := by
  have key : (∃ c, IntrinsicParametersPerspective.fromNormalized3x4Matrix eps p = .ok c) ↔
      NormalizedUpTo (f := f) (2 ^ (1 - (f.p : ℤ))) p := by
    have hz := fun a : RustFloat f lib => relativeNe_zero (lib := lib) (a := a) he hv
    have ho := fun a : RustFloat f lib => relativeNe_one (lib := lib) (a := a) he hv
    have e : NormalizedUpTo (f := f) (2 ^ (1 - (f.p : ℤ))) p ↔
        relativeNe eps (p 0 3) (Scalar.lit 0) = false ∧ relativeNe eps (p 1 0) (Scalar.lit 0) = false ∧
        relativeNe eps (p 1 3) (Scalar.lit 0) = false ∧ relativeNe eps (p 2 0) (Scalar.lit 0) = false ∧
        relativeNe eps (p 2 1) (Scalar.lit 0) = false ∧ relativeNe eps (p 2 2) (Scalar.lit 1) = false ∧
        relativeNe eps (p 2 3) (Scalar.lit 0) = false := by
      rw [hz, hz, hz, hz, hz, hz, ho]
      simp only [NormalizedUpTo, Flt.Within, sub_zero, Format.eps]
    rw [e]
    unfold IntrinsicParametersPerspective.fromNormalized3x4Matrix
    rcases relativeNe eps (p 0 3) (Scalar.lit 0) <;> rcases relativeNe eps (p 1 0) (Scalar.lit 0) <;>
      rcases relativeNe eps (p 1 3) (Scalar.lit 0) <;> rcases relativeNe eps (p 2 0) (Scalar.lit 0) <;>
      rcases relativeNe eps (p 2 1) (Scalar.lit 0) <;> rcases relativeNe eps (p 2 2) (Scalar.lit 1) <;>
      rcases relativeNe eps (p 2 3) (Scalar.lit 0) <;>
      simp [bind, Except.bind, throw, throwThe, MonadExceptOf.throw, pure, Except.pure]
  refine ⟨key, fun h => ?_⟩
  rcases c19_result eps p with h1 | ⟨c, h1, -⟩
  · exact h1
  · exact absurd (key.1 ⟨c, h1⟩) h

/-- `f64::EPSILON`. -/
theorem eps_f64 (lib : Libm Format.b64) :
    Flt.isFinite (f := Format.b64) (Scalar.lit (1 / 4503599627370496) : F64 lib) ∧
      Flt.val (f := Format.b64) (Scalar.lit (1 / 4503599627370496) : F64 lib) = 2 ^ (1 - (Format.b64.p : ℤ)) := by
  have hm : Format.b64.Mag |1 / 4503599627370496| := by
    rw [abs_of_pos (by norm_num)]
    refine ⟨?_, 1, -52, by norm_num [Format.b64], by norm_num [Format.emin, Format.b64], by norm_num⟩
    exact (by norm_num : (1 : ℝ) / 4503599627370496 < 2 ^ (0 : ℤ)).trans_le
      (zpow_le_zpow_right₀ (by norm_num) (by norm_num [Format.b64]))
  have h := Flt.ofF64_exact hm hm
  have e : (Scalar.lit (1 / 4503599627370496) : F64 lib) = Flt.ofF64 Format.b64 (1 / 4503599627370496) := by
    show Flt.ofF64 Format.b64 ((1 / 4503599627370496 : ℚ) : ℝ) = _
    norm_num
  rw [e]
  exact ⟨h.1, h.2.trans (by norm_num [Format.b64])⟩

/-- `f32::EPSILON`. -/
theorem eps_f32 (lib : Libm Format.b32) :
    Flt.isFinite (f := Format.b32) (Scalar.lit (1 / 8388608) : F32 lib) ∧
      Flt.val (f := Format.b32) (Scalar.lit (1 / 8388608) : F32 lib) = 2 ^ (1 - (Format.b32.p : ℤ)) := by
  have hm : Format.b32.Mag |1 / 8388608| := by
    rw [abs_of_pos (by norm_num)]
    refine ⟨?_, 1, -23, by norm_num [Format.b32], by norm_num [Format.emin, Format.b32], by norm_num⟩
    exact (by norm_num : (1 : ℝ) / 8388608 < 2 ^ (0 : ℤ)).trans_le
      (zpow_le_zpow_right₀ (by norm_num) (by norm_num [Format.b32]))
  have h := Flt.ofF64_exact (Format.sub64_b32.mag hm) hm
  have e : (Scalar.lit (1 / 8388608) : F32 lib) = Flt.ofF64 Format.b32 (1 / 8388608) := by
    show Flt.ofF64 Format.b32 ((1 / 8388608 : ℚ) : ℝ) = _
    norm_num
  rw [e]
  exact ⟨h.1, h.2.trans (by norm_num [Format.b32])⟩

/-- C90 in `f64`, with `f64::EPSILON = 2^-52`. -/
theorem c90_f64 (lib : Libm Format.b64) (p : Mat 3 4 (F64 lib)) :
    ((∃ c, IntrinsicParametersPerspective.fromNormalized3x4Matrix (Scalar.lit (1 / 4503599627370496)) p = .ok c) ↔
      NormalizedUpTo (f := Format.b64) (1 / 2 ^ 52) p) ∧
    (¬ NormalizedUpTo (f := Format.b64) (1 / 2 ^ 52) p →
      IntrinsicParametersPerspective.fromNormalized3x4Matrix (Scalar.lit (1 / 4503599627370496)) p =
        .error .invalidInput) := by
  have h := c90_accepted_iff (eps_f64 lib).1 (eps_f64 lib).2 p
  have e : (2 : ℝ) ^ (1 - (Format.b64.p : ℤ)) = 1 / 2 ^ 52 := by norm_num [Format.b64]
  rwa [e] at h

/-- C90 in `f32`, with `f32::EPSILON = 2^-23`. -/
theorem c90_f32 (lib : Libm Format.b32) (p : Mat 3 4 (F32 lib)) :
    ((∃ c, IntrinsicParametersPerspective.fromNormalized3x4Matrix (Scalar.lit (1 / 8388608)) p = .ok c) ↔
      NormalizedUpTo (f := Format.b32) (1 / 2 ^ 23) p) ∧
    (¬ NormalizedUpTo (f := Format.b32) (1 / 2 ^ 23) p →
      IntrinsicParametersPerspective.fromNormalized3x4Matrix (Scalar.lit (1 / 8388608)) p =
        .error .invalidInput) := by
  have h := c90_accepted_iff (eps_f32 lib).1 (eps_f32 lib).2 p
  have e : (2 : ℝ) ^ (1 - (Format.b32.p : ℤ)) = 1 / 2 ^ 23 := by norm_num [Format.b32]
  rwa [e] at h

/-- A quotient after small changes of numerator and denominator. -/
theorem quotient_change {N z t d η : ℝ} (hz : z ≠ 0) (ht : |t| ≤ η) (hd : |d| ≤ η) (hη : η ≤ 1 / 2) :
    |(N + t * z) / (z * (1 + d)) - N / z| ≤ 2 * η * (1 + |N / z|) := by
  have h1 : 1 / 2 ≤ 1 + d := by linarith [neg_abs_le d]
  have h0 : 0 ≤ η := (abs_nonneg _).trans ht
  have e : (N + t * z) / (z * (1 + d)) - N / z = (t - N / z * d) / (1 + d) := by
    have : 1 + d ≠ 0 := by linarith
    field_simp
    ring
  rw [e, abs_div, abs_of_pos (show 0 < 1 + d by linarith), div_le_iff₀ (by linarith)]
  have h2 : |t - N / z * d| ≤ η + |N / z| * η := by
    refine (abs_sub _ _).trans (add_le_add ht ?_)
    rw [abs_mul]
    exact mul_le_mul_of_nonneg_left hd (abs_nonneg _)
  have h3 : 0 ≤ 2 * η * (1 + |N / z|) := by positivity
  nlinarith

/-- The matrix acts on a point like the camera built from it, up to the tolerance: with
`η = ε (|x/z| + |y/z| + 1 + 1/|z|) ≤ 1/2` the two pixels differ by at most `2 η (1 + |pixel|)`. -/
theorem c90_projection (ε : ℝ) (p : Mat 3 4 ℝ)
    (hp : |p 0 3| ≤ ε ∧ |p 1 0| ≤ ε ∧ |p 1 3| ≤ ε ∧ |p 2 0| ≤ ε ∧ |p 2 1| ≤ ε ∧ |p 2 2 - 1| ≤ ε ∧ |p 2 3| ≤ ε)
    {tol : ℝ} {c : IntrinsicParametersPerspective ℝ}
    (hc : IntrinsicParametersPerspective.fromNormalized3x4Matrix tol p = .ok c) {n : ℕ}
    (w : Points CameraFrame ℝ n) (i : Fin n) (hz : w.data i 2 ≠ 0)
    (hη : ε * (|w.data i 0 / w.data i 2| + |w.data i 1 / w.data i 2| + 1 + 1 / |w.data i 2|) ≤ 1 / 2) (a : Fin 2) :
    |homProject p (w.data i) a - (c.cameraToPixel w).data i a| ≤
      2 * (ε * (|w.data i 0 / w.data i 2| + |w.data i 1 / w.data i 2| + 1 + 1 / |w.data i 2|)) *
        (1 + |(c.cameraToPixel w).data i a|) := by
  obtain ⟨h03, h10, h13, h20, h21, h22, h23⟩ := hp
  have hcc : c = .ofParams ⟨p 0 0, p 1 1, p 0 1, p 0 2, p 1 2⟩ := by
    unfold IntrinsicParametersPerspective.fromNormalized3x4Matrix at hc
    revert hc
    rcases relativeNe tol (p 0 3) (Scalar.lit 0) <;> rcases relativeNe tol (p 1 0) (Scalar.lit 0) <;>
      rcases relativeNe tol (p 1 3) (Scalar.lit 0) <;>
      rcases relativeNe tol (p 2 0) (Scalar.lit 0) <;>
      rcases relativeNe tol (p 2 1) (Scalar.lit 0) <;>
      rcases relativeNe tol (p 2 2) (Scalar.lit 1) <;>
      rcases relativeNe tol (p 2 3) (Scalar.lit 0) <;>
      simp [bind, Except.bind, throw, throwThe, MonadExceptOf.throw, pure, Except.pure, eq_comm]
  rw [hcc, c11_pinhole _ _ _ hz]
  clear hc hcc
  set x := w.data i 0 with hx
  set y := w.data i 1 with hy
  set z := w.data i 2 with hzz
  have hε : 0 ≤ ε := (abs_nonneg _).trans h03
  have hX := abs_nonneg (x / z)
  have hY := abs_nonneg (y / z)
  have hi : 0 ≤ 1 / |z| := by positivity
  have hz1 : |1 / z| = 1 / |z| := by rw [abs_div, abs_one]
  have m : ∀ {s t : ℝ}, |s| ≤ ε → |s * t| ≤ ε * |t| := fun h => by
    rw [abs_mul]
    exact mul_le_mul_of_nonneg_right h (abs_nonneg _)
  have hd : |p 2 0 * (x / z) + p 2 1 * (y / z) + (p 2 2 - 1) + p 2 3 * (1 / z)| ≤
      ε * (|x / z| + |y / z| + 1 + 1 / |z|) := by
    have h3 : |p 2 3 * (1 / z)| ≤ ε * (1 / |z|) := hz1 ▸ m h23
    calc _ ≤ |p 2 0 * (x / z)| + |p 2 1 * (y / z)| + |p 2 2 - 1| + |p 2 3 * (1 / z)| :=
          (abs_add_le _ _).trans (add_le_add ((abs_add_le _ _).trans (add_le_add (abs_add_le _ _) le_rfl)) le_rfl)
      _ ≤ ε * |x / z| + ε * |y / z| + ε + ε * (1 / |z|) := by
          linarith [m h20 (t := x / z), m h21 (t := y / z)]
      _ = _ := by ring
  have hden : p 2 0 * x + p 2 1 * y + p 2 2 * z + p 2 3 =
      z * (1 + (p 2 0 * (x / z) + p 2 1 * (y / z) + (p 2 2 - 1) + p 2 3 * (1 / z))) := by
    field_simp
    ring
  have hu : homProject p (w.data i) 0 = (p 0 0 * x + p 0 1 * y + p 0 2 * z + p 0 3) /
      (p 2 0 * x + p 2 1 * y + p 2 2 * z + p 2 3) := by
    simp [homProject, homImage, Matrix.mulVec, dotProduct, Fin.sum_univ_four, hx, hy, hzz]
  have hv : homProject p (w.data i) 1 = (p 1 0 * x + p 1 1 * y + p 1 2 * z + p 1 3) /
      (p 2 0 * x + p 2 1 * y + p 2 2 * z + p 2 3) := by
    simp [homProject, homImage, Matrix.mulVec, dotProduct, Fin.sum_univ_four, hx, hy, hzz]
  fin_cases a
  · have ht : |p 0 3 * (1 / z)| ≤ ε * (|x / z| + |y / z| + 1 + 1 / |z|) := by
      refine (m h03).trans (mul_le_mul_of_nonneg_left ?_ hε)
      rw [hz1]
      linarith
    have h := quotient_change (N := p 0 0 * x + p 0 1 * y + p 0 2 * z) hz ht hd hη
    rw [← hden] at h
    have e1 : p 0 0 * x + p 0 1 * y + p 0 2 * z + p 0 3 * (1 / z) * z =
        p 0 0 * x + p 0 1 * y + p 0 2 * z + p 0 3 := by field_simp
    have e2 : (p 0 0 * x + p 0 1 * y + p 0 2 * z) / z =
        pinhole (p 0 0) (p 1 1) (p 0 1) (p 0 2) (p 1 2) (w.data i) 0 := by
      simp [pinhole, ← hx, ← hy, ← hzz]
      field_simp
    rw [e1, e2, ← hu] at h
    exact h
  · have ht : |p 1 0 * (x / z) + p 1 3 * (1 / z)| ≤ ε * (|x / z| + |y / z| + 1 + 1 / |z|) := by
      refine (abs_add_le _ _).trans ((add_le_add (m h10) (m h13)).trans ?_)
      rw [hz1, ← mul_add]
      refine mul_le_mul_of_nonneg_left ?_ hε
      linarith
    have h := quotient_change (N := p 1 1 * y + p 1 2 * z) hz ht hd hη
    rw [← hden] at h
    have e1 : p 1 1 * y + p 1 2 * z + (p 1 0 * (x / z) + p 1 3 * (1 / z)) * z =
        p 1 0 * x + p 1 1 * y + p 1 2 * z + p 1 3 := by
      field_simp
      ring
    have e2 : (p 1 1 * y + p 1 2 * z) / z =
        pinhole (p 0 0) (p 1 1) (p 0 1) (p 0 2) (p 1 2) (w.data i) 1 := by
      simp [pinhole, ← hx, ← hy, ← hzz]
      field_simp
    rw [e1, e2, ← hv] at h
    exact h

/-- Non-vacuity: an `f64` matrix accepted although no entry of the seven is exact in general: here `2^-52` in the last
column, and NaN as a focal length is not looked at; a matrix with NaN in the last row is rejected. -/
example (lib : Libm Format.b64) :
    let one : F64 lib := Scalar.lit 1
    let o : F64 lib := Scalar.lit 0
    let e : F64 lib := Scalar.lit (1 / 4503599627370496)
    let n : F64 lib := (Flt.nan : Flt Format.b64)
    NormalizedUpTo (f := Format.b64) (1 / 2 ^ 52) ![![n, o, one, e], ![e, one, one, o], ![o, e, one, o]] ∧
    ¬ NormalizedUpTo (f := Format.b64) (1 / 2 ^ 52) ![![one, o, one, o], ![o, one, one, o], ![o, o, one, n]] := by
  intro one o e n
  have h0 := Flt.ofF64_nat (f := Format.b64) (n := 0) (by norm_num)
  have h1 := Flt.ofF64_nat (f := Format.b64) (n := 1) (by norm_num)
  have e0 : o = Flt.ofF64 Format.b64 (0 : ℕ) := by
    show Flt.ofF64 Format.b64 ((0 : ℚ) : ℝ) = _
    norm_num
  have e1 : one = Flt.ofF64 Format.b64 (1 : ℕ) := by
    show Flt.ofF64 Format.b64 ((1 : ℚ) : ℝ) = _
    norm_num
  have a0 : Flt.Within (f := Format.b64) (1 / 2 ^ 52) o 0 := by
    rw [e0]
    exact ⟨h0.1, by rw [h0.2]; norm_num⟩
  have a1 : Flt.Within (f := Format.b64) (1 / 2 ^ 52) one 1 := by
    rw [e1]
    exact ⟨h1.1, by rw [h1.2]; norm_num⟩
  have ae : Flt.Within (f := Format.b64) (1 / 2 ^ 52) e 0 := by
    refine ⟨(eps_f64 lib).1, ?_⟩
    rw [(eps_f64 lib).2]
    norm_num [Format.b64]
  exact ⟨⟨ae, ae, a0, a0, ae, a1, a0⟩, fun h => h.2.2.2.2.2.2.1⟩

/-- Non-vacuity of the bound: an accepted matrix with a defect of `1/1000`. -/
example : ∃ c, IntrinsicParametersPerspective.fromNormalized3x4Matrix (1 / 1000 : ℝ)
      ![![100, 3, 640, 1 / 2000], ![0, 100, 480, 0], ![0, 0, 1, 0]] = .ok c ∧
    |homProject ![![100, 3, 640, 1 / 2000], ![0, 100, 480, 0], ![0, 0, 1, 0]] ![1, 2, 4] 0 -
      (c.cameraToPixel (n := 1) ⟨![![1, 2, 4]]⟩).data 0 0| ≤
      2 * (1 / 1000 * (|1 / 4| + |2 / 4| + 1 + 1 / |4|)) *
        (1 + |(c.cameraToPixel (n := 1) ⟨![![1, 2, 4]]⟩).data 0 0|) := by
  obtain ⟨c, hc⟩ := (c19_ok_iff (by norm_num) (by norm_num) _).2
    (show Normalized (1 / 1000) ![![100, 3, 640, 1 / 2000], ![0, 100, 480, 0], ![0, 0, 1, 0]] by
      refine ⟨?_, ?_, ?_, ?_, ?_, ?_, ?_⟩ <;> (simp; try norm_num [abs_of_pos]))
  exact ⟨c, hc, c90_projection (1 / 1000) ![![100, 3, 640, 1 / 2000], ![0, 100, 480, 0], ![0, 0, 1, 0]]
    (by simp; norm_num [abs_of_pos]) hc ⟨![![1, 2, 4]]⟩ 0 (by simp) (by simp; norm_num [abs_of_pos]) 0⟩

end CamGeom
