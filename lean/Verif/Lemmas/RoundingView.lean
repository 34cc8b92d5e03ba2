import Verif.Spec.RoundingView
import Verif.Lemmas.RoundingRays
import Verif.Lemmas.RoundingPinv
import Verif.Lemmas.RotationToQuat

/-!
# Rounding errors of nalgebra's rotation-matrix-to-quaternion conversion and of normalization
-/

namespace CamGeom
open Spec Matrix Rounding

section basics
variable {R : Type} [Scalar R] {fl : Rounding R}

/-- A rounded difference of approximate terms. -/
theorem sub_near {x y : R} {X Y a b A : ℝ} (hf : fl.isFinite (x - y)) (hx : |fl.val x - X| ≤ a)
    (hy : |fl.val y - Y| ≤ b) (hXY : |X - Y| ≤ A) :
    |fl.val (x - y) - (X - Y)| ≤ a + b + fl.u * (A + a + b) := by
  have hu := fl.u_nonneg
  have h1 := (fl.sub hf).2.2
  have h2 : |fl.val x - fl.val y - (X - Y)| ≤ a + b := by
    rw [show fl.val x - fl.val y - (X - Y) = (fl.val x - X) - (fl.val y - Y) by ring]
    exact (abs_sub _ _).trans (add_le_add hx hy)
  have h3 : |fl.val x - fl.val y| ≤ A + a + b := by
    have := abs_add_le (fl.val x - fl.val y - (X - Y)) (X - Y)
    rw [sub_add_cancel] at this; linarith
  have h4 := abs_add_le (fl.val (x - y) - (fl.val x - fl.val y)) (fl.val x - fl.val y - (X - Y))
  rw [sub_add_sub_cancel] at h4
  have h5 : fl.u * |fl.val x - fl.val y| ≤ fl.u * (A + a + b) := by gcongr
  linarith

/-- Nearby vectors have nearby unit vectors. -/
theorem normalize_perturb {v w : Vec} {e : ℝ} (hv : v ≠ 0) (hw : w ≠ 0) (h : ∀ a, |v a - w a| ≤ e)
    (a : Fin 3) : |V3.normalize v a - V3.normalize w a| ≤ 3 * e / len w := by
  have hvp := len_pos.2 hv
  have hwp := len_pos.2 hw
  have h1 : len (v - w) ≤ 2 * e := len_le_entries h
  have h2 : |len w - len v| ≤ len (v - w) := by
    have e1 := len_add_le (v - w) w
    have e2 := len_add_le (w - v) v
    rw [sub_add_cancel] at e1 e2
    have e3 : len (w - v) = len (v - w) := by
      have : w - v = (-1 : ℝ) • (v - w) := by simp
      rw [this, len_smul]; simp
    rw [e3] at e2
    exact abs_le.2 ⟨by linarith, by linarith⟩
  rw [normalize_eq, normalize_eq, Pi.smul_apply, Pi.smul_apply, smul_eq_mul, smul_eq_mul,
    le_div_iff₀ hwp]
  have e1 : ((len v)⁻¹ * v a - (len w)⁻¹ * w a) * len w =
      (v a - w a) + v a / len v * (len w - len v) := by field_simp; ring
  have h3 : |v a / len v| ≤ 1 := by
    rw [abs_div, abs_of_pos hvp, div_le_one hvp]; exact abs_coord_le v a
  calc _ = |((len v)⁻¹ * v a - (len w)⁻¹ * w a) * len w| := by rw [abs_mul, abs_of_pos hwp]
    _ ≤ |v a - w a| + |v a / len v| * |len w - len v| := by
      rw [e1, ← abs_mul]; exact abs_add_le _ _
    _ ≤ e + 1 * (2 * e) := add_le_add (h a) (mul_le_mul h3 (h2.trans h1) (abs_nonneg _) zero_le_one)
    _ = 3 * e := by ring

/-- The denominator of Shepperd's method. -/
theorem denom_near (m : RoundingMore fl) {v : R} {T δ : ℝ} (hu : 800 * fl.u ≤ δ) (hδ : δ ≤ 1 / 200)
    (hω : fl.ω ≤ 1) (hv : |fl.val v - T| ≤ 31 / 10 * δ) (hT : 3 / 10 ≤ T) (hT4 : T ≤ 4)
    (hf : fl.isFinite (Scalar.sqrt v * Scalar.lit 2)) :
    |fl.val (Scalar.sqrt v * Scalar.lit 2) - Real.sqrt T * 2| ≤ 116 / 10 * δ := by
  have hu0 := fl.u_nonneg
  have hδ0 : 0 ≤ δ := by linarith
  obtain ⟨hs, -, h1⟩ := fl.mul hf
  obtain ⟨-, hv0, h2⟩ := m.sqrt hs
  rw [fl.lit_two.2] at h1
  set S := Real.sqrt T with hS
  have hS1 : 54 / 100 ≤ S := by
    rw [hS]; apply Real.le_sqrt_of_sq_le; norm_num; linarith
  have hS2 : S ≤ 2 := by
    rw [hS]; apply Real.sqrt_le_iff.2; constructor <;> norm_num; linarith
  have hSS : S ^ 2 = T := Real.sq_sqrt (by linarith)
  set t := Real.sqrt (fl.val v) with ht
  have ht0 : 0 ≤ t := Real.sqrt_nonneg _
  have htt : t ^ 2 = fl.val v := Real.sq_sqrt hv0
  have h3 : |t - S| ≤ 575 / 100 * δ := by
    have h4 : |t - S| * (54 / 100) ≤ 31 / 10 * δ := by
      calc |t - S| * (54 / 100) ≤ |t - S| * (t + S) := by gcongr; linarith
        _ = |t ^ 2 - S ^ 2| := by
          rw [← abs_of_nonneg (show 0 ≤ t + S by linarith), ← abs_mul]; ring_nf
        _ ≤ _ := by rw [htt, hSS]; exact hv
    linarith
  have ht2 : t ≤ 21 / 10 := by linarith [(abs_le.1 h3).2]
  set r := fl.val (Scalar.sqrt v) with hr
  have h5 : |r - t| ≤ 3 / 1000 * δ := by
    refine h2.trans ?_
    calc fl.u * t ≤ fl.u * (21 / 10) := by gcongr
      _ ≤ _ := by linarith
  have h6 : |r - S| ≤ 5753 / 1000 * δ := by
    have := abs_add_le (r - t) (t - S)
    rw [sub_add_sub_cancel] at this; linarith
  have h7 : |r * 2| ≤ 5 := by
    rw [abs_mul, abs_two]
    have := abs_add_le (r - S) S
    rw [sub_add_cancel, abs_of_nonneg (by linarith : (0 : ℝ) ≤ S)] at this
    linarith
  have h8 : fl.u * (|r * 2| + fl.ω) ≤ fl.u * 6 := by gcongr; linarith
  have h9 := abs_add_le (fl.val (Scalar.sqrt v * Scalar.lit 2) - r * 2) (r * 2 - S * 2)
  rw [sub_add_sub_cancel, ← sub_mul, abs_mul (r - S), abs_two] at h9
  linarith

/-- A component `n / denom`. -/
theorem quot_near {d n : R} {D N δ : ℝ} (hu : 800 * fl.u ≤ δ) (hδ : δ ≤ 1 / 200)
    (hω : fl.ω ≤ 1) (hd : |fl.val d - D| ≤ 116 / 10 * δ) (hD : 108 / 100 ≤ D)
    (hn : |fl.val n - N| ≤ 21 / 10 * δ) (hN : |N / D| ≤ 1) (hfd : fl.isFinite d)
    (hf : fl.isFinite (n / d)) : |fl.val (n / d) - N / D| ≤ 14 * δ := by
  have hu0 := fl.u_nonneg
  obtain ⟨hd0, h1⟩ := (fl.div hf).2 hfd
  have hdp : 102 / 100 ≤ fl.val d := by linarith [(abs_le.1 hd).1]
  have hdp' : 0 < fl.val d := by linarith
  have h2 : |fl.val n / fl.val d - N / D| ≤ 1345 / 100 * δ := by
    have e : fl.val n / fl.val d - N / D =
        ((fl.val n - N) - N / D * (fl.val d - D)) / fl.val d := by
      have : D ≠ 0 := by linarith
      field_simp; ring
    rw [e, abs_div, abs_of_pos hdp', div_le_iff₀ hdp']
    have h3 : |(fl.val n - N) - N / D * (fl.val d - D)| ≤ 21 / 10 * δ + 1 * (116 / 10 * δ) := by
      refine (abs_sub _ _).trans (add_le_add hn ?_)
      rw [abs_mul]
      exact mul_le_mul hN hd (abs_nonneg _) zero_le_one
    have h4 : 1345 / 100 * δ * (102 / 100) ≤ 1345 / 100 * δ * fl.val d :=
      mul_le_mul_of_nonneg_left hdp (by linarith)
    linarith
  have h3 : |fl.val n / fl.val d| ≤ 2 := by
    have := abs_add_le (fl.val n / fl.val d - N / D) (N / D)
    rw [sub_add_cancel] at this; linarith
  have h4 : fl.u * (|fl.val n / fl.val d| + fl.ω) ≤ fl.u * 3 := by gcongr; linarith
  have h5 := abs_add_le (fl.val (n / d) - fl.val n / fl.val d) (fl.val n / fl.val d - N / D)
  rw [sub_add_sub_cancel] at h5
  linarith

/-- The component `denom / 4`. -/
theorem quarter_near (hquarter : fl.QuarterExact) {d : R} {D δ : ℝ} (hu : 800 * fl.u ≤ δ) (hδ : δ ≤ 1 / 200)
    (hω : fl.ω ≤ 1) (hd : |fl.val d - D| ≤ 116 / 10 * δ) (hD0 : 0 ≤ D) (hD : D ≤ 4)
    (hf : fl.isFinite (Scalar.lit (1 / 4) * d)) :
    |fl.val (Scalar.lit (1 / 4) * d) - 1 / 4 * D| ≤ 14 * δ := by
  have hu0 := fl.u_nonneg
  have h := mul_near (fl := fl) (X := 1 / 4) (Y := D) (a := 0) (A := 1 / 4) (B := 4) hf
    (by rw [hquarter.2]; simp) hd (by rw [abs_of_pos (by norm_num)])
    (by rw [abs_of_nonneg hD0]; exact hD)
  refine h.trans ?_
  have : fl.u * ((1 / 4 + 0) * (4 + 116 / 10 * δ) + fl.ω) ≤ fl.u * 3 := by
    gcongr; linarith
  linarith

theorem rot_entry {m : Mat 3 3 ℝ} (h : IsRotation m) (a b : Fin 3) : |m a b| ≤ 1 := by
  obtain ⟨c00, c11, c22, -⟩ := rotEqs h
  refine abs_le_of_sq_le_sq ?_ zero_le_one
  rw [one_pow, sq]
  have n := fun a b => mul_self_nonneg (m a b)
  fin_cases b
  · fin_cases a <;> dsimp only [Fin.zero_eta, Fin.mk_one, Fin.reduceFinMk] <;>
      linarith [n 0 0, n 1 0, n 2 0]
  · fin_cases a <;> dsimp only [Fin.zero_eta, Fin.mk_one, Fin.reduceFinMk] <;>
      linarith [n 0 1, n 1 1, n 2 1]
  · fin_cases a <;> dsimp only [Fin.zero_eta, Fin.mk_one, Fin.reduceFinMk] <;>
      linarith [n 0 2, n 1 2, n 2 2]

theorem rot_trace {m : Mat 3 3 ℝ} (h : IsRotation m) : -1 ≤ m 0 0 + m 1 1 + m 2 2 := by
  obtain ⟨h1, h2⟩ := shepperd_spec h
  set q := shepperd m
  rw [← h2]
  unfold UnitQuat at h1
  simp [Quat.toRotationMatrix]
  nlinarith [mul_self_nonneg q.w, mul_self_nonneg q.i, mul_self_nonneg q.j, mul_self_nonneg q.k]

/-- Componentwise distance of a computed quaternion from an exact one. -/
structure QNear (fl : Rounding R) (e : ℝ) (q : Quat R) (Q : Quat ℝ) : Prop where
  w : |fl.val q.w - Q.w| ≤ e
  i : |fl.val q.i - Q.i| ≤ e
  j : |fl.val q.j - Q.j| ≤ e
  k : |fl.val q.k - Q.k| ≤ e

/-- All components finite. -/
structure QFinite (fl : Rounding R) (q : Quat R) : Prop where
  w : fl.isFinite q.w
  i : fl.isFinite q.i
  j : fl.isFinite q.j
  k : fl.isFinite q.k

theorem unitQuat_abs {q : Quat ℝ} (h : UnitQuat q) : |q.w| ≤ 1 ∧ |q.i| ≤ 1 ∧ |q.j| ≤ 1 ∧ |q.k| ≤ 1 := by
  unfold UnitQuat at h
  refine ⟨?_, ?_, ?_, ?_⟩ <;> refine abs_le_of_sq_le_sq ?_ zero_le_one <;>
    nlinarith [sq_nonneg q.w, sq_nonneg q.i, sq_nonneg q.j, sq_nonneg q.k]

/-- The conversion of a matrix near a rotation matrix. -/
theorem shepperd_near (m : RoundingMore fl) (hquarter : fl.QuarterExact) (hbig : 4 ≤ m.big) {M : Mat 3 3 R}
    {T : Mat 3 3 ℝ} (hT : IsRotation T) {δ : ℝ} (hM : ∀ a b, |fl.val (M a b) - T a b| ≤ δ)
    (hu : 800 * fl.u ≤ δ) (hδ : δ ≤ 1 / 200) (hω : fl.ω ≤ 1) (hf : QFinite fl (shepperd M)) :
    ∃ Q, UnitQuat Q ∧ Q.toRotationMatrix = T ∧ QNear fl (14 * δ) (shepperd M) Q := by
  have hu0 := fl.u_nonneg
  have hδ0 : 0 ≤ δ := by linarith
  have huδ : fl.u * δ ≤ fl.u := by nlinarith
  have hE := rot_entry hT
  have htr := rot_trace hT
  have one : |fl.val (Scalar.lit 1) - 1| ≤ 0 := by rw [fl.lit_one.2]; simp
  -- sums and differences of two entries
  have hadd : ∀ a b c d, fl.isFinite (M a b + M c d) →
      |fl.val (M a b + M c d) - (T a b + T c d)| ≤ 21 / 10 * δ := fun a b c d h => by
    have := add_near (A := 2) h (hM a b) (hM c d)
      ((abs_add_le _ _).trans (by linarith [hE a b, hE c d]))
    linarith
  have hsub : ∀ a b c d, fl.isFinite (M a b - M c d) →
      |fl.val (M a b - M c d) - (T a b - T c d)| ≤ 21 / 10 * δ := fun a b c d h => by
    have := sub_near (A := 2) h (hM a b) (hM c d)
      ((abs_sub _ _).trans (by linarith [hE a b, hE c d]))
    linarith
  -- one plus a diagonal entry minus the others
  have hv : ∀ a b c, fl.isFinite (Scalar.lit 1 + M a a - M b b - M c c) →
      |fl.val (Scalar.lit 1 + M a a - M b b - M c c) - (1 + T a a - T b b - T c c)| ≤
        31 / 10 * δ := fun a b c h => by
    have h1 := (fl.sub h).1
    have h2 := (fl.sub h1).1
    have e1 := abs_le.1 (hE a a)
    have e2 := abs_le.1 (hE b b)
    have e3 := abs_le.1 (hE c c)
    have n1 := add_near (A := 2) h2 one (hM a a) (abs_le.2 ⟨by linarith, by linarith⟩)
    have n1' : |fl.val (Scalar.lit 1 + M a a) - (1 + T a a)| ≤ δ + 3 * fl.u := by linarith
    have n2 := sub_near (A := 3) h1 n1' (hM b b) (abs_le.2 ⟨by linarith, by linarith⟩)
    have n2' : |fl.val (Scalar.lit 1 + M a a - M b b) - (1 + T a a - T b b)| ≤ 2 * δ + 7 * fl.u := by
      refine n2.trans ?_
      have : fl.u * (3 + (δ + 3 * fl.u) + δ) ≤ fl.u * 4 := by gcongr; linarith
      linarith
    have n3 := sub_near (A := 4) h n2' (hM c c) (abs_le.2 ⟨by linarith, by linarith⟩)
    refine n3.trans ?_
    have : fl.u * (4 + (2 * δ + 7 * fl.u) + δ) ≤ fl.u * 5 := by gcongr; linarith
    linarith
  have sqrt_lb : ∀ {t : ℝ}, 3 / 10 ≤ t → 108 / 100 ≤ Real.sqrt t * 2 := fun {t} h => by
    have : 54 / 100 ≤ Real.sqrt t := by apply Real.le_sqrt_of_sq_le; norm_num; linarith
    linarith
  have sqrt_ub : ∀ {t : ℝ}, t ≤ 4 → Real.sqrt t * 2 ≤ 4 := fun {t} h => by
    have : Real.sqrt t ≤ 2 := by apply Real.sqrt_le_iff.2; constructor <;> norm_num; linarith
    linarith
  have c := fun a => abs_le.1 (hE a a)
  unfold shepperd at hf ⊢
  dsimp only at hf ⊢
  by_cases h1 : Scalar.lt 0 (M 0 0 + M 1 1 + M 2 2) = true
  · rw [if_pos h1] at hf ⊢
    obtain ⟨f1, f2, f3, f4⟩ := hf
    dsimp only at f1 f2 f3 f4
    have fd := (fl.mul f1).2.1
    have fs := (m.sqrt (fl.mul fd).1).1
    have ft := (fl.add fs).1
    have ft2 := (fl.add ft).1
    have n1 := add_near (A := 2) ft2 (hM 0 0) (hM 1 1)
      (abs_le.2 ⟨by linarith [(c 0).1, (c 1).1], by linarith [(c 0).2, (c 1).2]⟩)
    have n1' : |fl.val (M 0 0 + M 1 1) - (T 0 0 + T 1 1)| ≤ 2 * δ + 4 * fl.u := by linarith
    have n2 := add_near (A := 3) ft n1' (hM 2 2)
      (abs_le.2 ⟨by linarith [(c 0).1, (c 1).1, (c 2).1], by linarith [(c 0).2, (c 1).2, (c 2).2]⟩)
    have n2' : |fl.val (M 0 0 + M 1 1 + M 2 2) - (T 0 0 + T 1 1 + T 2 2)| ≤ 3 * δ + 8 * fl.u := by
      refine n2.trans ?_
      have : fl.u * (3 + (2 * δ + 4 * fl.u) + δ) ≤ fl.u * 4 := by gcongr; linarith
      linarith
    have n3 := add_near (A := 4) fs n2' one
      (abs_le.2 ⟨by linarith, by linarith [(c 0).2, (c 1).2, (c 2).2]⟩)
    have n3' : |fl.val (M 0 0 + M 1 1 + M 2 2 + Scalar.lit 1) - (T 0 0 + T 1 1 + T 2 2 + 1)| ≤
        31 / 10 * δ := by
      refine n3.trans ?_
      have : fl.u * (4 + (3 * δ + 8 * fl.u) + 0) ≤ fl.u * 5 := by gcongr; linarith
      linarith
    have h1' := (m.lt_iff fl.zero.1 ft).1 h1
    rw [fl.zero.2] at h1'
    have hpos : 3 / 10 ≤ T 0 0 + T 1 1 + T 2 2 + 1 := by linarith [(abs_le.1 n2').2]
    have hle : T 0 0 + T 1 1 + T 2 2 + 1 ≤ 4 := by linarith [(c 0).2, (c 1).2, (c 2).2]
    have hd := denom_near m hu hδ hω n3' hpos hle fd
    obtain ⟨hq, hqm⟩ := shepperd_w hT (by linarith)
    obtain ⟨-, b2, b3, b4⟩ := unitQuat_abs hq
    refine ⟨_, hq, hqm, ⟨?_, ?_, ?_, ?_⟩⟩
    · exact quarter_near hquarter hu hδ hω hd (by linarith [sqrt_lb hpos]) (sqrt_ub hle) f1
    · exact quot_near hu hδ hω hd (sqrt_lb hpos) (hsub _ _ _ _ (fl.div f2).1) b2 fd f2
    · exact quot_near hu hδ hω hd (sqrt_lb hpos) (hsub _ _ _ _ (fl.div f3).1) b3 fd f3
    · exact quot_near hu hδ hω hd (sqrt_lb hpos) (hsub _ _ _ _ (fl.div f4).1) b4 fd f4
  · rw [if_neg h1] at hf ⊢
    -- the trace is small
    have tr : (∀ a, fl.isFinite (M a a)) → T 0 0 + T 1 1 + T 2 2 ≤ 31 / 10 * δ := by
      intro hfin
      have v := fun a => abs_le.1 (hM a a)
      have ft2 : fl.isFinite (M 0 0 + M 1 1) := m.add_finite (hfin 0) (hfin 1)
        (le_trans (abs_le.2 ⟨by linarith [(v 0).1, (v 1).1, (c 0).1, (c 1).1],
          by linarith [(v 0).2, (v 1).2, (c 0).2, (c 1).2]⟩) hbig)
      have n1 := add_near (A := 2) ft2 (hM 0 0) (hM 1 1)
        (abs_le.2 ⟨by linarith [(c 0).1, (c 1).1], by linarith [(c 0).2, (c 1).2]⟩)
      have n1' : |fl.val (M 0 0 + M 1 1) - (T 0 0 + T 1 1)| ≤ 2 * δ + 4 * fl.u := by linarith
      have w := abs_le.1 n1'
      have ft : fl.isFinite (M 0 0 + M 1 1 + M 2 2) := m.add_finite ft2 (hfin 2)
        (le_trans (abs_le.2 ⟨by linarith [(v 2).1, (c 0).1, (c 1).1, (c 2).1, w.1],
          by linarith [(v 2).2, (c 0).2, (c 1).2, (c 2).2, w.2]⟩) hbig)
      have n2 := add_near (A := 3) ft n1' (hM 2 2)
        (abs_le.2 ⟨by linarith [(c 0).1, (c 1).1, (c 2).1], by linarith [(c 0).2, (c 1).2, (c 2).2]⟩)
      have n2' : |fl.val (M 0 0 + M 1 1 + M 2 2) - (T 0 0 + T 1 1 + T 2 2)| ≤ 3 * δ + 8 * fl.u := by
        refine n2.trans ?_
        have : fl.u * (3 + (2 * δ + 4 * fl.u) + δ) ≤ fl.u * 4 := by gcongr; linarith
        linarith
      have h1' : ¬ fl.val 0 < fl.val (M 0 0 + M 1 1 + M 2 2) := fun h => h1 ((m.lt_iff fl.zero.1 ft).2 h)
      rw [fl.zero.2] at h1'
      linarith [(abs_le.1 n2').1]
    have v := fun a => abs_le.1 (hM a a)
    by_cases h2 : (Scalar.lt (M 1 1) (M 0 0) && Scalar.lt (M 2 2) (M 0 0)) = true
    · rw [if_pos h2] at hf ⊢
      obtain ⟨f1, f2, f3, f4⟩ := hf
      dsimp only at f1 f2 f3 f4
      have fd := (fl.mul f2).2.1
      have fs := (m.sqrt (fl.mul fd).1).1
      have fs2 := (fl.sub fs).1
      have g0 := (fl.add (fl.sub fs2).1).2.1
      have g1 := (fl.sub fs2).2.1
      have g2 := (fl.sub fs).2.1
      have htr2 := tr (by intro a; fin_cases a; exacts [g0, g1, g2])
      rw [Bool.and_eq_true, m.lt_iff g1 g0, m.lt_iff g2 g0] at h2
      have hpos : 3 / 10 ≤ 1 + T 0 0 - T 1 1 - T 2 2 := by
        linarith [h2.1, h2.2, (v 0).1, (v 0).2, (v 1).1, (v 1).2, (v 2).1, (v 2).2]
      have hle : 1 + T 0 0 - T 1 1 - T 2 2 ≤ 4 := by linarith [(c 0).2, (c 1).1, (c 2).1]
      have hd := denom_near m hu hδ hω (hv 0 1 2 fs) hpos hle fd
      obtain ⟨hq, hqm⟩ := shepperd_i hT (by linarith)
      obtain ⟨b1, -, b3, b4⟩ := unitQuat_abs hq
      refine ⟨_, hq, hqm, ⟨?_, ?_, ?_, ?_⟩⟩
      · exact quot_near hu hδ hω hd (sqrt_lb hpos) (hsub _ _ _ _ (fl.div f1).1) b1 fd f1
      · exact quarter_near hquarter hu hδ hω hd (by linarith [sqrt_lb hpos]) (sqrt_ub hle) f2
      · exact quot_near hu hδ hω hd (sqrt_lb hpos) (hadd _ _ _ _ (fl.div f3).1) b3 fd f3
      · exact quot_near hu hδ hω hd (sqrt_lb hpos) (hadd _ _ _ _ (fl.div f4).1) b4 fd f4
    · rw [if_neg h2] at hf ⊢
      by_cases h3 : Scalar.lt (M 2 2) (M 1 1) = true
      · rw [if_pos h3] at hf ⊢
        obtain ⟨f1, f2, f3, f4⟩ := hf
        dsimp only at f1 f2 f3 f4
        have fd := (fl.mul f3).2.1
        have fs := (m.sqrt (fl.mul fd).1).1
        have fs2 := (fl.sub fs).1
        have g1 := (fl.add (fl.sub fs2).1).2.1
        have g0 := (fl.sub fs2).2.1
        have g2 := (fl.sub fs).2.1
        have htr2 := tr (by intro a; fin_cases a; exacts [g0, g1, g2])
        rw [Bool.and_eq_true, m.lt_iff g1 g0, m.lt_iff g2 g0, not_and, not_lt] at h2
        rw [m.lt_iff g2 g1] at h3
        have h4 : fl.val (M 0 0) ≤ fl.val (M 1 1) := by
          by_contra hc
          have := h2 (not_le.1 hc)
          linarith
        have hpos : 3 / 10 ≤ 1 + T 1 1 - T 0 0 - T 2 2 := by
          linarith [(v 0).1, (v 0).2, (v 1).1, (v 1).2, (v 2).1, (v 2).2]
        have hle : 1 + T 1 1 - T 0 0 - T 2 2 ≤ 4 := by linarith [(c 1).2, (c 0).1, (c 2).1]
        have hd := denom_near m hu hδ hω (hv 1 0 2 fs) hpos hle fd
        obtain ⟨hq, hqm⟩ := shepperd_j hT (by linarith)
        obtain ⟨b1, b2, -, b4⟩ := unitQuat_abs hq
        refine ⟨_, hq, hqm, ⟨?_, ?_, ?_, ?_⟩⟩
        · exact quot_near hu hδ hω hd (sqrt_lb hpos) (hsub _ _ _ _ (fl.div f1).1) b1 fd f1
        · exact quot_near hu hδ hω hd (sqrt_lb hpos) (hadd _ _ _ _ (fl.div f2).1) b2 fd f2
        · exact quarter_near hquarter hu hδ hω hd (by linarith [sqrt_lb hpos]) (sqrt_ub hle) f3
        · exact quot_near hu hδ hω hd (sqrt_lb hpos) (hadd _ _ _ _ (fl.div f4).1) b4 fd f4
      · rw [if_neg h3] at hf ⊢
        obtain ⟨f1, f2, f3, f4⟩ := hf
        dsimp only at f1 f2 f3 f4
        have fd := (fl.mul f4).2.1
        have fs := (m.sqrt (fl.mul fd).1).1
        have fs2 := (fl.sub fs).1
        have g2 := (fl.add (fl.sub fs2).1).2.1
        have g0 := (fl.sub fs2).2.1
        have g1 := (fl.sub fs).2.1
        have htr2 := tr (by intro a; fin_cases a; exacts [g0, g1, g2])
        rw [Bool.and_eq_true, m.lt_iff g1 g0, m.lt_iff g2 g0, not_and, not_lt] at h2
        rw [m.lt_iff g2 g1, not_lt] at h3
        have h4 : fl.val (M 0 0) ≤ fl.val (M 2 2) := by
          by_contra hc
          have := h2 (by linarith)
          linarith
        have hpos : 3 / 10 ≤ 1 + T 2 2 - T 0 0 - T 1 1 := by
          linarith [(v 0).1, (v 0).2, (v 1).1, (v 1).2, (v 2).1, (v 2).2]
        have hle : 1 + T 2 2 - T 0 0 - T 1 1 ≤ 4 := by linarith [(c 2).2, (c 0).1, (c 1).1]
        have hd := denom_near m hu hδ hω (hv 2 0 1 fs) hpos hle fd
        obtain ⟨hq, hqm⟩ := shepperd_k hT (by linarith)
        obtain ⟨b1, b2, b3, -⟩ := unitQuat_abs hq
        refine ⟨_, hq, hqm, ⟨?_, ?_, ?_, ?_⟩⟩
        · exact quot_near hu hδ hω hd (sqrt_lb hpos) (hsub _ _ _ _ (fl.div f1).1) b1 fd f1
        · exact quot_near hu hδ hω hd (sqrt_lb hpos) (hadd _ _ _ _ (fl.div f2).1) b2 fd f2
        · exact quot_near hu hδ hω hd (sqrt_lb hpos) (hadd _ _ _ _ (fl.div f3).1) b3 fd f3
        · exact quarter_near hquarter hu hδ hω hd (by linarith [sqrt_lb hpos]) (sqrt_ub hle) f4

end basics

end CamGeom
