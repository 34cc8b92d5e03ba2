import Verif.Lemmas.QrNear
import Verif.Spec.RoundingSvd

/-!
# Householder axes of columns of any size

`reflectionAxis_near` covers columns whose squared length does not underflow.  Here are the others: nalgebra
normalizes the axis twice, so that the axis is a unit vector even if the squared length has no correct digit.
-/

namespace CamGeom

variable {R : Type} [Scalar R] {fl : Rounding R} {r : RoundingRange fl}

/-- The format has about the precision and the range of `f64`. -/
structure Fine (r : RoundingRange fl) : Prop where
  u_le : fl.u ≤ 12 / 10 ^ 17
  ω_le : fl.ω ≤ fl.u * fl.u / 10 ^ 6
  ω_le' : fl.ω ≤ 1 / 10 ^ 100
  top : 400 ≤ r.top

namespace Fine

theorem hu (h : Fine r) : fl.u ≤ 1 / 10 ^ 7 := h.u_le.trans (by norm_num)

theorem ω1 (h : Fine r) : fl.ω ≤ 1 := h.ω_le'.trans (by norm_num)

theorem scale (h : Fine r) {s : ℝ} (h0 : 0 ≤ s) (h1 : s ≤ 10 ^ 100) : Scale r s := by
  refine ⟨h0, ?_⟩
  have : (2 : ℝ) ^ 400 ≤ 2 ^ r.top := pow_le_pow_right₀ (by norm_num) h.top
  have h2 : (1000 : ℝ) * 10 ^ 100 ≤ 2 ^ 400 := by
    rw [show 400 = 200 + 200 from rfl, pow_add]; norm_num
  exact ((mul_le_mul_of_nonneg_left h1 (by norm_num)).trans h2).trans this

/-- The square root of the least normal number is negligible. -/
theorem sqrt_ω (h : Fine r) : Real.sqrt fl.ω ≤ fl.u / 1000 := by
  have := fl.u_nonneg
  rw [Real.sqrt_le_left (by positivity)]
  refine h.ω_le.trans (le_of_eq ?_)
  ring

theorem ω_le_u (h : Fine r) : fl.ω ≤ fl.u := by
  have := fl.u_nonneg
  have h1 := h.ω_le
  have h2 : fl.u * fl.u ≤ fl.u * 1 := by gcongr; exact h.hu.trans (by norm_num)
  linarith

end Fine

namespace Householder
open Spec Matrix

/-- Products of nonnegative numbers are not rounded below zero. -/
theorem mul_nonneg' (v : RoundingSvd fl) (hu : fl.u ≤ 1 / 10 ^ 7) {x y : R} (hf : fl.isFinite (x * y))
    (h : 0 ≤ fl.val x * fl.val y) : 0 ≤ fl.val (x * y) := by
  by_contra hn
  have hn := not_le.1 hn
  have h1 := (fl.mul hf).2.2
  have h2 := v.least hf hn.ne
  rw [abs_of_neg hn] at h2
  rw [abs_of_nonneg h] at h1
  have h3 := (abs_le.1 h1).1
  have h4 : fl.u * (fl.val x * fl.val y) ≤ 1 / 10 ^ 7 * (fl.val x * fl.val y) := by gcongr
  have h5 : 0 ≤ fl.u * fl.ω := mul_nonneg fl.u_nonneg fl.ω_nonneg
  linarith

/-- The computed squared length of a short column. -/
theorem sq_tiny (v : RoundingSvd fl) (hF : Fine r) (i : Fin 3) (x : V3 R)
    (hf : fl.isFinite (tailDot i x x)) :
    0 ≤ fl.val (tailDot i x x) ∧ ∀ b, i ≤ b →
      fl.val (x b) * fl.val (x b) ≤ 11 / 10 * fl.val (tailDot i x x) + 11 / 10 * (fl.u * fl.ω) := by
  have hu := hF.hu
  have hu0 := fl.u_nonneg
  have hg : 0 ≤ fl.u * fl.ω := mul_nonneg fl.u_nonneg fl.ω_nonneg
  have P : ∀ b, fl.isFinite (x b * x b) → 0 ≤ fl.val (x b * x b) ∧
      fl.val (x b) * fl.val (x b) ≤ 101 / 100 * fl.val (x b * x b) + 101 / 100 * (fl.u * fl.ω) := by
    intro b hb
    have h0 := mul_self_nonneg (fl.val (x b))
    have h1 := mul_nonneg' v hu hb h0
    refine ⟨h1, ?_⟩
    have h2 := (abs_le.1 (fl.mul hb).2.2).1
    rw [abs_of_nonneg h0] at h2
    have h4 : fl.u * (fl.val (x b) * fl.val (x b)) ≤ 1 / 10 ^ 7 * (fl.val (x b) * fl.val (x b)) := by gcongr
    linarith
  have A : ∀ a b : R, fl.isFinite (a + b) → 0 ≤ fl.val a → 0 ≤ fl.val b → 0 ≤ fl.val (a + b) ∧
      fl.val a ≤ 101 / 100 * fl.val (a + b) ∧ fl.val b ≤ 101 / 100 * fl.val (a + b) := by
    intro a b hab ha hb
    have h1 := (fl.add hab).2.2
    rw [abs_of_nonneg (show 0 ≤ fl.val a + fl.val b by linarith)] at h1
    have h2 := (abs_le.1 h1).1
    have h4 : fl.u * (fl.val a + fl.val b) ≤ 1 / 10 ^ 7 * (fl.val a + fl.val b) := by gcongr
    refine ⟨by linarith, by linarith, by linarith⟩
  fin_cases i <;> simp only [tailDot] at hf ⊢
  · simp only [Fin.zero_eta, Fin.isValue, if_true] at hf ⊢
    obtain ⟨f01, f2, -⟩ := fl.add hf
    obtain ⟨f0, f1, -⟩ := fl.add f01
    obtain ⟨p0, q0⟩ := P 0 f0
    obtain ⟨p1, q1⟩ := P 1 f1
    obtain ⟨p2, q2⟩ := P 2 f2
    obtain ⟨s0, s1, s2⟩ := A _ _ f01 p0 p1
    obtain ⟨t0, t1, t2⟩ := A _ _ hf s0 p2
    refine ⟨t0, fun b _ => ?_⟩
    fin_cases b
    · show fl.val (x 0) * fl.val (x 0) ≤ _
      linarith
    · show fl.val (x 1) * fl.val (x 1) ≤ _
      linarith
    · show fl.val (x 2) * fl.val (x 2) ≤ _
      linarith
  · simp only [Fin.mk_one, Fin.isValue, one_ne_zero, if_false, if_true] at hf ⊢
    obtain ⟨f1, f2, -⟩ := fl.add hf
    obtain ⟨p1, q1⟩ := P 1 f1
    obtain ⟨p2, q2⟩ := P 2 f2
    obtain ⟨t0, t1, t2⟩ := A _ _ hf p1 p2
    refine ⟨t0, fun b hb => ?_⟩
    fin_cases b
    · exact absurd hb (by decide)
    · show fl.val (x 1) * fl.val (x 1) ≤ _
      linarith
    · show fl.val (x 2) * fl.val (x 2) ≤ _
      linarith
  · simp only [Fin.reduceFinMk, Fin.isValue, Fin.reduceEq, if_false] at hf ⊢
    obtain ⟨p2, q2⟩ := P 2 hf
    refine ⟨p2, fun b hb => ?_⟩
    fin_cases b
    · exact absurd hb (by decide)
    · exact absurd hb (by decide)
    · show fl.val (x 2) * fl.val (x 2) ≤ _
      linarith

/-- What the computed axis of a column of moderate length is worth: it is close to the axis `A` of an exact signed
reflection which clears the column. -/
structure AxisNear (fl : Rounding R) (i : Fin 3) (x : V3 R) (a : V3 R × R × Bool) (A : V3 ℝ) (S : ℝ) : Prop where
  good : Good i A
  sign : S * S = 1
  sign_fin : fl.isFinite (signum a.2.1)
  sign_val : fl.val (signum a.2.1) = S
  fin : fl.isFinite a.2.1
  axis : ∀ b, i ≤ b → Near fl 1 1 412 (a.1 b) (A b)
  head : |reflect i A S (vvec fl x) i - (|fl.val a.2.1|)| ≤ 100 * fl.u
  tail : ∀ b, i < b → |reflect i A S (vvec fl x) b| ≤ 100 * fl.u
  flag : a.2.2 = false → ∀ b, i ≤ b → A b = 0
  below : ∀ b, b < i → a.1 b = x b

theorem reflect_abs_le {i : Fin 3} {A : V3 ℝ} (hA : Good i A) {S : ℝ} (hS : S * S = 1) {X : V3 ℝ} {c : ℝ}
    (h : ∀ b, i ≤ b → |X b| ≤ c) (b : Fin 3) (hb : i ≤ b) : |reflect i A S X b| ≤ 7 * c := by
  have hc : 0 ≤ c := (abs_nonneg _).trans (h i le_rfl)
  have hSa : |S| = 1 := by
    rcases mul_self_eq_one_iff.1 hS with h | h <;> rw [h] <;> norm_num
  rcases hA with h1 | h0
  · have hA1 : ∀ b, i ≤ b → |A b| ≤ 1 := fun b hb => by
      have := abs_le_tail hb A
      rwa [h1, Real.sqrt_one] at this
    have p : ∀ b, i ≤ b → |A b * X b| ≤ c := fun b hb => by
      rw [abs_mul]
      calc |A b| * |X b| ≤ 1 * c := mul_le_mul (hA1 b hb) (h b hb) (abs_nonneg _) zero_le_one
        _ = c := one_mul c
    have hT : |tailDot i A X| ≤ 3 * c := by
      fin_cases i <;> simp only [tailDot]
      · simp only [Fin.zero_eta, Fin.isValue, if_true]
        refine (abs_add_three _ _ _).trans ?_
        have := p 0 (by decide)
        have := p 1 (by decide)
        have := p 2 (by decide)
        linarith
      · simp only [Fin.mk_one, Fin.isValue, one_ne_zero, if_false, if_true]
        refine (abs_add_le _ _).trans ?_
        have := p 1 (by decide)
        have := p 2 (by decide)
        linarith
      · simp only [Fin.reduceFinMk, Fin.isValue, Fin.reduceEq, if_false]
        have := p 2 (by decide)
        linarith
    have e : reflect i A S X b = (tailDot i A X) * (S * -2) * A b + S * X b := by
      simp [reflect, hb]
    rw [e]
    refine (abs_add_le _ _).trans ?_
    rw [abs_mul, abs_mul, abs_mul, abs_mul, hSa, abs_neg, abs_two]
    have h2 := mul_le_mul hT (hA1 b hb) (abs_nonneg _) (by positivity)
    have h3 := h b hb
    linarith
  · rw [reflect_zero_axis h0, if_pos hb, abs_mul, hSa]
    have := h b hb
    linarith

/-- The second normalization, of a column that has already been normalized once with a poor length. -/
theorem renorm_near (k : RoundingMore fl) (hF : Fine r) {i : Fin 3} {b1 : V3 R} (fy : ∀ b, i ≤ b → fl.isFinite (b1 b))
    (hY2 : ∀ b, i ≤ b → |vvec fl b1 b| ≤ 2) (hYi : 1 / 3 ≤ |vvec fl b1 i|) :
    ∃ A : V3 ℝ, Good i A ∧
      ∀ b, i ≤ b → Near fl 1 1 412 (b1 b / Scalar.sqrt (tailDot i b1 b1)) (A b) := by
  have hu := hF.hu
  have hu0 := fl.u_nonneg
  set Y := vvec fl b1 with hY
  set nY := Real.sqrt (tailDot i Y Y) with hnY
  have hnY1 : 1 / 3 ≤ nY := hYi.trans (abs_le_tail le_rfl Y)
  have hnY0 : 0 < nY := by linarith
  have hnYY : nY * nY = tailDot i Y Y := Real.mul_self_sqrt (tailDot_nonneg i Y)
  have hnY2 : nY ≤ 4 := by
    refine Real.sqrt_le_iff.2 ⟨by norm_num, ?_⟩
    have p : ∀ b, i ≤ b → Y b * Y b ≤ 4 := fun b hb => by
      rw [← abs_mul_abs_self]
      have := hY2 b hb
      have := abs_nonneg (Y b)
      nlinarith
    clear_value Y
    clear * - p
    fin_cases i <;> simp only [tailDot]
    · simp only [Fin.zero_eta, Fin.isValue, if_true]
      have := p 0 (by decide)
      have := p 1 (by decide)
      have := p 2 (by decide)
      linarith
    · simp only [Fin.mk_one, Fin.isValue, one_ne_zero, if_false, if_true]
      have := p 1 (by decide)
      have := p 2 (by decide)
      linarith
    · simp only [Fin.reduceFinMk, Fin.isValue, Fin.reduceEq, if_false]
      have := p 2 (by decide)
      linarith
  have hYn : ∀ b, i ≤ b → |Y b| ≤ nY := fun b hb => abs_le_tail hb Y
  have hωn : fl.ω ≤ nY * nY := hF.ω_le'.trans (by nlinarith)
  -- the second normalization
  have ny : ∀ b, i ≤ b → Near fl nY 1 0 (b1 b) (Y b) := fun b hb =>
    Near.exact (fy b hb) (by rw [one_mul]; exact hYn b hb)
  have nt : Near fl (nY * nY) 1 12 (tailDot i b1 b1) (nY * nY) := by
    have := tailDot_near (r := r) (M := 1) (C := 2) i hnY0.le hnY0.le (hF.scale (by positivity) (by nlinarith))
      hωn hu ny ny (by rw [← hnYY, abs_of_pos (by positivity)]; linarith) (by norm_num) le_rfl le_rfl (by norm_num)
    exact (this.congr hnYY.symm).mono (by positivity) le_rfl (by norm_num)
  have nn : Near fl nY 1 14 (Scalar.sqrt (tailDot i b1 b1)) nY := by
    have := nt.sqrt (r := r) (M := 1) (C := 14) k 1 hnY0.le (hF.scale hnY0.le (by linarith)) hu (by nlinarith)
      (by nlinarith)
    exact this.congr (by rw [← _root_.sq]; exact Real.sqrt_sq hnY0.le)
  have nfin : ∀ b, i ≤ b → Near fl 1 1 412 (b1 b / Scalar.sqrt (tailDot i b1 b1)) (Y b / nY) := fun b hb => by
    have := Near.div (r := r) (M := 1) (C := 17) 1 hnY0.le hnY0
      (by rw [div_self hnY0.ne']; exact hF.scale zero_le_one (by norm_num))
      (by rw [div_self hnY0.ne']; exact hF.ω1) hu (ny b hb) nn (by rw [one_mul, abs_of_pos hnY0])
      (by rw [div_self hnY0.ne', mul_one, abs_div, abs_of_pos hnY0, div_le_one hnY0]; exact hYn b hb)
    exact (this.scale (div_self hnY0.ne')).mono zero_le_one le_rfl (by norm_num)
  refine ⟨fun b => Y b / nY, .inl ?_, nfin⟩
  have e : tailDot i (fun b => Y b / nY) (fun b => Y b / nY) = tailDot i Y Y / (nY * nY) := by
    clear_value Y nY
    clear * -
    fin_cases i <;> simp [tailDot, div_mul_div_comm] <;> ring
  rw [e, hnYY, div_self (hnYY ▸ (by positivity))]

set_option maxHeartbeats 1000000 in
/-- The axis of a column so short that its squared length underflows. -/
theorem axis_tiny (q : RoundingQr fl) (k : RoundingMore fl) (v : RoundingSvd fl) (hF : Fine r) (i : Fin 3) (x : V3 R)
    (hx : ∀ a, i ≤ a → fl.isFinite (x a))
    (hω : tailDot i (vvec fl x) (vvec fl x) ≤ fl.ω) :
    ∃ A S, AxisNear fl i x (reflectionAxis i x) A S := by
  have hu := hF.hu
  have hu0 := fl.u_nonneg
  have hg : 0 ≤ fl.u * fl.ω := mul_nonneg fl.u_nonneg fl.ω_nonneg
  set X := vvec fl x with hX
  set w := Real.sqrt fl.ω with hw
  have hw0 : 0 ≤ w := Real.sqrt_nonneg _
  have hww : w * w = fl.ω := Real.mul_self_sqrt fl.ω_nonneg
  have hwu : w ≤ fl.u / 1000 := hF.sqrt_ω
  have hw1 : w ≤ 1 := by linarith
  have hXw : ∀ b, i ≤ b → |X b| ≤ w := fun b hb =>
    (abs_le_tail hb X).trans (Real.sqrt_le_sqrt hω)
  -- the squared length and the length
  have nx : ∀ b, i ≤ b → Near fl w 1 0 (x b) (X b) := fun b hb =>
    Near.exact (hx b hb) (by rw [one_mul]; exact hXw b hb)
  have nsq : Near fl (w * w) 1 12 (tailDot i x x) (tailDot i X X) := by
    have := tailDot_near (r := r) (M := 1) (C := 2) i hw0 hw0 (hF.scale (by positivity) (by rw [hww]; linarith [hF.ω1]))
      hww.ge hu nx nx (by rw [abs_of_nonneg (tailDot_nonneg i X), hww]; linarith) (by norm_num) le_rfl le_rfl
      (by norm_num)
    exact this.mono (by positivity) le_rfl (by norm_num)
  obtain ⟨hQ0, hQX⟩ := sq_tiny v hF i x nsq.fin
  have hQω : fl.val (tailDot i x x) ≤ 2 * fl.ω := by
    have h1 := nsq.err_le hu (by positivity) (by norm_num)
    rw [hww] at h1
    have h2 := (abs_le.1 h1).2
    linarith [fl.ω_nonneg]
  set nq := tailDot i x x with hnq
  set Q := fl.val nq with hQ
  set σ := Real.sqrt Q with hσ
  have hσ0 : 0 ≤ σ := Real.sqrt_nonneg _
  have hσσ : σ * σ = Q := Real.mul_self_sqrt hQ0
  have hσw : σ ≤ 3 / 2 * w := by
    rw [hσ]
    refine Real.sqrt_le_iff.2 ⟨by positivity, ?_⟩
    rw [mul_pow, sq w, hww]
    linarith [fl.ω_nonneg]
  have fnorm : fl.isFinite (Scalar.sqrt nq) :=
    (r.sqrt nsq.fin hQ0 (k := 0) (Nat.zero_le _) (by rw [pow_zero, ← hσ]; linarith)).1
  have hν := (k.sqrt fnorm).2.2
  rw [← hQ, ← hσ] at hν
  set norm := Scalar.sqrt nq with hnorm
  have huσ : fl.u * σ ≤ 1 / 10 ^ 7 * σ := by gcongr
  have huσ0 : 0 ≤ fl.u * σ := by positivity
  have hν1 := abs_le.1 hν
  -- the sign
  set md := Scalar.abs (x i) with hmd
  obtain ⟨fmd, hmdv⟩ : fl.isFinite md ∧ fl.val md = |X i| := q.abs (hx i le_rfl)
  set S : ℝ := if |X i| = 0 then 1 else X i / |X i| with hS
  have hSX : S * |X i| = X i := by
    rw [hS]; split
    · rename_i h; rw [h, abs_eq_zero.1 h]; simp
    · rename_i h; rw [div_mul_cancel₀ _ h]
  have hSS : S * S = 1 := by
    rw [hS]; split
    · norm_num
    · rename_i h
      rw [div_mul_div_comm, abs_mul_abs_self, div_self]
      exact fun h' => h (by rw [mul_self_eq_zero.1 h', abs_zero])
  have hSa : |S| = 1 := by
    rcases mul_self_eq_one_iff.1 hSS with h | h <;> rw [h] <;> norm_num
  have nsign : Near fl 1 1 2 (if Scalar.beq md 0 then 1 else x i / md) S := by
    by_cases hz : |X i| = 0
    · have : Scalar.beq md 0 = true := (q.beq_iff fmd fl.zero.1).2 (by rw [hmdv, hz, fl.zero.2])
      rw [if_pos this, hS, if_pos hz]
      exact (Near.one fl).mono zero_le_one le_rfl (by norm_num)
    · have : ¬ Scalar.beq md 0 = true := by
        rw [q.beq_iff fmd fl.zero.1, hmdv, fl.zero.2]; exact hz
      rw [if_neg this, hS, if_neg hz]
      have hv : fl.val (x i) = X i := rfl
      have hq : |fl.val (x i) / fl.val md| = 1 := by
        rw [hmdv, hv, abs_div, abs_abs, div_self hz]
      have hfin : fl.isFinite (x i / md) :=
        (r.div (hx i le_rfl) fmd (by rw [hmdv]; exact hz) (Nat.zero_le _)
          (by rw [hq]; norm_num)).1
      refine ⟨hfin, ?_, ?_⟩
      · rw [abs_div, abs_abs, div_self hz]; norm_num
      · have h1 := ((fl.div hfin).2 fmd).2
        rw [hq, hmdv, hv] at h1
        refine h1.trans ?_
        nlinarith [hF.ω1]
  set sign := (if Scalar.beq md 0 then 1 else x i / md : R) with hsign
  -- the signed length
  have hse := nsign.err
  rw [mul_one] at hse
  have hσ1 : |fl.val norm| ≤ 11 / 10 * σ := by
    rw [abs_le]; constructor <;> linarith
  have hsnE : |fl.val sign * fl.val norm - S * σ| ≤ 4 * (fl.u * σ) := by
    rw [show fl.val sign * fl.val norm - S * σ = (fl.val sign - S) * fl.val norm + S * (fl.val norm - σ) by ring]
    refine (abs_add_le _ _).trans ?_
    rw [abs_mul, abs_mul, hSa, one_mul]
    have := mul_le_mul hse hσ1 (abs_nonneg _) (by positivity)
    linarith
  have hsn0 : |fl.val sign * fl.val norm| ≤ 11 / 10 * σ := by
    have h1 := abs_add_le (fl.val sign * fl.val norm - S * σ) (S * σ)
    rw [sub_add_cancel, abs_mul S, hSa, one_mul, abs_of_nonneg hσ0] at h1
    linarith
  have fsn : fl.isFinite (sign * norm) :=
    (r.mul nsign.fin fnorm (k := 0) (Nat.zero_le _) (by rw [pow_zero]; linarith)).1
  have hsnv := (fl.mul fsn).2.2
  set sn := sign * norm with hsn
  have hsn1 : |fl.val sn - S * σ| ≤ 6 * (fl.u * σ) + fl.u * fl.ω := by
    have h1 := abs_add_le (fl.val sn - fl.val sign * fl.val norm) (fl.val sign * fl.val norm - S * σ)
    rw [sub_add_sub_cancel] at h1
    have h2 : fl.u * (|fl.val sign * fl.val norm| + fl.ω) ≤ fl.u * (11 / 10 * σ + fl.ω) := by gcongr
    nlinarith
  have hgw : fl.u * fl.ω ≤ 1 / 10 ^ 7 * w := by
    rw [← hww]
    calc fl.u * (w * w) ≤ 1 / 10 ^ 7 * (1 * w) := by gcongr
      _ = _ := by ring
  have hsn2 : |fl.val sn| ≤ 2 * w := by
    have h1 := abs_add_le (fl.val sn - S * σ) (S * σ)
    rw [sub_add_cancel, abs_mul S, hSa, one_mul, abs_of_nonneg hσ0] at h1
    linarith
  -- the shifted column
  have fxi : fl.isFinite (x i + sn) :=
    (r.add (hx i le_rfl) fsn (k := 0) (Nat.zero_le _) ((abs_add_le _ _).trans (by
      rw [pow_zero]
      have := hXw i le_rfl
      have e : fl.val (x i) = X i := rfl
      rw [e]
      linarith))).1
  have hxi := (fl.add fxi).2.2
  have exi : fl.val (x i) = X i := rfl
  rw [exi] at hxi
  -- the factor
  have fmn : fl.isFinite (md * norm) :=
    (r.mul fmd fnorm (k := 0) (Nat.zero_le _) (by
      rw [pow_zero, abs_mul, hmdv, abs_abs]
      have h1 : |X i| ≤ 1 := (hXw i le_rfl).trans hw1
      have h2 : |fl.val norm| ≤ 1 := by linarith
      calc |X i| * |fl.val norm| ≤ 1 * 1 := mul_le_mul h1 h2 (abs_nonneg _) zero_le_one
        _ = 1 := one_mul 1)).1
  have hmn := (fl.mul fmn).2.2
  rw [hmdv] at hmn
  have hν0 : 0 ≤ fl.val norm := by linarith
  have hE0 : 0 ≤ |X i| * fl.val norm := by positivity
  have hmn0 : 0 ≤ fl.val (md * norm) := mul_nonneg' v hu fmn (by rw [hmdv]; exact hE0)
  rw [abs_of_nonneg hE0] at hmn
  have hmnw : fl.val (md * norm) ≤ 1 := by
    have h1 := (abs_le.1 hmn).2
    have h2 : |X i| * fl.val norm ≤ 1 / 10 * (11 / 10) := by
      refine mul_le_mul ((hXw i le_rfl).trans (by linarith)) ((le_abs_self _).trans (by linarith)) hν0 (by norm_num)
    have h3 : fl.u * (|X i| * fl.val norm + fl.ω) ≤ 1 / 10 ^ 7 * (1 / 10 * (11 / 10) + 1) := by
      refine mul_le_mul hu (add_le_add h2 hF.ω1) (add_nonneg hE0 fl.ω_nonneg) (by norm_num)
    linarith
  have hQ1 : Q ≤ 1 / 10 := hQω.trans (by have := hF.ω_le'; linarith)
  have fsum : fl.isFinite (nq + md * norm) :=
    (r.add nsq.fin fmn (k := 1) (le_trans (by norm_num) hF.top) (by
      rw [abs_of_nonneg (by positivity), ← hQ]; linarith)).1
  have hsum := (fl.add fsum).2.2
  rw [← hQ, abs_of_nonneg (show 0 ≤ Q + fl.val (md * norm) by positivity)] at hsum
  have hsu0 : 0 ≤ fl.val (nq + md * norm) := by
    have h1 := (abs_le.1 hsum).1
    have h2 : fl.u * (Q + fl.val (md * norm)) ≤ 1 * (Q + fl.val (md * norm)) := by gcongr; linarith
    linarith
  have hsu2 : fl.val (nq + md * norm) ≤ 4 := by
    have h1 := (abs_le.1 hsum).2
    have h2 : fl.u * (Q + fl.val (md * norm)) ≤ 1 * (Q + fl.val (md * norm)) := by gcongr; linarith
    linarith
  have ff : fl.isFinite ((nq + md * norm) * Scalar.lit 2) :=
    (r.mul fsum fl.lit_two.1 (k := 3) (le_trans (by norm_num) hF.top) (by
      rw [fl.lit_two.2, abs_of_nonneg (by positivity)]; linarith)).1
  have hfv := (fl.mul ff).2.2
  rw [fl.lit_two.2, abs_of_nonneg (show 0 ≤ fl.val (nq + md * norm) * 2 by positivity)] at hfv
  set factor := (nq + md * norm) * Scalar.lit 2 with hfactor
  set b1 : V3 R := fun r => if i ≤ r then Function.update x i (x i + sn) r / Scalar.sqrt factor
    else Function.update x i (x i + sn) r with hb1
  have ea : reflectionAxis i x = if Scalar.beq factor 0 then (Function.update x i (x i + sn), sn, false)
      else (fun r => if i ≤ r then b1 r / Scalar.sqrt (tailDot i b1 b1) else b1 r, -sn, true) := rfl
  have hsig : ∀ y : R, fl.isFinite y → ∃ S', S' * S' = 1 ∧ fl.isFinite (signum y) ∧ fl.val (signum y) = S' := by
    intro y hy
    obtain ⟨h1, h2⟩ := signum_near k r hy (Iff.rfl : fl.val y < 0 ↔ fl.val y < 0)
    exact ⟨signum (fl.val y), signum_mul_self _, h1, h2⟩
  have hsmall : ∀ {A : V3 ℝ} {S' : ℝ}, Good i A → S' * S' = 1 → ∀ b, i ≤ b → |reflect i A S' X b| ≤ 7 * w :=
    fun hA hS' b hb => reflect_abs_le hA hS' hXw b hb
  by_cases hb0 : Scalar.beq factor 0 = true
  · rw [ea, if_pos hb0]
    obtain ⟨S', hS', s1, s2⟩ := hsig sn fsn
    have hg0 : Good i (0 : V3 ℝ) := .inr fun _ _ => rfl
    refine ⟨0, S', hg0, hS', s1, s2, fsn, fun b hb => ?_, ?_, fun b hb => ?_, fun _ _ _ => rfl, fun b hb => ?_⟩
    · have hv : |fl.val (Function.update x i (x i + sn) b)| ≤ 4 * w ∧
          fl.isFinite (Function.update x i (x i + sn) b) := by
        by_cases hbi : b = i
        · subst hbi
          rw [Function.update_self]
          refine ⟨?_, fxi⟩
          have h1 := abs_add_le (fl.val (x b + sn) - (X b + fl.val sn)) (X b + fl.val sn)
          rw [sub_add_cancel] at h1
          have h2 := (abs_add_le (X b) (fl.val sn)).trans (add_le_add (hXw b le_rfl) hsn2)
          have h3 : fl.u * |X b + fl.val sn| ≤ 1 / 10 ^ 7 * (w + 2 * w) := by gcongr
          linarith
        · rw [Function.update_of_ne hbi]
          exact ⟨(hXw b hb).trans (by linarith), hx b hb⟩
      refine ⟨hv.2, by simp, ?_⟩
      rw [Pi.zero_apply, sub_zero, mul_one]
      refine hv.1.trans ?_
      linarith
    · have h1 := hsmall hg0 hS' i le_rfl
      refine (abs_sub _ _).trans ?_
      rw [abs_abs]
      show _ + |fl.val sn| ≤ _
      linarith
    · have h1 := hsmall hg0 hS' b hb.le
      linarith
    · show Function.update x i (x i + sn) b = x b
      rw [Function.update_of_ne hb.ne]
  · rw [ea, if_neg hb0]
    -- the squared length is not zero
    have hQ2 : 0 < Q ∧ 2 * (fl.u * fl.ω) ≤ Q := by
      by_cases hz : Q = 0
      · exfalso
        have hσz : σ = 0 := by rw [hσ, hz, Real.sqrt_zero]
        have hνz : fl.val norm = 0 := by
          rw [hσz, mul_zero] at hν
          simpa using hν
        have h1 := (fl.mul_zero fmd fnorm hνz)
        have h2 := (fl.add_zero nsq.fin h1.1 h1.2)
        have h3 := (fl.zero_mul h2.1 fl.lit_two.1 (by rw [h2.2]; exact hz))
        exact hb0 ((q.beq_iff ff fl.zero.1).2 (by rw [fl.zero.2]; exact h3.2))
      · have := v.least nsq.fin hz
        rw [← hQ, abs_of_nonneg hQ0] at this
        exact ⟨lt_of_le_of_ne hQ0 (Ne.symm hz), this⟩
    obtain ⟨hQp, hQ2⟩ := hQ2
    have hσp : 0 < σ := Real.sqrt_pos.2 hQp
    have hωσ : fl.ω ≤ σ := by
      rw [hσ]
      apply Real.le_sqrt_of_sq_le
      refine le_trans ?_ hQ2
      rw [sq fl.ω]
      have := mul_le_mul_of_nonneg_right hF.ω_le_u fl.ω_nonneg
      linarith
    have hXσ : ∀ b, i ≤ b → |X b| ≤ 13 / 10 * σ := fun b hb => by
      refine abs_le_of_sq_le_sq ?_ (by positivity)
      have h1 := hQX b hb
      have h2 : X b * X b ≤ 11 / 10 * Q + 11 / 10 * (fl.u * fl.ω) := h1
      rw [mul_pow, _root_.sq σ, hσσ, _root_.sq (X b)]
      linarith
    have hXi := hXσ i le_rfl
    have uQ : fl.u * Q ≤ 1 / 10 ^ 7 * Q := by gcongr
    -- the factor
    have hE : |X i| * fl.val norm ≤ 132 / 100 * Q := by
      have h1 : fl.val norm ≤ 101 / 100 * σ := by linarith
      calc |X i| * fl.val norm ≤ 13 / 10 * σ * (101 / 100 * σ) := mul_le_mul hXi h1 hν0 (by positivity)
        _ = 1313 / 1000 * Q := by rw [← hσσ]; ring
        _ ≤ _ := by linarith
    have hP : fl.val (md * norm) ≤ 19 / 10 * Q := by
      have h1 := (abs_le.1 hmn).2
      have h2 : fl.u * (|X i| * fl.val norm) ≤ 1 / 10 ^ 7 * (132 / 100 * Q) := mul_le_mul hu hE hE0 (by norm_num)
      linarith
    have huP : fl.u * fl.val (md * norm) ≤ 1 / 10 ^ 7 * (19 / 10 * Q) := mul_le_mul hu hP hmn0 (by norm_num)
    have hsu : 99 / 100 * Q ≤ fl.val (nq + md * norm) ∧ fl.val (nq + md * norm) ≤ 295 / 100 * Q := by
      have h1 := abs_le.1 hsum
      rw [mul_add] at h1
      constructor <;> linarith [h1.1, h1.2]
    have hus : fl.u * fl.val (nq + md * norm) ≤ 1 / 10 ^ 7 * (295 / 100 * Q) := mul_le_mul hu hsu.2 hsu0 (by norm_num)
    have hff : 14 / 10 * Q ≤ fl.val factor ∧ fl.val factor ≤ 65 / 10 * Q := by
      have h1 := abs_le.1 hfv
      rw [mul_add] at h1
      constructor <;> linarith [h1.1, h1.2, hsu.1, hsu.2]
    set Φ := fl.val factor with hΦ
    have hΦ0 : 0 ≤ Φ := by linarith
    set τ := Real.sqrt Φ with hτ
    have hτ0 : 0 ≤ τ := Real.sqrt_nonneg _
    have hτl : 118 / 100 * σ ≤ τ := by
      apply Real.le_sqrt_of_sq_le
      rw [mul_pow, _root_.sq σ, hσσ]
      linarith
    have hτh : τ ≤ 255 / 100 * σ := by
      refine Real.sqrt_le_iff.2 ⟨by positivity, ?_⟩
      rw [mul_pow, _root_.sq σ, hσσ]
      linarith
    have fs : fl.isFinite (Scalar.sqrt factor) :=
      (r.sqrt ff hΦ0 (k := 0) (Nat.zero_le _) (by rw [pow_zero]; linarith)).1
    have hs := (k.sqrt fs).2.2
    rw [← hΦ, ← hτ] at hs
    have huτ : fl.u * τ ≤ 1 / 10 ^ 7 * (255 / 100 * σ) := mul_le_mul hu hτh hτ0 (by norm_num)
    have hs1 : 117 / 100 * σ ≤ fl.val (Scalar.sqrt factor) ∧ fl.val (Scalar.sqrt factor) ≤ 256 / 100 * σ := by
      have h1 := abs_le.1 hs
      constructor <;> linarith [h1.1, h1.2]
    have hsp : 0 < fl.val (Scalar.sqrt factor) := by linarith
    -- the shifted column
    have hgσ : fl.u * fl.ω ≤ 1 / 10 ^ 7 * σ := mul_le_mul hu hωσ fl.ω_nonneg (by norm_num)
    have hsnσ : |fl.val sn - S * σ| ≤ 1 / 10 ^ 6 * σ := hsn1.trans (by linarith)
    have hsnm : |X i + fl.val sn - S * (|X i| + σ)| ≤ 1 / 10 ^ 6 * σ := by
      rw [show X i + fl.val sn - S * (|X i| + σ) = (fl.val sn - S * σ) + (X i - S * |X i|) by ring, hSX, sub_self,
        add_zero]
      exact hsnσ
    have hsnm' : |X i + fl.val sn| ≤ |X i| + σ + 1 / 10 ^ 6 * σ := by
      have h1 := abs_add_le (X i + fl.val sn - S * (|X i| + σ)) (S * (|X i| + σ))
      rw [sub_add_cancel, abs_mul S, hSa, one_mul, abs_of_nonneg (show 0 ≤ |X i| + σ by positivity)] at h1
      linarith
    have hWi : |fl.val (x i + sn) - S * (|X i| + σ)| ≤ 1 / 10 ^ 5 * σ := by
      have h1 := abs_add_le (fl.val (x i + sn) - (X i + fl.val sn)) (X i + fl.val sn - S * (|X i| + σ))
      rw [sub_add_sub_cancel] at h1
      have h2 : fl.u * |X i + fl.val sn| ≤ 1 / 10 ^ 7 * (24 / 10 * σ) :=
        mul_le_mul hu (by linarith) (abs_nonneg _) (by norm_num)
      linarith
    have hWi1 : 99 / 100 * σ ≤ |fl.val (x i + sn)| := by
      have h1 := abs_sub_abs_le_abs_sub (S * (|X i| + σ)) (fl.val (x i + sn))
      rw [abs_sub_comm, abs_mul S, hSa, one_mul, abs_of_nonneg (show 0 ≤ |X i| + σ by positivity)] at h1
      linarith [abs_nonneg (X i)]
    have hWi2 : |fl.val (x i + sn)| ≤ 231 / 100 * σ := by
      have h1 := abs_add_le (fl.val (x i + sn) - S * (|X i| + σ)) (S * (|X i| + σ))
      rw [sub_add_cancel, abs_mul S, hSa, one_mul, abs_of_nonneg (show 0 ≤ |X i| + σ by positivity)] at h1
      linarith
    have hW : ∀ b, i ≤ b → fl.isFinite (Function.update x i (x i + sn) b) ∧
        |fl.val (Function.update x i (x i + sn) b)| ≤ 231 / 100 * σ := fun b hb => by
      by_cases hbi : b = i
      · subst hbi
        rw [Function.update_self]
        exact ⟨fxi, hWi2⟩
      · rw [Function.update_of_ne hbi]
        exact ⟨hx b hb, (hXσ b hb).trans (by linarith)⟩
    -- the first normalization
    set s := Scalar.sqrt factor with hsd
    have hdiv : ∀ b, i ≤ b → |fl.val (Function.update x i (x i + sn) b) / fl.val s| ≤ 198 / 100 := fun b hb => by
      rw [abs_div, abs_of_pos hsp, div_le_iff₀ hsp]
      linarith [(hW b hb).2, hs1.1]
    have fy : ∀ b, i ≤ b → fl.isFinite (b1 b) := fun b hb => by
      simp only [hb1, hb, if_true]
      exact (r.div (hW b hb).1 fs hsp.ne' (k := 1) (le_trans (by norm_num) hF.top)
        ((hdiv b hb).trans (by norm_num))).1
    have ey : ∀ b, i ≤ b → |fl.val (b1 b) - fl.val (Function.update x i (x i + sn) b) / fl.val s| ≤ 1 / 100 :=
      fun b hb => by
      have hf := fy b hb
      simp only [hb1, hb, if_true] at hf ⊢
      refine ((fl.div hf).2 fs).2.trans ?_
      have h1 : fl.u * (|fl.val (Function.update x i (x i + sn) b) / fl.val s| + fl.ω) ≤
          1 / 10 ^ 7 * (198 / 100 + 1) := mul_le_mul hu (add_le_add (hdiv b hb) hF.ω1)
        (add_nonneg (abs_nonneg _) fl.ω_nonneg) (by norm_num)
      linarith
    set Y := vvec fl b1 with hY
    have hY2 : ∀ b, i ≤ b → |Y b| ≤ 2 := fun b hb => by
      have h1 := abs_add_le (fl.val (b1 b) - fl.val (Function.update x i (x i + sn) b) / fl.val s)
        (fl.val (Function.update x i (x i + sn) b) / fl.val s)
      rw [sub_add_cancel] at h1
      have h2 := ey b hb
      have h3 := hdiv b hb
      show |fl.val (b1 b)| ≤ 2
      linarith
    have hYi : 1 / 3 ≤ |Y i| := by
      have h2 := ey i le_rfl
      rw [Function.update_self] at h2
      have h3 : 38 / 100 ≤ |fl.val (x i + sn) / fl.val s| := by
        rw [abs_div, abs_of_pos hsp, le_div_iff₀ hsp]
        linarith [hs1.2]
      have h1 := abs_sub_abs_le_abs_sub (fl.val (x i + sn) / fl.val s) (fl.val (b1 i))
      rw [abs_sub_comm] at h1
      show 1 / 3 ≤ |fl.val (b1 i)|
      linarith
    obtain ⟨A, hgood, nfin⟩ := renorm_near (r := r) k hF fy hY2 hYi
    obtain ⟨S', hS', s1, s2⟩ := hsig (-sn) (r.neg fsn)
    refine ⟨A, S', hgood, hS', s1, s2, r.neg fsn, fun b hb => ?_, ?_, fun b hb => ?_,
      fun h => by simp at h, fun b hb => ?_⟩
    · have := nfin b hb
      simpa only [hb, if_true] using this
    · have h1 := hsmall hgood hS' i le_rfl
      refine (abs_sub _ _).trans ?_
      rw [abs_abs]
      have h2 : |fl.val (-sn)| = |fl.val sn| := by rw [(fl.neg (r.neg fsn)).2, abs_neg]
      show _ + |fl.val (-sn)| ≤ _
      rw [h2]
      linarith
    · have h1 := hsmall hgood hS' b hb.le
      linarith
    · simp only [hb1, not_le.2 hb, if_false]
      rw [Function.update_of_ne hb.ne]

/-- The axis of any column of moderate length. -/
theorem axis_near (q : RoundingQr fl) (k : RoundingMore fl) (v : RoundingSvd fl) (hF : Fine r) (i : Fin 3) (x : V3 R)
    (hx : ∀ a, i ≤ a → fl.isFinite (x a)) (h4 : tailDot i (vvec fl x) (vvec fl x) ≤ 16) :
    ∃ A S, AxisNear fl i x (reflectionAxis i x) A S := by
  by_cases hω : tailDot i (vvec fl x) (vvec fl x) ≤ fl.ω
  · exact axis_tiny q k v hF i x hx hω
  have hω := not_le.1 hω
  have hu0 := fl.u_nonneg
  set X := vvec fl x with hX
  set n := Real.sqrt (tailDot i X X) with hn
  have hnn : n * n = tailDot i X X := Real.mul_self_sqrt (tailDot_nonneg i X)
  have hn4 : n ≤ 4 := Real.sqrt_le_iff.2 ⟨by norm_num, h4.trans (by norm_num)⟩
  have hn0 : 0 < n := Real.sqrt_pos.2 (fl.ω_nonneg.trans_lt hω)
  obtain ⟨g1, g2, g3, g4, g5, g6, g7, g8⟩ := reflectionAxis_near (r := r) q k i x hF.hu hF.ω1 hx hn hn0
    (by rw [hnn]; exact hω.le) (hF.scale zero_le_one (by norm_num)) (hF.scale hn0.le (by linarith))
    (hF.scale (by positivity) (by nlinarith))
  obtain ⟨-, -, -, e4, -⟩ := reflectionAxis_spec i X
  set a := reflectionAxis i x with ha
  set A := reflectionAxis i X with hA
  refine ⟨A.1, signum A.2.1, .inl g7, signum_mul_self _, g5, g6, g4.fin, g2, ?_, fun b hb => ?_, fun h => ?_, g3⟩
  · rw [e4 i le_rfl, if_pos rfl, ← hn, ← g8]
    refine (abs_abs_sub_abs_le _ _).trans ?_
    rw [abs_sub_comm]
    refine g4.err.trans ?_
    have : fl.u * n ≤ fl.u * 4 := by gcongr
    linarith
  · rw [e4 b hb.le, if_neg hb.ne', abs_zero]
    positivity
  · rw [g1] at h
    cases h

end Householder
end CamGeom
