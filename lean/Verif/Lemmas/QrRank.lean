import Verif.Lemmas.QrNear
import Verif.Lemmas.AxisNear
import Verif.Spec.RoundingSvd

/-!
# nalgebra's QR decomposition in floating point, whatever the last column

The last reflection acts on a single number, which is arbitrarily small (or zero) for a singular matrix.  Its square
may underflow; the computed axis is then `±1` or the reflection is skipped.
-/

namespace CamGeom
namespace Householder
open Spec Matrix

variable {R : Type} [Scalar R] {fl : Rounding R} {r : RoundingRange fl}

section
variable {u ω s a ν p f1 f : ℝ}

theorem small_side (hu0 : 0 ≤ u) (hu : u ≤ 1 / 10 ^ 7) (hs : 0 < s) (ha : 0 ≤ a) (h1 : 2 * (u * ω) ≤ s * s)
    (h2 : |s * s - a * a| ≤ u * (a * a + ω)) : 7 / 10 * s ≤ a ∧ a ≤ 123 / 100 * s := by
  rw [abs_le] at h2
  have e1 : u * (a * a) ≤ 1 / 10 ^ 7 * (a * a) := mul_le_mul_of_nonneg_right hu (mul_self_nonneg a)
  have e2 : 0 ≤ u * (a * a) := mul_nonneg hu0 (mul_self_nonneg a)
  constructor
  · refine le_of_sq_le_sq ?_ ha
    nlinarith
  · refine le_of_sq_le_sq ?_ (by positivity)
    nlinarith

theorem small_factor (hu : u ≤ 1 / 10 ^ 7) (hs : 0 < s) (h1 : 2 * (u * ω) ≤ s * s)
    (ha : 7 / 10 * s ≤ a) (ha' : a ≤ 123 / 100 * s) (h3 : |ν - s| ≤ u * s)
    (h4 : |p - a * ν| ≤ u * (|a * ν| + ω)) (h5 : |f1 - (s * s + p)| ≤ u * |s * s + p|)
    (h6 : |f - f1 * 2| ≤ u * (|f1 * 2| + ω)) : 18 / 10 * (s * s) ≤ f ∧ f ≤ 61 / 10 * (s * s) := by
  have hss : 0 < s * s := mul_pos hs hs
  have e0 : u * s ≤ 1 / 10 ^ 7 * s := mul_le_mul_of_nonneg_right hu hs.le
  have n1 := abs_le.1 h3
  have ν1 : 999999 / 1000000 * s ≤ ν := by linarith
  have ν2 : ν ≤ 1000001 / 1000000 * s := by linarith
  have q1 : 69 / 100 * (s * s) ≤ a * ν := by
    have := mul_le_mul ha ν1 (by positivity) (by linarith)
    linarith
  have q2 : a * ν ≤ 124 / 100 * (s * s) := by
    have := mul_le_mul ha' ν2 (by linarith) (by positivity)
    linarith
  rw [abs_of_nonneg (show 0 ≤ a * ν by linarith)] at h4
  have n2 := abs_le.1 h4
  have e1 : u * (a * ν) ≤ 1 / 10 ^ 7 * (124 / 100 * (s * s)) := mul_le_mul hu q2 (by linarith) (by norm_num)
  have p1 : 18 / 100 * (s * s) ≤ p := by linarith
  have p2 : p ≤ 175 / 100 * (s * s) := by linarith
  rw [abs_of_nonneg (show 0 ≤ s * s + p by linarith)] at h5
  have n3 := abs_le.1 h5
  have e2 : u * (s * s + p) ≤ 1 / 10 ^ 7 * (275 / 100 * (s * s)) := mul_le_mul hu (by linarith) (by linarith) (by norm_num)
  have f11 : 117 / 100 * (s * s) ≤ f1 := by linarith
  have f12 : f1 ≤ 276 / 100 * (s * s) := by linarith
  rw [abs_of_nonneg (show 0 ≤ f1 * 2 by linarith)] at h6
  have n4 := abs_le.1 h6
  have e3 : u * (f1 * 2) ≤ 1 / 10 ^ 7 * (552 / 100 * (s * s)) := mul_le_mul hu (by linarith) (by linarith) (by norm_num)
  constructor <;> linarith

end

/-- Normalising a single number of moderate size gives `±1`. -/
theorem normalize_one (k : RoundingMore fl) (hF : Fine r) {b : R} (hb : fl.isFinite b)
    (h1 : 66 / 100 ≤ |fl.val b|) (h2 : |fl.val b| ≤ 2) :
    ∃ A : ℝ, A * A = 1 ∧ Near fl 1 1 412 (b / Scalar.sqrt (b * b)) A := by
  have hu := hF.hu
  have s0 : Scale r 1 := hF.scale (by norm_num) (by norm_num)
  have hω := hF.ω1
  have nb : Near fl 1 2 0 b (fl.val b) := Near.exact hb (by linarith)
  have nbb : Near fl (1 * 1) 4 5 (b * b) (fl.val b * fl.val b) :=
    Near.mul (r := r) (M := 4) zero_le_one zero_le_one (by rwa [one_mul]) (by rwa [one_mul]) hu nb nb
      (by
        rw [abs_mul]
        have := mul_le_mul h2 h2 (abs_nonneg _) (by norm_num)
        linarith)
  have ab : |fl.val b| * |fl.val b| = fl.val b * fl.val b := abs_mul_abs_self _
  have nn : Near fl 1 2 10 (Scalar.sqrt (b * b)) |fl.val b| := by
    have := nbb.sqrt (r := r) (M := 2) (C := 10) k (66 / 100) zero_le_one s0 hu (by nlinarith) (by nlinarith)
    exact this.congr (Real.sqrt_mul_self_eq_abs _)
  have hp : 0 < |fl.val b| := by linarith
  have e : |(fl.val b / |fl.val b|)| = 1 := by rw [abs_div, abs_abs, div_self hp.ne']
  have := Near.div (r := r) (M := 1) (C := 412) (66 / 100) zero_le_one zero_lt_one (by rwa [div_one])
    (by rwa [div_one]) hu nb nn (by rw [abs_abs]; linarith) (by rw [e]; norm_num)
  refine ⟨_, ?_, this.scale (div_one _)⟩
  rw [← abs_mul_abs_self, e, one_mul]

set_option maxHeartbeats 1000000 in
/-- The last reflection for a number whose square is below the smallest normal number. -/
theorem lastAxis_small (q : RoundingQr fl) (k : RoundingMore fl) (v : RoundingSvd fl) (hF : Fine r) {x : V3 R}
    (hx : fl.isFinite (x 2)) (hs : fl.val (x 2) * fl.val (x 2) ≤ fl.ω) :
    fl.isFinite (reflectionAxis 2 x).2.1 ∧ |fl.val (reflectionAxis 2 x).2.1| ≤ fl.u / 10 ∧
    (∀ b, b < 2 → (reflectionAxis 2 x).1 b = x b) ∧
    (((reflectionAxis 2 x).2.2 = true ∧ ∃ A : ℝ, A * A = 1 ∧ Near fl 1 1 412 ((reflectionAxis 2 x).1 2) A) ∨
     ((reflectionAxis 2 x).2.2 = false ∧ fl.isFinite ((reflectionAxis 2 x).1 2) ∧
       |fl.val ((reflectionAxis 2 x).1 2)| ≤ fl.u / 10)) := by
  have hu0 := fl.u_nonneg
  have hω0 := fl.ω_nonneg
  have hu := hF.hu
  have hωu := hF.ω_le
  set X := fl.val (x 2) with hX
  have hXX : 0 ≤ X * X := mul_self_nonneg X
  have huu : fl.u * fl.u ≤ 1 / 10 ^ 14 := by
    have := mul_le_mul hu hu hu0 (by norm_num)
    linarith
  have ha : |X| ≤ fl.u / 1000 := by
    refine le_of_sq_le_sq ?_ (by positivity)
    rw [sq_abs]
    nlinarith
  have htop : 2 ≤ r.top := by have := hF.top; omega
  -- the squared norm
  set sq := x 2 * x 2 with hsq
  have fsq : fl.isFinite sq := (r.mul hx hx (k := 0) (by omega) (by rw [← hX, abs_of_nonneg hXX]; linarith)).1
  have esq := (fl.mul fsq).2.2
  rw [← hX, abs_of_nonneg hXX] at esq
  have sq0 : 0 ≤ fl.val sq := by
    by_contra hn
    push Not at hn
    have h1 := v.least fsq hn.ne
    rw [abs_of_neg hn] at h1
    have h2 := (abs_le.1 esq).1
    have h3 : fl.u * (X * X) ≤ 1 / 10 ^ 7 * (X * X) := mul_le_mul_of_nonneg_right hu hXX
    nlinarith
  set s := Real.sqrt (fl.val sq) with hs'
  have s0 : 0 ≤ s := Real.sqrt_nonneg _
  have ss : s * s = fl.val sq := Real.mul_self_sqrt sq0
  rw [← ss] at esq
  have uωle : fl.u * fl.ω ≤ 1 / 10 ^ 7 * fl.ω := mul_le_mul_of_nonneg_right hu hω0
  have ss2 : s * s ≤ 2 * fl.ω := by
    have h2 := (abs_le.1 esq).2
    have h3 : fl.u * (X * X) ≤ 1 / 10 ^ 7 * (X * X) := mul_le_mul_of_nonneg_right hu hXX
    linarith
  have s2 : s ≤ 2 * fl.u / 1000 := by
    refine le_of_sq_le_sq ?_ (by positivity)
    nlinarith
  have s3 : s ≤ 1 / 10 ^ 9 := by linarith
  set norm := Scalar.sqrt sq with hnorm
  have fnorm : fl.isFinite norm := (r.sqrt fsq sq0 (k := 0) (by omega) (by rw [← hs']; linarith)).1
  have enorm := (k.sqrt fnorm).2.2
  rw [← hs'] at enorm
  set ν := fl.val norm with hν
  have us : fl.u * s ≤ 1 / 10 ^ 7 * s := mul_le_mul_of_nonneg_right hu s0
  have ν1 : (1 - 1 / 10 ^ 7) * s ≤ ν := by linarith [(abs_le.1 enorm).1]
  have ν2 : ν ≤ (1 + 1 / 10 ^ 7) * s := by linarith [(abs_le.1 enorm).2]
  have ν0 : 0 ≤ ν := le_trans (by positivity) ν1
  -- the modulus
  set md := Scalar.abs (x 2) with hmd
  obtain ⟨fmd, vmd⟩ := q.abs hx
  rw [← hX, ← hmd] at vmd
  -- the sign
  obtain ⟨σ, hσ, hσX⟩ : ∃ σ : ℝ, σ * σ = 1 ∧ σ * |X| = X := by
    rcases le_or_gt 0 X with h | h
    · exact ⟨1, by norm_num, by rw [abs_of_nonneg h, one_mul]⟩
    · exact ⟨-1, by norm_num, by rw [abs_of_neg h]; ring⟩
  have hσa : |σ| = 1 := by
    rcases mul_self_eq_one_iff.1 hσ with h | h <;> rw [h] <;> norm_num
  have nsign : ∃ t : R, (if Scalar.beq md 0 then 1 else x 2 / md : R) = t ∧ fl.isFinite t ∧
      (|X| ≠ 0 → |fl.val t - σ| ≤ 2 * fl.u) ∧ |fl.val t| ≤ 2 := by
    by_cases hz : |X| = 0
    · have : Scalar.beq md 0 = true := (q.beq_iff fmd fl.zero.1).2 (by rw [vmd, hz, fl.zero.2])
      rw [if_pos this]
      exact ⟨_, rfl, fl.one.1, fun h => absurd hz h, by rw [fl.one.2]; norm_num⟩
    · have : ¬ Scalar.beq md 0 = true := by
        rw [q.beq_iff fmd fl.zero.1, vmd, fl.zero.2]; exact hz
      rw [if_neg this]
      have hq : X / |X| = σ := by
        rw [div_eq_iff hz]; exact hσX.symm
      have fd : fl.isFinite (x 2 / md) :=
        (r.div hx fmd (by rw [vmd]; exact hz) (k := 0) (by omega) (by
          rw [vmd, ← hX, hq, hσa]; norm_num)).1
      have ed := ((fl.div fd).2 fmd).2
      rw [vmd, ← hX, hq, hσa] at ed
      have hω1 := hF.ω1
      have ed2 : |fl.val (x 2 / md) - σ| ≤ 2 * fl.u := ed.trans (by nlinarith)
      refine ⟨_, rfl, fd, fun _ => ed2, ?_⟩
      have := abs_add_le (fl.val (x 2 / md) - σ) σ
      rw [sub_add_cancel, hσa] at this
      linarith
  obtain ⟨sign, hsign, fsign, esign, bsign⟩ := nsign
  have tν : |fl.val sign * ν| ≤ 2 * ((1 + 1 / 10 ^ 7) * s) := by
    rw [abs_mul, abs_of_nonneg ν0]
    exact mul_le_mul bsign ν2 ν0 (by norm_num)
  have fsn : fl.isFinite (sign * norm) := (r.mul fsign fnorm (k := 0) (by omega) (by rw [← hν]; linarith)).1
  have esn := (fl.mul fsn).2.2
  rw [← hν] at esn
  have utν : fl.u * |fl.val sign * ν| ≤ 1 / 10 ^ 7 * |fl.val sign * ν| := mul_le_mul_of_nonneg_right hu (abs_nonneg _)
  have uωu : fl.u * fl.ω ≤ fl.u / 10 ^ 9 := by
    have := mul_le_mul_of_nonneg_left (hF.ω_le'.trans (by norm_num : (1 : ℝ) / 10 ^ 100 ≤ 1 / 10 ^ 9)) hu0
    linarith
  have bsn : |fl.val (sign * norm)| ≤ fl.u / 100 := by
    have := abs_add_le (fl.val (sign * norm) - fl.val sign * ν) (fl.val sign * ν)
    rw [sub_add_cancel] at this
    linarith
  -- the factor
  have aν : |(|X| * ν)| ≤ fl.u / 1000 := by
    rw [abs_mul, abs_abs, abs_of_nonneg ν0]
    have : |X| * ν ≤ fl.u / 1000 * 1 := mul_le_mul ha (by linarith) ν0 (by positivity)
    linarith
  have fmn : fl.isFinite (md * norm) := (r.mul fmd fnorm (k := 0) (by omega) (by
    rw [← hν, vmd]; linarith)).1
  have emn := (fl.mul fmn).2.2
  rw [← hν, vmd] at emn
  have bmn : |fl.val (md * norm)| ≤ 1 / 2 := by
    have := abs_add_le (fl.val (md * norm) - |X| * ν) (|X| * ν)
    rw [sub_add_cancel] at this
    have : fl.u * |(|X| * ν)| ≤ 1 / 10 ^ 7 * |(|X| * ν)| := mul_le_mul_of_nonneg_right hu (abs_nonneg _)
    linarith
  have sω : s * s ≤ 1 / 10 := by linarith [hF.ω_le'.trans (by norm_num : (1 : ℝ) / 10 ^ 100 ≤ 1 / 100)]
  have bf1 : |fl.val sq + fl.val (md * norm)| ≤ 1 := by
    rw [← ss]
    have := abs_add_le (s * s) (fl.val (md * norm))
    rw [abs_of_nonneg (mul_self_nonneg s)] at this
    linarith
  have if1 := r.add fsq fmn (k := 0) (by omega) (by linarith [bf1])
  set f1 := sq + md * norm with hf1
  have ef1 := (fl.add if1.1).2.2
  have if2 := r.mul if1.1 fl.lit_two.1 (k := 1) (by omega) (by
    rw [fl.lit_two.2, abs_mul, abs_two]; have := if1.2; norm_num at this ⊢; linarith)
  set factor := f1 * Scalar.lit 2 with hfactor
  have ef2 := (fl.mul if2.1).2.2
  rw [fl.lit_two.2] at ef2
  -- the shifted number
  have bw : |X + fl.val (sign * norm)| ≤ 11 / 1000 * fl.u := by
    refine (abs_add_le _ _).trans ?_
    linarith
  have iw := r.add hx fsn (k := 0) (by omega) (by rw [← hX]; linarith)
  have ew := (fl.add iw.1).2.2
  rw [← hX] at ew
  have bw' : |fl.val (x 2 + sign * norm)| ≤ fl.u / 10 := by
    have := abs_add_le (fl.val (x 2 + sign * norm) - (X + fl.val (sign * norm))) (X + fl.val (sign * norm))
    rw [sub_add_cancel] at this
    have : fl.u * |X + fl.val (sign * norm)| ≤ 1 * |X + fl.val (sign * norm)| :=
      mul_le_mul_of_nonneg_right (by linarith) (abs_nonneg _)
    linarith
  have etd : ∀ y : V3 R, tailDot 2 y y = y 2 * y 2 := fun y => by simp [tailDot]
  have ea : reflectionAxis 2 x = if Scalar.beq factor 0 then
      (Function.update x 2 (x 2 + sign * norm), sign * norm, false)
      else (fun i => if 2 ≤ i then (if 2 ≤ i then Function.update x 2 (x 2 + sign * norm) i / Scalar.sqrt factor
          else Function.update x 2 (x 2 + sign * norm) i) /
          Scalar.sqrt ((x 2 + sign * norm) / Scalar.sqrt factor * ((x 2 + sign * norm) / Scalar.sqrt factor))
          else (if 2 ≤ i then Function.update x 2 (x 2 + sign * norm) i / Scalar.sqrt factor
            else Function.update x 2 (x 2 + sign * norm) i), -(sign * norm), true) := by
    simp only [reflectionAxis, etd, ← hsq, ← hnorm, ← hmd, hsign, ← hf1, ← hfactor, le_refl, if_true,
      Function.update_self]
  have fneg := r.neg fsn
  rw [ea]
  by_cases hb : Scalar.beq factor 0 = true
  · rw [if_pos hb]
    refine ⟨fsn, by linarith, fun b hb => Function.update_of_ne hb.ne _ _, Or.inr ⟨rfl, ?_, ?_⟩⟩
    · simpa using iw.1
    · simpa using bw'
  · rw [if_neg hb]
    refine ⟨fneg, by rw [(fl.neg fneg).2, abs_neg]; linarith, fun b hb => ?_, Or.inl ⟨rfl, ?_⟩⟩
    · simp only [not_le.2 hb, if_false]
      exact Function.update_of_ne hb.ne _ _
    have hne : fl.val factor ≠ 0 := fun h => hb ((q.beq_iff if2.1 fl.zero.1).2 (by rw [h, fl.zero.2]))
    have sqne : fl.val sq ≠ 0 := by
      intro h0
      have s00 : s = 0 := by rw [hs', h0, Real.sqrt_zero]
      have ν00 : ν = 0 := by
        have := enorm
        rw [s00, mul_zero, sub_zero] at this
        exact abs_nonpos_iff.1 this
      have mn0 := (fl.mul_zero fmd fnorm ν00).2
      have f10 := (fl.add_zero fsq fmn mn0).2
      rw [h0] at f10
      exact hne (fl.zero_mul if1.1 fl.lit_two.1 f10).2
    have least := v.least fsq sqne
    rw [abs_of_nonneg sq0, ← ss] at least
    have sp : 0 < s := by
      refine lt_of_le_of_ne s0 fun h => sqne ?_
      rw [← ss, ← h, mul_zero]
    have eXX : X * X = |X| * |X| := (abs_mul_abs_self X).symm
    obtain ⟨a1, a2⟩ := small_side hu0 hu sp (abs_nonneg X) least (by rw [← eXX]; exact esq)
    obtain ⟨g1, g2⟩ := small_factor hu sp least a1 a2 enorm emn (by rw [ss]; exact ef1) ef2
    have hX0 : |X| ≠ 0 := (lt_of_lt_of_le (by positivity) a1).ne'
    have es := esign hX0
    -- the signed norm
    have uωs : fl.u * fl.ω ≤ 1 / 1000 * s := by nlinarith
    have w1 : |X + fl.val (sign * norm) - σ * (|X| + s)| ≤ 2 / 100 * s := by
      have e1 : X + fl.val (sign * norm) - σ * (|X| + s) =
          (fl.val (sign * norm) - fl.val sign * ν) + (fl.val sign - σ) * ν + σ * (ν - s) := by
        nth_rewrite 1 [← hσX]; ring
      rw [e1]
      refine (abs_add_three _ _ _).trans ?_
      rw [abs_mul, abs_mul, hσa, abs_of_nonneg ν0, one_mul]
      have e2 : |fl.val sign - σ| * ν ≤ 2 / 10 ^ 7 * ((1 + 1 / 10 ^ 7) * s) :=
        mul_le_mul (by linarith) ν2 ν0 (by norm_num)
      linarith
    have hσs : |σ * (|X| + s)| = |X| + s := by
      rw [abs_mul, hσa, one_mul, abs_of_nonneg (show 0 ≤ |X| + s by positivity)]
    set Wv := fl.val (x 2 + sign * norm) with hWv
    have w2 : |Wv - σ * (|X| + s)| ≤ 3 / 100 * s := by
      have e1 := abs_sub_le Wv (X + fl.val (sign * norm)) (σ * (|X| + s))
      have e2 : |X + fl.val (sign * norm)| ≤ 3 * s := by
        have := abs_add_le (X + fl.val (sign * norm) - σ * (|X| + s)) (σ * (|X| + s))
        rw [sub_add_cancel, hσs] at this
        linarith
      have e3 : fl.u * |X + fl.val (sign * norm)| ≤ 1 / 10 ^ 7 * (3 * s) := mul_le_mul hu e2 (abs_nonneg _) (by norm_num)
      linarith
    have w3 : 167 / 100 * s ≤ |Wv| := by
      have := abs_sub_abs_le_abs_sub (σ * (|X| + s)) Wv
      rw [abs_sub_comm, hσs] at this
      linarith
    have w4 : |Wv| ≤ 226 / 100 * s := by
      have := abs_sub_abs_le_abs_sub Wv (σ * (|X| + s))
      rw [hσs] at this
      linarith
    -- the square root of the factor
    have f0 : 0 ≤ fl.val factor := le_trans (by positivity) g1
    have r1 : 134 / 100 * s ≤ Real.sqrt (fl.val factor) := Real.le_sqrt_of_sq_le (by nlinarith)
    have r2 : Real.sqrt (fl.val factor) ≤ 248 / 100 * s := Real.sqrt_le_iff.2 ⟨by positivity, by nlinarith⟩
    have fsf : fl.isFinite (Scalar.sqrt factor) := (r.sqrt if2.1 f0 (k := 0) (by omega) (by linarith)).1
    have esf := abs_le.1 (k.sqrt fsf).2.2
    set G := fl.val (Scalar.sqrt factor) with hG
    have uR : fl.u * Real.sqrt (fl.val factor) ≤ 1 / 10 ^ 7 * Real.sqrt (fl.val factor) :=
      mul_le_mul_of_nonneg_right hu (Real.sqrt_nonneg _)
    have G1 : 133 / 100 * s ≤ G := by linarith
    have G2 : G ≤ 249 / 100 * s := by linarith
    have Gp : 0 < G := lt_of_lt_of_le (by positivity) G1
    -- the quotient
    have hq : |Wv / G| = |Wv| / G := by rw [abs_div, abs_of_pos Gp]
    have b1 : 67 / 100 ≤ |Wv / G| := by
      rw [hq, le_div_iff₀ Gp]
      linarith
    have b2 : |Wv / G| ≤ 17 / 10 := by
      rw [hq, div_le_iff₀ Gp]
      linarith
    have ib := r.div iw.1 fsf Gp.ne' (k := 1) (by omega) (by rw [← hWv, ← hG]; linarith)
    have eb := ((fl.div ib.1).2 fsf).2
    rw [← hWv, ← hG] at eb
    have ub : fl.u * |Wv / G| ≤ 1 / 10 ^ 7 * (17 / 10) := mul_le_mul hu b2 (abs_nonneg _) (by norm_num)
    have c1 := abs_sub_abs_le_abs_sub (fl.val ((x 2 + sign * norm) / Scalar.sqrt factor)) (Wv / G)
    have c2 := abs_sub_abs_le_abs_sub (Wv / G) (fl.val ((x 2 + sign * norm) / Scalar.sqrt factor))
    rw [abs_sub_comm] at c2
    have hω1 := hF.ω1
    obtain ⟨A, hA, hA'⟩ := normalize_one k hF ib.1 (by linarith) (by linarith)
    refine ⟨A, hA, ?_⟩
    simpa using hA'

/-! ### The last step -/

theorem tailDot_two (a b : V3 ℝ) : tailDot 2 a b = a 2 * b 2 := by simp [tailDot]

/-- The last step of `QR::new` and of `q()`, compared with the exact reflection `reflect 2 (e 2) S`. -/
structure LastNear (fl : Rounding R) (m m' : Mat 3 3 R) (d : R) (L S : ℝ) : Prop where
  sign : S * S = 1
  above : ∀ b, b < 2 → m' b 2 = m b 2
  left : ∀ b c, c < 2 → m' b c = m b c
  diag_fin : fl.isFinite (Scalar.abs d)
  diag : |fl.val (Scalar.abs d) - reflect 2 (e 2) S (vcol fl m 2) 2| ≤ 20 * (fl.u * L)
  diag_nonneg : 0 ≤ fl.val (Scalar.abs d)
  qfin : ∀ b, fl.isFinite (reflect 2 (fun k => m' k 2) (signum d) (fun b => if b = 2 then 1 else 0) b)
  qnear : len (vvec fl (reflect 2 (fun k => m' k 2) (signum d) fun b => if b = 2 then 1 else 0) -
    reflect 2 (e 2) S (e 2)) ≤ 6720 * fl.u

theorem vvec_one (c : Fin 3) : vvec fl (fun b => if b = c then (1 : R) else 0) = e c := by
  funext b
  by_cases hb : b = c
  · simp [vvec, e, hb, fl.one.2]
  · simp [vvec, e, hb, fl.zero.2]

theorem clear_last (q : RoundingQr fl) (k : RoundingMore fl) (v : RoundingSvd fl) (hF : Fine r) {m : Mat 3 3 R}
    (hm : ∀ b, fl.isFinite (m b 2)) {L : ℝ} (hL : 1 ≤ L) (hmL : |fl.val (m 2 2)| ≤ L) (s1 : Scale r L)
    (s2 : Scale r (L * L)) :
    ∃ S, LastNear fl m (clearColumn 2 m).1 (clearColumn 2 m).2 L S := by
  have hu0 := fl.u_nonneg
  have hu := hF.hu
  have hω1 := hF.ω1
  have s0 : Scale r 1 := hF.scale (by norm_num) (by norm_num)
  have fe : ∀ b : Fin 3, fl.isFinite (if b = 2 then (1 : R) else 0) := fun b => by
    split
    exacts [fl.one.1, fl.zero.1]
  have le2 : ∀ c : Fin 3, 2 ≤ c → c = 2 := fun c hc => le_antisymm (Fin.le_last c) hc
  -- one reflection of the last basis vector
  have key : ∀ (axis : V3 R) (A : V3 ℝ) (sg : R) (S : ℝ), Near fl 1 1 412 (axis 2) (A 2) → tailDot 2 A A ≤ 1 →
      fl.isFinite sg → fl.val sg = S → S * S = 1 →
      (∀ b, fl.isFinite (reflect 2 axis sg (fun b => if b = 2 then 1 else 0) b)) ∧
      len (vvec fl (reflect 2 axis sg fun b => if b = 2 then 1 else 0) - reflect 2 A S (e 2)) ≤ 6720 * fl.u := by
    intro axis A sg S ha hA hf hv hS
    have h1 := reflect_near (r := r) q 2 (axis := axis) (col := fun b => if b = 2 then 1 else 0) (L := 1) hu hω1
      (fun b hb => by rw [le2 b hb]; exact ha) hA hf hv hS fe zero_le_one hω1 s0 s0
      (by rw [vvec_one, dot_e]; simp)
    rw [vvec_one] at h1
    refine ⟨fun b => (h1 b).fin, ?_⟩
    have := len_le_entries (v := vvec fl (reflect 2 axis sg fun b => if b = 2 then 1 else 0) - reflect 2 A S (e 2))
      fun b => (h1 b).err
    linarith
  by_cases hω : fl.ω ≤ |fl.val (m 2 2)| * |fl.val (m 2 2)| ∧ 0 < |fl.val (m 2 2)|
  · obtain ⟨hω, hp⟩ := hω
    have hn : |fl.val (m 2 2)| = Real.sqrt (tailDot 2 (vcol fl m 2) (vcol fl m 2)) := by
      rw [tailDot_two, Real.sqrt_mul_self_eq_abs]; rfl
    obtain ⟨A, S, h⟩ := clear_near (r := r) q k 2 m hu hω1 (fun c hc b => by rw [le2 c hc]; exact hm b) hn hp hω s0
      (s1.mono' hp.le hmL) (s2.mono' (by positivity) (mul_le_mul hmL hmL (abs_nonneg _) (by linarith)))
    have hAA : A 2 * A 2 = 1 := by rw [← tailDot_two]; exact h.unit
    have er : ∀ w : V3 ℝ, reflect 2 A S w = reflect 2 (e 2) S w := fun w => by
      funext b
      by_cases hb : 2 ≤ b
      · have := le2 b hb
        subst this
        simp [reflect, tailDot, e]
        linear_combination (2 * S * w 2) * hAA
      · simp [reflect, hb]
    obtain ⟨k1, k2⟩ := key (fun j => (clearColumn 2 m).1 j 2) A _ S (h.axis 2 le_rfl) h.unit.le h.sign_fin h.sign_val h.sign
    refine ⟨S, h.sign, h.above, h.left, h.diag.fin, ?_, h.diag_nonneg, k1, ?_⟩
    · rw [← er, h.clears]
      simp only [lt_irrefl, if_false, if_true]
      refine h.diag.err.trans ?_
      have := mul_le_mul_of_nonneg_left hmL hu0
      have : 0 ≤ fl.u * L := mul_nonneg hu0 (by linarith)
      linarith
    · rw [← er]; exact k2
  · have hs : fl.val (m 2 2) * fl.val (m 2 2) ≤ fl.ω := by
      by_cases hz : fl.val (m 2 2) = 0
      · rw [hz, mul_zero]; exact fl.ω_nonneg
      · by_contra hn
        refine hω ⟨?_, abs_pos.2 hz⟩
        rw [abs_mul_abs_self]
        exact (not_le.1 hn).le
    obtain ⟨d1, d2, d3, d4⟩ := lastAxis_small q k v hF (x := fun b => m b 2) (hm 2) hs
    set a := reflectionAxis 2 fun b => m b 2 with ha
    have hx : |fl.val (m 2 2)| ≤ fl.u / 1000 := by
      refine le_of_sq_le_sq ?_ (by positivity)
      rw [sq_abs]
      have := hF.ω_le
      nlinarith
    have ec : (clearColumn 2 m).2 = a.2.1 := by
      simp only [clearColumn, ← ha]
      split <;> rfl
    have em : ∀ b c, (clearColumn 2 m).1 b c = if c = 2 then a.1 b else m b c := fun b c => by
      have : ¬ 2 < c := not_lt.2 (Fin.le_last c)
      simp only [clearColumn, ← ha]
      split <;> simp [this]
    have ecol : (fun j => (clearColumn 2 m).1 j 2) = a.1 := by
      funext j; rw [em, if_pos rfl]
    obtain ⟨g1, g2⟩ := signum_near k r d1 (Iff.rfl (a := fl.val a.2.1 < 0))
    have hS : signum (fl.val a.2.1) * signum (fl.val a.2.1) = 1 := signum_mul_self _
    set S := signum (fl.val a.2.1) with hSd
    obtain ⟨f1, f2⟩ := q.abs d1
    have hSa : |S| = 1 := by
      rcases mul_self_eq_one_iff.1 hS with h | h <;> rw [h] <;> norm_num
    -- the rest, for the sign `S'` of the exact reflection
    have fin : ∀ S', S' * S' = 1 → ∀ A : V3 ℝ, Near fl 1 1 412 (a.1 2) (A 2) → tailDot 2 A A ≤ 1 →
        reflect 2 A S (e 2) = reflect 2 (e 2) S' (e 2) →
        LastNear fl m (clearColumn 2 m).1 (clearColumn 2 m).2 L S' := by
      intro S' hS' A hA hAA her
      obtain ⟨k1, k2⟩ := key a.1 A _ S hA hAA g1 g2 hS
      refine ⟨hS', fun b hb => ?_, fun b c hc => ?_, ?_, ?_, ?_, ?_, ?_⟩
      · rw [em, if_pos rfl]; exact d3 b hb
      · rw [em, if_neg hc.ne]
      · rw [ec]; exact f1
      · rw [ec, f2]
        have e1 : |reflect 2 (e 2) S' (vcol fl m 2) 2| = |fl.val (m 2 2)| := by
          have : reflect 2 (e 2) S' (vcol fl m 2) 2 = -S' * fl.val (m 2 2) := by
            simp [reflect, tailDot, e, vcol, vvec]; ring
          rw [this, abs_mul, abs_neg]
          rcases mul_self_eq_one_iff.1 hS' with h | h <;> rw [h] <;> norm_num
        have e2 := abs_sub |fl.val a.2.1| (reflect 2 (e 2) S' (vcol fl m 2) 2)
        rw [abs_abs, e1] at e2
        have e3 : fl.u * 1 ≤ fl.u * L := mul_le_mul_of_nonneg_left hL hu0
        linarith
      · rw [ec, f2]; exact abs_nonneg _
      · rw [ecol, ec]; exact k1
      · rw [ecol, ec, ← her]; exact k2
    rcases d4 with ⟨-, A, hA, hA'⟩ | ⟨-, h1, h2⟩
    · refine ⟨S, fin S hS (fun _ => A) hA' (by rw [tailDot_two, hA]) ?_⟩
      funext b
      by_cases hb : 2 ≤ b
      · have := le2 b hb
        subst this
        simp [reflect, tailDot, e]
        linear_combination (2 * S) * hA
      · simp [reflect, hb]
    · refine ⟨-S, fin (-S) (by rw [neg_mul_neg]; exact hS) (fun _ => 0) ⟨h1, by simp, ?_⟩ (by rw [tailDot_two]; simp) ?_⟩
      · rw [sub_zero]
        linarith
      funext b
      by_cases hb : 2 ≤ b
      · have := le2 b hb
        subst this
        simp [reflect, tailDot, e]
        ring
      · simp [reflect, hb]

/-- Conditions on the matrix: finite, far from overflow and underflow, the first two columns neither short nor nearly
parallel.  `N` are the lengths of the columns, for the last one an upper bound. -/
structure RankInput (r : RoundingRange fl) (m : Mat 3 3 R) (N : Fin 3 → ℝ) : Prop where
  fin : ∀ a c, fl.isFinite (m a c)
  len0 : len (vcol fl m 0) = N 0
  len1 : len (vcol fl m 1) = N 1
  len2 : len (vcol fl m 2) ≤ N 2
  low : ∀ c, 1 / 10 ≤ N c
  one2 : 1 ≤ N 2
  cos : |dot (vcol fl m 0) (vcol fl m 1)| ≤ 1 / 2 * (N 0 * N 1)
  top1 : ∀ c, Scale r (2 * N c)
  top2 : ∀ c, Scale r (2 * (N c * N c))

/-- The computed factors, compared with an exactly orthogonal matrix. -/
structure RankOutput (fl : Rounding R) (m : Mat 3 3 R) (N : Fin 3 → ℝ) (Qh Rh : Mat 3 3 R)
    (Q : Matrix (Fin 3) (Fin 3) ℝ) : Prop where
  orth : Q.transpose * Q = 1
  q_fin : ∀ a c, fl.isFinite (Qh a c)
  q_near : ∀ a c, |fl.val (Qh a c) - Q a c| ≤ 20200 * fl.u
  r_fin : ∀ a c, fl.isFinite (Rh a c)
  r_zero : ∀ a c, c < a → fl.val (Rh a c) = 0
  r_nonneg : ∀ a, 0 ≤ fl.val (Rh a a)
  prod : ∀ a c, |(Q * Matrix.of fun a c => fl.val (Rh a c)) a c - fl.val (m a c)| ≤ 13500 * fl.u * N c

set_option maxHeartbeats 1000000 in
theorem qr_rank (q : RoundingQr fl) (k : RoundingMore fl) (v : RoundingSvd fl) (hF : Fine r) {m : Mat 3 3 R}
    {N : Fin 3 → ℝ} (h : RankInput r m N) :
    ∃ Q, RankOutput fl m N (Householder.qr m).1 (Householder.qr m).2 Q := by
  have hu0 := fl.u_nonneg
  have hu := hF.hu
  have hω1 := hF.ω1
  have s0 : Scale r 1 := hF.scale (by norm_num) (by norm_num)
  have s2 : Scale r 2 := hF.scale (by norm_num) (by norm_num)
  have hN : ∀ c, 0 < N c := fun c => lt_of_lt_of_le (by norm_num) (h.low c)
  have hlen : ∀ c, len (vcol fl m c) ≤ N c := by
    intro c; fin_cases c
    exacts [h.len0.le, h.len1.le, h.len2]
  have uN : ∀ c, fl.u * N c ≤ 1 / 10 ^ 7 * N c := fun c => mul_le_mul_of_nonneg_right hu (hN c).le
  have uN0 : ∀ c, 0 ≤ fl.u * N c := fun c => mul_nonneg hu0 (hN c).le
  have hω3 : fl.ω ≤ 1 / 1000 := hF.ω_le'.trans (by norm_num)
  have hω2 : ∀ c n, 8 / 10 * N c ≤ n → fl.ω ≤ n * n := fun c n hn => by
    have h1 : 8 / 100 ≤ n := by linarith [h.low c]
    nlinarith
  have hωN : ∀ c L, N c ≤ L → fl.ω ≤ L := fun c L hL => by linarith [h.low c]
  have sc1 : ∀ c n, 0 ≤ n → n ≤ 1002 / 1000 * N c → Scale r n := fun c n h0 hn =>
    (h.top1 c).mono' h0 (by linarith [hN c])
  have sc2 : ∀ c n, 0 ≤ n → n ≤ 1002 / 1000 * N c → Scale r (n * n) := fun c n h0 hn =>
    (h.top2 c).mono' (mul_nonneg h0 h0) (by
      have := mul_le_mul hn hn h0 (by linarith [hN c])
      have := mul_pos (hN c) (hN c)
      linarith)
  -- step 0
  have n0 : N 0 = Real.sqrt (tailDot 0 (vcol fl m 0) (vcol fl m 0)) := by
    rw [← h.len0, len_eq]; simp [tailDot, dotProduct, Fin.sum_univ_three]
  obtain ⟨A0, S0, h0⟩ := clear_near (r := r) q k 0 m hu hω1 (fun c _ b => h.fin b c) n0 (hN 0)
    (hω2 0 _ (by linarith [hN 0])) s0 (sc1 0 _ (hN 0).le (by linarith [hN 0]))
    (sc2 0 _ (hN 0).le (by linarith [hN 0]))
  set m1 := (clearColumn 0 m).1 with hm1
  set d0 := (clearColumn 0 m).2 with hd0
  set T0 := reflect 0 A0 S0 with hT0
  have near1 : ∀ c, 0 < c → ∀ b, Near fl (N c) 3 3347 (m1 b c) (T0 (vcol fl m c) b) := fun c hc b =>
    h0.right c hc (N c) (hN c).le (hωN c _ le_rfl) (sc1 c _ (hN c).le (by linarith [hN c])) (hlen c) b
  have e1 : ∀ c, 0 < c → len (vcol fl m1 c - T0 (vcol fl m c)) ≤ 6694 * (fl.u * N c) := fun c hc => by
    have := len_le_entries (v := vcol fl m1 c - T0 (vcol fl m c)) (fun b => (near1 c hc b).err)
    linarith
  have lT0 : ∀ c, len (T0 (vcol fl m c)) = len (vcol fl m c) := fun c => len_reflect h0.unit h0.sign _
  have l1 : ∀ c, 0 < c → len (vcol fl m1 c) ≤ 1001 / 1000 * N c := fun c hc => by
    have := len_add_le (vcol fl m1 c - T0 (vcol fl m c)) (T0 (vcol fl m c))
    rw [sub_add_cancel, lT0] at this
    linarith [e1 c hc, uN c, hN c, hlen c]
  -- the second pivot
  set n1 := Real.sqrt (tailDot 1 (vcol fl m1 1) (vcol fl m1 1)) with hn1
  have n1ge : 8 / 10 * N 1 ≤ n1 := by
    set v := T0 (vcol fl m 1) with hv
    have h3 : dot (T0 (vcol fl m 0)) v = dot (vcol fl m 0) (vcol fl m 1) := reflect_dot (.inl h0.unit) h0.sign _ _
    rw [hT0, h0.clears] at h3
    have h4 : dot (fun b => if b < (0 : Fin 3) then fl.val (m b 0) else if b = 0 then N 0 else 0) v = N 0 * v 0 := by
      simp [dot]
    rw [h4] at h3
    have h5 : N 0 * |v 0| ≤ N 0 * (1 / 2 * N 1) := by
      rw [← abs_of_pos (hN 0), ← abs_mul, h3, abs_of_pos (hN 0)]
      have := h.cos
      linarith
    have h6 := le_of_mul_le_mul_left h5 (hN 0)
    have h7 : v 0 * v 0 ≤ 1 / 4 * (N 1 * N 1) := by
      rw [← abs_mul_abs_self]
      have := mul_le_mul h6 h6 (abs_nonneg _) (by linarith [hN 1])
      linarith
    have h8 : dot v v = N 1 * N 1 := by rw [← len_dot, lT0, h.len1]
    have h9 : 3 / 4 * (N 1 * N 1) ≤ v 1 * v 1 + v 2 * v 2 := by
      have : dot v v = v 0 * v 0 + v 1 * v 1 + v 2 * v 2 := rfl
      linarith
    have hd : ∀ b, |fl.val (m1 b 1) - v b| ≤ 1 / 1000 * N 1 := fun b =>
      (near1 1 (by decide) b).err.trans (by linarith [uN 1, hN 1])
    have hv1 : ∀ b, |v b| ≤ N 1 := fun b => (abs_coord_le _ b).trans (by rw [lT0, h.len1])
    have sq : ∀ b, v b * v b - 21 / 10000 * (N 1 * N 1) ≤ fl.val (m1 b 1) * fl.val (m1 b 1) := by
      intro b
      have a1 := hd b
      have a2 := hv1 b
      have a3 : |v b| * |fl.val (m1 b 1) - v b| ≤ N 1 * (1 / 1000 * N 1) :=
        mul_le_mul a2 a1 (abs_nonneg _) (hN 1).le
      rw [← abs_mul] at a3
      have a4 := (abs_le.1 a3).1
      nlinarith [sq_nonneg (fl.val (m1 b 1) - v b), mul_pos (hN 1) (hN 1)]
    rw [hn1]
    apply Real.le_sqrt_of_sq_le
    have : tailDot 1 (vcol fl m1 1) (vcol fl m1 1) =
        fl.val (m1 1 1) * fl.val (m1 1 1) + fl.val (m1 2 1) * fl.val (m1 2 1) := by simp [tailDot, vcol, vvec]
    rw [this]
    nlinarith [sq 1, sq 2, mul_pos (hN 1) (hN 1)]
  have tail_le : ∀ (i : Fin 3) (v : V3 ℝ), Real.sqrt (tailDot i v v) ≤ len v := fun i v => by
    rw [len_eq]
    apply Real.sqrt_le_sqrt
    have t0 := mul_self_nonneg (v 0)
    have t1 := mul_self_nonneg (v 1)
    fin_cases i <;> simp [tailDot, dotProduct, Fin.sum_univ_three] <;> linarith
  have n1le : n1 ≤ 1001 / 1000 * N 1 := (tail_le 1 _).trans (l1 1 (by decide))
  have n1pos : 0 < n1 := lt_of_lt_of_le (by linarith [hN 1]) n1ge
  have fin1 : ∀ c, 1 ≤ c → ∀ b, fl.isFinite (m1 b c) := fun c hc b =>
    (near1 c (lt_of_lt_of_le (by decide) hc) b).fin
  obtain ⟨A1, S1, h1⟩ := clear_near (r := r) q k 1 m1 hu hω1 fin1 hn1 n1pos
    (hω2 1 _ n1ge) s0 (sc1 1 _ n1pos.le (by linarith [hN 1]))
    (sc2 1 _ n1pos.le (by linarith [hN 1]))
  set m2 := (clearColumn 1 m1).1 with hm2
  set d1 := (clearColumn 1 m1).2 with hd1
  set T1 := reflect 1 A1 S1 with hT1
  have near2 : ∀ b, |fl.val (m2 b 2) - T1 (vcol fl m1 2) b| ≤ 3351 * (fl.u * N 2) ∧
      fl.isFinite (m2 b 2) := fun b => by
    have := h1.right 2 (by decide) (1001 / 1000 * N 2) (by linarith [hN 2])
      (hωN 2 _ (by linarith [hN 2])) (sc1 2 _ (by linarith [hN 2]) (by linarith [hN 2])) (l1 2 (by decide)) b
    exact ⟨this.err.trans (by linarith [uN0 2]), this.fin⟩
  have e2 : len (vcol fl m2 2 - T1 (vcol fl m1 2)) ≤ 6702 * (fl.u * N 2) := by
    have := len_le_entries (v := vcol fl m2 2 - T1 (vcol fl m1 2)) (fun b => (near2 b).1)
    linarith
  have l2 : len (vcol fl m2 2) ≤ 1002 / 1000 * N 2 := by
    have := len_add_le (vcol fl m2 2 - T1 (vcol fl m1 2)) (T1 (vcol fl m1 2))
    rw [sub_add_cancel, hT1, len_reflect h1.unit h1.sign, ← hT1] at this
    linarith [l1 2 (by decide), uN 2, hN 2]
  -- step 2
  obtain ⟨S2, h2⟩ := clear_last (r := r) q k v hF (fun b => (near2 b).2) (L := 1002 / 1000 * N 2)
    (by linarith [h.one2]) ((abs_coord_le (vcol fl m2 2) 2).trans l2) (sc1 2 _ (by linarith [hN 2]) le_rfl)
    (sc2 2 _ (by linarith [hN 2]) le_rfl)
  have u2 : tailDot 2 (e 2) (e 2) = 1 := by simp [tailDot, e]
  set m3 := (clearColumn 2 m2).1 with hm3
  set d2 := (clearColumn 2 m2).2 with hd2
  set T2 := reflect 2 (e 2) S2 with hT2
  have hqr : qrNew m = (m3, ![d0, d1, d2]) := rfl
  have i0 : ∀ v, T0 (T0 v) = v := reflect_involutive (.inl h0.unit) h0.sign
  have i1 : ∀ v, T1 (T1 v) = v := reflect_involutive (.inl h1.unit) h1.sign
  have i2 : ∀ v, T2 (T2 v) = v := reflect_involutive (.inl u2) h2.sign
  have len0 : ∀ v, len (T0 v) = len v := len_reflect h0.unit h0.sign
  have len1 : ∀ v, len (T1 v) = len v := len_reflect h1.unit h1.sign
  have len2 : ∀ v, len (T2 v) = len v := len_reflect u2 h2.sign
  set Q : Matrix (Fin 3) (Fin 3) ℝ := Matrix.of fun a c => T0 (T1 (T2 (e c))) a with hQ
  -- the entries of `r()`
  have hR : ∀ a c, (Householder.qr m).2 a c =
      if a < c then m3 a c else if a = c then Scalar.abs ((![d0, d1, d2] : V3 R) a) else 0 := fun _ _ => rfl
  have r01 : (Householder.qr m).2 0 1 = m1 0 1 := by
    rw [hR, if_pos (by decide), h2.left 0 1 (by decide), h1.above 0 (by decide)]
  have r02 : (Householder.qr m).2 0 2 = m2 0 2 := by
    rw [hR, if_pos (by decide), h2.above 0 (by decide)]
  have r12 : (Householder.qr m).2 1 2 = m2 1 2 := by
    rw [hR, if_pos (by decide), h2.above 1 (by decide)]
  have r00 : (Householder.qr m).2 0 0 = Scalar.abs d0 := by rw [hR]; simp
  have r11 : (Householder.qr m).2 1 1 = Scalar.abs d1 := by rw [hR]; simp
  have r22 : (Householder.qr m).2 2 2 = Scalar.abs d2 := by rw [hR]; simp
  have rz : ∀ a c, c < a → (Householder.qr m).2 a c = 0 := fun a c hca => by
    rw [hR, if_neg hca.le.not_gt, if_neg hca.ne']
  set Rh := (Householder.qr m).2 with hRh
  set V := vcol fl Rh with hV
  -- the columns of `r()`
  have c0 : len (V 0 - T2 (T1 (T0 (vcol fl m 0)))) ≤ 13500 * (fl.u * N 0) := by
    rw [hT0, h0.clears, hT1, reflect_fixed (i := 1), hT2, reflect_fixed (i := 2)]
    · have : ∀ b, |(V 0 - fun b => if b < (0 : Fin 3) then fl.val (m b 0) else if b = 0 then N 0 else 0) b| ≤
          19 * (fl.u * N 0) := by
        intro b
        fin_cases b
        · have := h0.diag.err
          simpa [hV, vcol, vvec, r00] using this
        · simpa [hV, vcol, vvec, rz 1 0 (by decide), fl.zero.2] using uN0 0
        · simpa [hV, vcol, vvec, rz 2 0 (by decide), fl.zero.2] using uN0 0
      have := len_le_entries this
      linarith [uN0 0]
    · intro b hb; fin_cases b <;> simp at hb ⊢
    · intro b hb; fin_cases b <;> simp at hb ⊢
  have c1 : len (V 1 - T2 (T1 (T0 (vcol fl m 1)))) ≤ 13500 * (fl.u * N 1) := by
    have h3 : len (V 1 - T1 (vcol fl m1 1)) ≤ 40 * (fl.u * N 1) := by
      have : ∀ b, |(V 1 - T1 (vcol fl m1 1)) b| ≤ 20 * (fl.u * N 1) := by
        rw [hT1, h1.clears]
        intro b
        fin_cases b
        · simpa [hV, vcol, vvec, r01] using uN0 1
        · have h4 := h1.diag.err
          have h5 : fl.u * n1 ≤ fl.u * (1001 / 1000 * N 1) := mul_le_mul_of_nonneg_left n1le hu0
          have h6 : 19 * (fl.u * n1) ≤ 20 * (fl.u * N 1) := by linarith [uN0 1]
          have h7 := h4.trans h6
          simpa [hV, vcol, vvec, r11] using h7
        · simpa [hV, vcol, vvec, rz 2 1 (by decide), fl.zero.2] using uN0 1
      have := len_le_entries this
      linarith [uN0 1]
    have hf : T2 (V 1) = V 1 := by
      rw [hT2, reflect_fixed]
      intro b hb
      fin_cases b <;> simp at hb ⊢
      simp [hV, vcol, vvec, rz 2 1 (by decide), fl.zero.2]
    rw [← hf, hT2, ← reflect_sub, ← hT2, len2]
    have h4 : len (T1 (vcol fl m1 1) - T1 (T0 (vcol fl m 1))) ≤ 6694 * (fl.u * N 1) := by
      rw [hT1, ← reflect_sub, ← hT1, len1]; exact e1 1 (by decide)
    have h5 := len_add_le (V 1 - T1 (vcol fl m1 1)) (T1 (vcol fl m1 1) - T1 (T0 (vcol fl m 1)))
    rw [sub_add_sub_cancel] at h5
    linarith [uN0 1]
  have c2 : len (V 2 - T2 (T1 (T0 (vcol fl m 2)))) ≤ 13500 * (fl.u * N 2) := by
    have h3 : len (V 2 - T2 (vcol fl m2 2)) ≤ 42 * (fl.u * N 2) := by
      have : ∀ b, |(V 2 - T2 (vcol fl m2 2)) b| ≤ 21 * (fl.u * N 2) := by
        intro b
        fin_cases b
        · simpa [hV, vcol, vvec, r02, hT2, reflect] using uN0 2
        · simpa [hV, vcol, vvec, r12, hT2, reflect] using uN0 2
        · have h7 := h2.diag.trans (show _ ≤ 21 * (fl.u * N 2) by linarith [uN0 2])
          simpa [hV, vcol, vvec, r22] using h7
      have := len_le_entries this
      linarith [uN0 2]
    have h4 : len (T2 (vcol fl m2 2) - T2 (T1 (vcol fl m1 2))) ≤ 6702 * (fl.u * N 2) := by
      rw [hT2, ← reflect_sub, ← hT2, len2]; exact e2
    have h5 : len (T2 (T1 (vcol fl m1 2)) - T2 (T1 (T0 (vcol fl m 2)))) ≤ 6694 * (fl.u * N 2) := by
      rw [hT2, ← reflect_sub, ← hT2, len2, hT1, ← reflect_sub, ← hT1, len1]; exact e1 2 (by decide)
    have h6 := len_add_le (V 2 - T2 (vcol fl m2 2)) (T2 (vcol fl m2 2) - T2 (T1 (vcol fl m1 2)))
    rw [sub_add_sub_cancel] at h6
    have h7 := len_add_le (V 2 - T2 (T1 (vcol fl m1 2)))
      (T2 (T1 (vcol fl m1 2)) - T2 (T1 (T0 (vcol fl m 2))))
    rw [sub_add_sub_cancel] at h7
    linarith [uN0 2]
  have cc : ∀ c, len (V c - T2 (T1 (T0 (vcol fl m c)))) ≤ 13500 * (fl.u * N c) := by
    intro c; fin_cases c
    exacts [c0, c1, c2]
  -- the columns of `q()`
  have fe : ∀ c b : Fin 3, fl.isFinite (if b = c then (1 : R) else 0) := fun c b => by
    split
    exacts [fl.one.1, fl.zero.1]
  have ve : ∀ c, vvec fl (fun b => if b = c then (1 : R) else 0) = e c := fun c => by
    funext b
    by_cases hb : b = c
    · simp [vvec, e, hb, fl.one.2]
    · simp [vvec, e, hb, fl.zero.2]
  have lz : len (0 : V3 ℝ) = 0 := len_eq_zero.2 rfl
  set I : Mat 3 3 R := fun a b => if a = b then 1 else 0 with hI
  set q2 := qStep (m3, ![d0, d1, d2]) 2 I with hq2
  set q1 := qStep (m3, ![d0, d1, d2]) 1 q2 with hq1
  set q0 := qStep (m3, ![d0, d1, d2]) 0 q1 with hq0
  have hqm : (Householder.qr m).1 = q0 := rfl
  have fixe : ∀ (i c : Fin 3) (A : V3 ℝ) (S : ℝ), c < i → reflect i A S (e c) = e c := fun i c A S hc =>
    reflect_fixed _ _ fun b hb => if_neg (hc.trans_le hb).ne'
  have g2 : ∀ c, (∀ b, fl.isFinite (q2 b c)) ∧ len (vcol fl q2 c - T2 (e c)) ≤ 6720 * fl.u ∧
      (c < 2 → (fun b => q2 b c) = fun b => I b c) := by
    intro c
    by_cases hc : c < 2
    · have e3 : (fun b => q2 b c) = fun b => I b c := by
        funext b; simp [hq2, qStep, hc]
      refine ⟨fun b => ?_, ?_, fun _ => e3⟩
      · rw [show q2 b c = I b c from congrFun e3 b]; exact fe c b
      · have : vcol fl q2 c = e c := by
          unfold vcol; rw [e3]; exact ve c
        rw [this, hT2, fixe 2 c (e 2) S2 hc, sub_self, lz]; positivity
    · have hc' : c = 2 := le_antisymm (Fin.le_last c) (not_lt.1 hc)
      have e3 : (fun b => q2 b c) = reflect 2 (fun k => m3 k 2) (signum d2) fun b => I b c := by
        funext b; simp [hq2, qStep, hc']
      refine ⟨fun b => ?_, ?_, fun h => absurd h hc⟩
      · rw [show q2 b c = _ from congrFun e3 b, hc']; exact h2.qfin b
      · unfold vcol; rw [e3, hc']; exact h2.qnear
  have g1 : ∀ c, (∀ b, fl.isFinite (q1 b c)) ∧ len (vcol fl q1 c - T1 (T2 (e c))) ≤ 13440 * fl.u := by
    intro c
    by_cases hc : c < 1
    · have e3 : (fun b => q1 b c) = fun b => I b c := by
        rw [← (g2 c).2.2 (hc.trans (by decide))]
        have hc' : c = 0 := by omega
        funext b; simp [hq1, qStep, hc']
      refine ⟨fun b => ?_, ?_⟩
      · rw [show q1 b c = I b c from congrFun e3 b]; exact fe c b
      · have : vcol fl q1 c = e c := by
          unfold vcol; rw [e3]; exact ve c
        rw [this, hT2, fixe 2 c (e 2) S2 (hc.trans (by decide)), hT1, fixe 1 c A1 S1 hc, sub_self, lz]; positivity
    · have h3 := qcol_near q h1 hu hω1 s0 s2 (axis := fun k => m3 k 1) (w := fun b => q2 b c)
        (W := T2 (e c)) (c := 6720) (fun b _ => h2.left b 1 (by decide)) (g2 c).1
        (by rw [len2, len_e]) (g2 c).2.1 (by norm_num) (by norm_num)
      have e3 : (fun b => q1 b c) = reflect 1 (fun k => m3 k 1) (signum d1) fun b => q2 b c := by
        funext b; simp [hq1, qStep, not_lt.1 hc]
      refine ⟨fun b => ?_, ?_⟩
      · rw [show q1 b c = _ from congrFun e3 b]; exact h3.1 b
      · unfold vcol; rw [e3]; linarith [h3.2]
  have g0 : ∀ c, (∀ b, fl.isFinite (q0 b c)) ∧ len (vcol fl q0 c - T0 (T1 (T2 (e c)))) ≤ 20160 * fl.u := by
    intro c
    have h3 := qcol_near q h0 hu hω1 s0 s2 (axis := fun k => m3 k 0) (w := fun b => q1 b c)
      (W := T1 (T2 (e c))) (c := 13440)
      (fun b _ => by rw [h2.left b 0 (by decide), h1.left b 0 (by decide)]) (g1 c).1
      (by rw [len1, len2, len_e]) (g1 c).2 (by norm_num) (by norm_num)
    have e3 : (fun b => q0 b c) = reflect 0 (fun k => m3 k 0) (signum d0) fun b => q1 b c := by
      funext b; simp [hq0, qStep]
    refine ⟨fun b => ?_, ?_⟩
    · rw [show q0 b c = _ from congrFun e3 b]; exact h3.1 b
    · unfold vcol; rw [e3]; linarith [h3.2]
  refine ⟨Q, ?_, ?_, ?_, ?_, ?_, ?_, ?_⟩
  · ext b c
    have h3 : dot (T0 (T1 (T2 (e b)))) (T0 (T1 (T2 (e c)))) = if b = c then 1 else 0 := by
      rw [hT0, reflect_dot (.inl h0.unit) h0.sign, hT1, reflect_dot (.inl h1.unit) h1.sign, hT2,
        reflect_dot (.inl u2) h2.sign, dot_e]
    simpa [hQ, Matrix.mul_apply, Fin.sum_univ_three, dot, Matrix.one_apply] using h3
  · intro a c
    rw [hqm]; exact (g0 c).1 a
  · intro a c
    rw [hqm]
    have h3 := (abs_coord_le (vcol fl q0 c - T0 (T1 (T2 (e c)))) a).trans (g0 c).2
    exact h3.trans (by linarith)
  · intro a c
    have f0 := fl.zero.1
    fin_cases a <;> fin_cases c
    · show fl.isFinite (Rh 0 0); rw [r00]; exact h0.diag.fin
    · show fl.isFinite (Rh 0 1); rw [r01]; exact fin1 1 le_rfl 0
    · show fl.isFinite (Rh 0 2); rw [r02]; exact (near2 0).2
    · show fl.isFinite (Rh 1 0); rw [rz 1 0 (by decide)]; exact f0
    · show fl.isFinite (Rh 1 1); rw [r11]; exact h1.diag.fin
    · show fl.isFinite (Rh 1 2); rw [r12]; exact (near2 1).2
    · show fl.isFinite (Rh 2 0); rw [rz 2 0 (by decide)]; exact f0
    · show fl.isFinite (Rh 2 1); rw [rz 2 1 (by decide)]; exact f0
    · show fl.isFinite (Rh 2 2); rw [r22]; exact h2.diag_fin
  · intro a c hca
    rw [rz a c hca]; exact fl.zero.2
  · intro a
    fin_cases a
    · show 0 ≤ fl.val (Rh 0 0)
      rw [r00]; exact h0.diag_nonneg
    · show 0 ≤ fl.val (Rh 1 1)
      rw [r11]; exact h1.diag_nonneg
    · show 0 ≤ fl.val (Rh 2 2)
      rw [r22]; exact h2.diag_nonneg
  · intro a c
    have hlin : T0 (T1 (T2 (V c))) =
        V c 0 • T0 (T1 (T2 (e 0))) + V c 1 • T0 (T1 (T2 (e 1))) + V c 2 • T0 (T1 (T2 (e 2))) := by
      have hv : V c = V c 0 • e 0 + V c 1 • e 1 + V c 2 • e 2 := by
        funext b; fin_cases b <;> simp [e]
      conv_lhs => rw [hv]
      simp only [hT0, hT1, hT2, reflect_add, reflect_smul]
    have h3 : (Q * Matrix.of fun a c => fl.val (Rh a c)) a c = T0 (T1 (T2 (V c))) a := by
      rw [hlin, Matrix.mul_apply, Fin.sum_univ_three]
      simp only [hQ, Matrix.of_apply, Pi.add_apply, Pi.smul_apply, smul_eq_mul]
      have : ∀ b, V c b = fl.val (Rh b c) := fun b => rfl
      rw [this, this, this]; ring
    have h4 : fl.val (m a c) = T0 (T1 (T2 (T2 (T1 (T0 (vcol fl m c)))))) a := by
      rw [i2, i1, i0]; rfl
    rw [h3, h4, ← Pi.sub_apply]
    refine (abs_coord_le _ a).trans ?_
    rw [hT0, ← reflect_sub, ← hT0, len0, hT1, ← reflect_sub, ← hT1, len1, hT2, ← reflect_sub, ← hT2, len2]
    linarith [cc c]

end Householder
end CamGeom
