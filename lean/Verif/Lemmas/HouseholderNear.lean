import Verif.Lemmas.Scaled
import Verif.Lemmas.Householder

/-!
# Rounding errors of one Householder reflection
-/

namespace CamGeom
namespace Householder
open Spec Matrix

variable {R : Type} [Scalar R] {fl : Rounding R} {r : RoundingRange fl}

/-- Dot products of the rows `i..`. -/
theorem tailDot_near (i : Fin 3) {s t c c' C M : ℝ} {a b : V3 R} {A B : V3 ℝ} (hs : 0 ≤ s) (ht : 0 ≤ t)
    (hst : Scale r (s * t)) (hω : fl.ω ≤ s * t) (hu : fl.u ≤ 1 / 10 ^ 7)
    (ha : ∀ k, i ≤ k → Near fl s 1 c (a k) (A k)) (hb : ∀ k, i ≤ k → Near fl t 1 c' (b k) (B k))
    (hM : |tailDot i A B| ≤ M * (s * t))
    (hC : c * (1 + c' / 10 ^ 7) + 1 * c' + ((1 + c / 10 ^ 7) * (1 + c' / 10 ^ 7) + 1) ≤ C)
    (hc : 0 ≤ c) (hc' : 0 ≤ c') (hC' : C ≤ 10 ^ 6) :
    Near fl (s * t) M (3 * C + 6) (tailDot i a b) (tailDot i A B) := by
  have hC0 : 0 ≤ C := by
    refine le_trans ?_ hC
    positivity
  have hst0 := hst.pos
  have hp : ∀ k, i ≤ k → Near fl (s * t) 1 C (a k * b k) (A k * B k) := fun k hk => by
    refine Near.mul hs ht hst hω hu (ha k hk) (hb k hk) ?_ hC hc hc' zero_le_one ?_
    · rw [abs_mul]
      have := mul_le_mul (ha k hk).mag (hb k hk).mag (abs_nonneg _) (by positivity)
      linarith
    · have h1 : (1 + c / 10 ^ 7) * (1 + c' / 10 ^ 7) ≤ C := by
        have : 0 ≤ c * (1 + c' / 10 ^ 7) := by positivity
        linarith
      have h2 : (1 + c / 10 ^ 7) ≤ 2 := by
        have : c ≤ C := by
          have e1 : 0 ≤ c * (c' / 10 ^ 7) := by positivity
          have e2 : 0 ≤ (1 + c / 10 ^ 7) * (1 + c' / 10 ^ 7) := by positivity
          linarith
        linarith
      have h3 : (1 + c' / 10 ^ 7) ≤ 2 := by
        have : c' ≤ C := by
          have e1 : 0 ≤ c * (1 + c' / 10 ^ 7) := by positivity
          have e2 : 0 ≤ (1 + c / 10 ^ 7) * (1 + c' / 10 ^ 7) := by positivity
          linarith
        linarith
      calc _ ≤ (2 : ℝ) * 2 := mul_le_mul h2 h3 (by positivity) (by norm_num)
        _ ≤ _ := by norm_num
  have two : ∀ j k, i ≤ j → i ≤ k → Near fl (s * t) 2 (2 * C + 2 + 2 * C / 10 ^ 7)
      (a j * b j + a k * b k) (A j * B j + A k * B k) := fun j k hj hk => by
    refine Near.add hst hu (hp j hj) (hp k hk) ?_ (by linarith) (by linarith) (by linarith)
    exact (abs_add_le _ _).trans (by linarith [(hp j hj).mag, (hp k hk).mag])
  have three : i = 0 → Near fl (s * t) 3 (3 * C + 6)
      (a 0 * b 0 + a 1 * b 1 + a 2 * b 2) (A 0 * B 0 + A 1 * B 1 + A 2 * B 2) := fun h => by
    subst h
    refine Near.add hst hu (two 0 1 (by simp) (by simp)) (hp 2 (by simp)) ?_ ?_ ?_ ?_
    · exact (abs_add_le _ _).trans (by linarith [(two 0 1 (by simp) (by simp)).mag, (hp 2 (by simp)).mag])
    · linarith
    · positivity
    · linarith
  fin_cases i
  · exact (three rfl).mag' hM
  · exact ((two 1 2 (by decide) (by decide)).mono hst0 (le_refl _) (by linarith)).mag' hM
  · exact ((hp 2 (by decide)).mono hst0 (le_refl _) (by linarith)).mag' hM

theorem sq_le_tailDot {i k : Fin 3} (hk : i ≤ k) (x : V3 ℝ) : x k * x k ≤ tailDot i x x := by
  have h0 := mul_self_nonneg (x 0)
  have h1 := mul_self_nonneg (x 1)
  have h2 := mul_self_nonneg (x 2)
  fin_cases i <;> fin_cases k <;> simp [tailDot] at hk ⊢ <;> linarith

theorem abs_le_tail {i k : Fin 3} (hk : i ≤ k) (x : V3 ℝ) : |x k| ≤ Real.sqrt (tailDot i x x) := by
  apply Real.abs_le_sqrt
  rw [sq]
  exact sq_le_tailDot hk x

/-- The exact axis, for a column with a nonzero tail. -/
theorem reflectionAxis_real (i : Fin 3) (x : V3 ℝ) {n : ℝ} (hn : n = Real.sqrt (tailDot i x x))
    (h0 : 0 < n) {s g : ℝ} (hs : s = if |x i| = 0 then 1 else x i / |x i|)
    (hg : g = Real.sqrt ((n * n + |x i| * n) * 2)) :
    reflectionAxis i x = (fun k => if i ≤ k then Function.update x i (x i + s * n) k / g else x k,
      -(s * n), true) ∧ s * s = 1 ∧ s * |x i| = x i ∧ g * g = (n * n + |x i| * n) * 2 ∧ 0 < g ∧
    tailDot i (fun k => if i ≤ k then Function.update x i (x i + s * n) k / g else x k)
      (fun k => if i ≤ k then Function.update x i (x i + s * n) k / g else x k) = 1 := by
  have hnn : n * n = tailDot i x x := by rw [hn]; exact Real.mul_self_sqrt (tailDot_nonneg i x)
  set m := |x i| with hm
  have hm0 : 0 ≤ m := abs_nonneg _
  have hsm : s * m = x i := by
    rw [hs]; split
    · rename_i h
      have : x i = 0 := abs_eq_zero.1 h
      rw [h, this]; simp
    · rename_i h; field_simp
  have hss : s * s = 1 := by
    rw [hs]; split
    · norm_num
    · rename_i h
      have h2 : m * m = x i * x i := abs_mul_abs_self _
      field_simp; nlinarith
  have hxs : s * x i = m := by rw [← hsm, ← mul_assoc, hss, one_mul]
  set f := (n * n + m * n) * 2 with hf
  have hfp : 0 < f := by rw [hf]; positivity
  have hgp : 0 < g := by rw [hg]; exact Real.sqrt_pos.2 hfp
  have hgg : g * g = f := by rw [hg]; exact Real.mul_self_sqrt hfp.le
  set w := Function.update x i (x i + s * n) with hw
  have hwi : w i = x i + s * n := by rw [hw, Function.update_self]
  have hwx : tailDot i w x = f / 2 := by
    rw [hw, tailDot_update, ← hnn, hf, ← hxs]; ring
  have hww : tailDot i w w = f := by
    have h := tailDot_update i x w (s * n)
    rw [← hw] at h
    rw [h, tailDot_comm, hwx, hwi, hf, ← hxs]
    linear_combination (n * n) * hss
  have hb : tailDot i (fun k => if i ≤ k then w k / g else x k)
      (fun k => if i ≤ k then w k / g else x k) = 1 := by
    have e : (fun k => if i ≤ k then w k / g else x k) = fun k => if i ≤ k then w k / g else w k := by
      funext k; split
      · rfl
      · rename_i hk; rw [hw, Function.update_of_ne (not_le.1 hk).ne]
    rw [e, tailDot_div, tailDot_comm, tailDot_div, hww, ← hgg]; field_simp
  refine ⟨?_, hss, hsm, hgg, hgp, hb⟩
  have ha : reflectionAxis i x = if f = 0 then (w, s * n, false) else
      (fun r => if i ≤ r then (if i ≤ r then w r / Real.sqrt f else w r) /
          Real.sqrt (tailDot i (fun r => if i ≤ r then w r / Real.sqrt f else w r)
            (fun r => if i ≤ r then w r / Real.sqrt f else w r)) else
            (if i ≤ r then w r / Real.sqrt f else w r), -(s * n), true) := by
    simp only [reflectionAxis, sqrt_real, abs_real, beq_real, lit_real, decide_eq_true_eq,
      Rat.cast_ofNat, ← hn, ← hm]
    rw [← hnn, hf, hw, hs]
  rw [ha, if_neg hfp.ne', ← hg]
  have e : (fun k => if i ≤ k then w k / g else w k) = fun k => if i ≤ k then w k / g else x k := by
    funext k; split
    · rfl
    · rename_i hk; rw [hw, Function.update_of_ne (not_le.1 hk).ne]
  rw [e, hb]
  refine Prod.ext ?_ rfl
  funext k
  simp only [Real.sqrt_one, div_one]
  split
  · rfl
  · rename_i hk; rw [hw, Function.update_of_ne (not_le.1 hk).ne]

theorem signum_near (k : RoundingMore fl) (r : RoundingRange fl) {x : R} {X : ℝ}
    (hx : fl.isFinite x) (h : fl.val x < 0 ↔ X < 0) :
    fl.isFinite (signum x) ∧ fl.val (signum x) = signum X := by
  have h1 := r.neg fl.one.1
  have e : (Scalar.lt x 0 = true) ↔ X < 0 := by
    rw [k.lt_iff hx fl.zero.1, fl.zero.2, h]
  by_cases h0 : X < 0
  · simp only [signum, e.2 h0, if_true, lt_real, h0, decide_true]
    refine ⟨h1, ?_⟩
    rw [(fl.neg h1).2, fl.one.2]
  · have : Scalar.lt x 0 = false := by
      rw [Bool.eq_false_iff]; exact fun h => h0 (e.1 h)
    simp only [signum, this, lt_real, h0, decide_false]
    exact fl.one

/-- The computed axis is close to the exact one. -/
theorem reflectionAxis_near (q : RoundingQr fl) (k : RoundingMore fl) (i : Fin 3) (x : V3 R)
    (hu : fl.u ≤ 1 / 10 ^ 7) (hω1 : fl.ω ≤ 1) (hx : ∀ a, i ≤ a → fl.isFinite (x a)) {n : ℝ}
    (hn : n = Real.sqrt (tailDot i (vvec fl x) (vvec fl x))) (h0 : 0 < n) (hω : fl.ω ≤ n * n)
    (s0 : Scale r 1) (s1 : Scale r n) (s2 : Scale r (n * n)) :
    let a := reflectionAxis i x
    let A := reflectionAxis i (vvec fl x)
    a.2.2 = true ∧ (∀ b, i ≤ b → Near fl 1 1 412 (a.1 b) (A.1 b)) ∧ (∀ b, b < i → a.1 b = x b) ∧
    Near fl n 1 19 a.2.1 A.2.1 ∧ fl.isFinite (signum a.2.1) ∧
    fl.val (signum a.2.1) = signum A.2.1 ∧ tailDot i A.1 A.1 = 1 ∧ |A.2.1| = n := by
  have hu0 := fl.u_nonneg
  set X := vvec fl x with hX
  set S : ℝ := if |X i| = 0 then 1 else X i / |X i| with hS
  set G : ℝ := Real.sqrt ((n * n + |X i| * n) * 2) with hG
  obtain ⟨hA, hss, hsm, hgg, hgp, hbb⟩ := reflectionAxis_real i X hn h0 hS hG
  intro a A
  have hAd : A = _ := hA
  set W := Function.update X i (X i + S * n) with hW
  set B : V3 ℝ := fun k => if i ≤ k then W k / G else X k with hB
  have hnn : n * n = tailDot i X X := by rw [hn]; exact Real.mul_self_sqrt (tailDot_nonneg i X)
  have hωn : fl.ω ≤ n := by
    rcases le_total n 1 with h | h
    · exact hω.trans (by nlinarith)
    · linarith
  have hSa : |S| = 1 := by
    rcases mul_self_eq_one_iff.1 hss with h | h <;> rw [h] <;> norm_num
  have hXn : ∀ b, i ≤ b → |X b| ≤ n := fun b hb => by rw [hn]; exact abs_le_tail hb X
  have hm0 : 0 ≤ |X i| := abs_nonneg _
  have hmn : |X i| ≤ n := hXn i le_rfl
  -- the input
  have nx : ∀ b, i ≤ b → Near fl n 1 0 (x b) (X b) := fun b hb =>
    Near.exact (hx b hb) (by rw [one_mul]; exact hXn b hb)
  -- the squared norm
  have nsq : Near fl (n * n) 1 12 (tailDot i x x) (n * n) := by
    have := tailDot_near (M := 1) (C := 2) i h0.le h0.le s2 hω hu nx nx
      (by rw [← hnn, abs_of_pos (by positivity)]; linarith) (by norm_num) le_rfl le_rfl (by norm_num)
    exact (this.congr hnn.symm).mono s2.pos le_rfl (by norm_num)
  have nnorm : Near fl n 1 14 (Scalar.sqrt (tailDot i x x)) n := by
    have := nsq.sqrt (r := r) (M := 1) (C := 14) k 1 h0.le s1 hu (by nlinarith) (by nlinarith)
    exact this.congr (by rw [← sq]; exact Real.sqrt_sq h0.le)
  set norm := Scalar.sqrt (tailDot i x x) with hnorm
  have nmod : Near fl n 1 0 (Scalar.abs (x i)) |X i| := (nx i le_rfl).abs q
  set md := Scalar.abs (x i) with hmd
  have hmdv : fl.val md = |X i| := (q.abs (hx i le_rfl)).2
  -- the sign
  have nsign : Near fl 1 1 2 (if Scalar.beq md 0 then 1 else x i / md) S := by
    by_cases hz : |X i| = 0
    · have : Scalar.beq md 0 = true := (q.beq_iff nmod.fin fl.zero.1).2 (by rw [hmdv, hz, fl.zero.2])
      rw [if_pos this, hS, if_pos hz]
      exact (Near.one fl).mono zero_le_one le_rfl (by norm_num)
    · have : ¬ Scalar.beq md 0 = true := by
        rw [q.beq_iff nmod.fin fl.zero.1, hmdv, fl.zero.2]; exact hz
      rw [if_neg this, hS, if_neg hz]
      have hv : fl.val (x i) = X i := rfl
      have hq : |fl.val (x i) / fl.val md| = 1 := by
        rw [hmdv, hv, abs_div, abs_abs, div_self hz]
      have hfin : fl.isFinite (x i / md) :=
        (r.div (hx i le_rfl) nmod.fin (by rw [hmdv]; exact hz) (Nat.zero_le _)
          (by rw [hq]; norm_num)).1
      refine ⟨hfin, ?_, ?_⟩
      · rw [abs_div, abs_abs, div_self hz]; norm_num
      · have h1 := ((fl.div hfin).2 nmod.fin).2
        rw [hq, hmdv, hv] at h1
        refine h1.trans ?_
        nlinarith
  set sign := (if Scalar.beq md 0 then 1 else x i / md : R) with hsign
  have nsn : Near fl n 1 19 (sign * norm) (S * n) := by
    have := Near.mul (r := r) (M := 1) (C := 19) zero_le_one h0.le (by rwa [one_mul]) (by rwa [one_mul]) hu
      nsign nnorm (by rw [abs_mul, hSa, abs_of_pos h0]; simp)
    exact this.scale (one_mul _)
  -- the factor
  have nmn : Near fl (n * n) 1 17 (md * norm) (|X i| * n) :=
    Near.mul h0.le h0.le s2 hω hu nmod nnorm (by
      rw [abs_mul, abs_abs, abs_of_pos h0, one_mul]; gcongr)
  have nsum : Near fl (n * n) 2 32 (tailDot i x x + md * norm) (n * n + |X i| * n) :=
    Near.add s2 hu nsq nmn (by
      rw [abs_of_nonneg (by positivity)]
      have : |X i| * n ≤ n * n := by gcongr
      linarith)
  have nf : Near fl (n * n) 4 70 ((tailDot i x x + md * norm) * Scalar.lit 2)
      ((n * n + |X i| * n) * 2) := by
    have := Near.mul (r := r) (M := 4) (C := 70) (mul_pos h0 h0).le zero_le_one (by rwa [mul_one])
      (by rwa [mul_one]) hu nsum (Near.lit_two fl) (by
        have := nsum.mag
        rw [abs_mul, abs_two]; linarith)
    exact this.scale (mul_one _)
  set factor := (tailDot i x x + md * norm) * Scalar.lit 2 with hfactor
  have hf0 : ¬ Scalar.beq factor 0 = true := by
    rw [q.beq_iff nf.fin fl.zero.1, fl.zero.2]
    intro h
    have h1 := nf.err_le hu s2.pos (by norm_num)
    rw [h] at h1
    have h2 : 0 < n * n := by positivity
    have h3 : 0 ≤ |X i| * n := by positivity
    have := (abs_le.1 h1).1
    linarith
  have ng : Near fl n 2 52 (Scalar.sqrt factor) G :=
    nf.sqrt (r := r) k (141 / 100) h0.le s1 hu
      (by have : 0 ≤ |X i| * n := by positivity
          nlinarith)
      (by have : |X i| * n ≤ n * n := by gcongr
          nlinarith)
  have hGl : 141 / 100 * n ≤ |G| := by
    rw [hG]
    refine le_trans ?_ (le_abs_self _)
    apply Real.le_sqrt_of_sq_le
    have : 0 ≤ |X i| * n := by positivity
    nlinarith
  -- the shifted column
  have nw : ∀ b, i ≤ b → Near fl n 2 22 (Function.update x i (x i + sign * norm) b) (W b) := by
    intro b hb
    by_cases hbi : b = i
    · subst hbi
      rw [Function.update_self, hW, Function.update_self]
      refine Near.add s1 hu (nx b le_rfl) nsn ((abs_add_le _ _).trans ?_)
      rw [abs_mul, hSa, abs_of_pos h0]; linarith
    · rw [Function.update_of_ne hbi, hW, Function.update_of_ne hbi]
      exact (nx b hb).mono h0.le (by norm_num) (by norm_num)
  have hB1 : ∀ b, i ≤ b → |W b / G| ≤ 1 := fun b hb => by
    have := abs_le_tail hb B
    rw [hbb, Real.sqrt_one] at this
    simpa [hB, hb] using this
  have nb : ∀ b, i ≤ b → Near fl 1 1 56 (Function.update x i (x i + sign * norm) b / Scalar.sqrt factor)
      (W b / G) := fun b hb => by
    have := Near.div (r := r) (M := 1) (C := 56) (141 / 100) h0.le h0 (by rwa [div_self h0.ne'])
      (by rwa [div_self h0.ne']) hu (nw b hb) ng hGl
      (by rw [div_self h0.ne', mul_one]; exact hB1 b hb)
    exact this.scale (div_self h0.ne')
  set b1 : V3 R := fun r => if i ≤ r then Function.update x i (x i + sign * norm) r / Scalar.sqrt factor
    else Function.update x i (x i + sign * norm) r with hb1
  have nb1 : ∀ b, i ≤ b → Near fl 1 1 56 (b1 b) (B b) := fun b hb => by
    have := nb b hb
    simpa only [hb1, hB, hb, if_true] using this
  have nt : Near fl (1 * 1) 1 351 (tailDot i b1 b1) 1 := by
    have := tailDot_near (M := 1) (C := 115) i zero_le_one zero_le_one (by rwa [one_mul])
      (by rwa [one_mul]) hu nb1 nb1 (by rw [hbb]; norm_num) (by norm_num) (by norm_num) (by norm_num)
      (by norm_num)
    rw [hbb] at this
    exact this.mono (by norm_num) le_rfl (by norm_num)
  have nn : Near fl 1 1 353 (Scalar.sqrt (tailDot i b1 b1)) 1 := by
    have := nt.sqrt (r := r) (M := 1) (C := 353) k 1 zero_le_one s0 hu (by norm_num) (by norm_num)
    exact this.congr Real.sqrt_one
  have nfin : ∀ b, i ≤ b → Near fl 1 1 412 (b1 b / Scalar.sqrt (tailDot i b1 b1)) (B b) := fun b hb => by
    have h1 := hB1 b hb
    have h2 : B b = W b / G := by simp [hB, hb]
    have := Near.div (r := r) (M := 1) (C := 412) 1 zero_le_one zero_lt_one (by rwa [div_one])
      (by rwa [div_one]) hu (nb1 b hb) nn (by norm_num) (by rw [div_one, h2]; simpa using h1)
    exact (this.scale (div_one _)).congr (div_one _)
  have ha : a = (fun r => if i ≤ r then b1 r / Scalar.sqrt (tailDot i b1 b1) else b1 r,
      -(sign * norm), true) := by
    have e : a = if Scalar.beq factor 0 then (Function.update x i (x i + sign * norm), sign * norm, false)
      else (fun r => if i ≤ r then b1 r / Scalar.sqrt (tailDot i b1 b1) else b1 r,
        -(sign * norm), true) := rfl
    rw [e, if_neg hf0]
  have hsgn : fl.val (-(sign * norm)) < 0 ↔ -(S * n) < 0 := by
    have nneg := nsn.neg r
    have h1 := nneg.err_le hu h0.le (by norm_num)
    have h2 := abs_le.1 h1
    rcases mul_self_eq_one_iff.1 hss with h | h
    · rw [h] at h2 ⊢
      constructor <;> intro <;> linarith
    · rw [h] at h2 ⊢
      constructor <;> intro <;> linarith
  obtain ⟨hs1, hs2⟩ := signum_near k r (nsn.neg r).fin hsgn
  rw [ha, hAd]
  refine ⟨rfl, fun b hb => ?_, fun b hb => ?_, nsn.neg r, hs1, hs2, hbb, ?_⟩
  · have := nfin b hb
    simpa only [hb, if_true] using this
  · simp only [hb1, not_le.2 hb, if_false]
    rw [Function.update_of_ne hb.ne]
  · rw [abs_neg, abs_mul, hSa, one_mul, abs_of_pos h0]

theorem tailDot_cauchy (i : Fin 3) (a b : V3 ℝ) :
    tailDot i a b ^ 2 ≤ tailDot i a a * tailDot i b b := by
  fin_cases i <;> simp [tailDot]
  · nlinarith [sq_nonneg (a 0 * b 1 - a 1 * b 0), sq_nonneg (a 0 * b 2 - a 2 * b 0),
      sq_nonneg (a 1 * b 2 - a 2 * b 1)]
  · nlinarith [sq_nonneg (a 1 * b 2 - a 2 * b 1)]
  · nlinarith

/-- The computed reflection of a column is close to the exact one. -/
theorem reflect_near (q : RoundingQr fl) (i : Fin 3) {axis col : V3 R} {A : V3 ℝ} {sign : R} {S L : ℝ}
    (hu : fl.u ≤ 1 / 10 ^ 7) (hω1 : fl.ω ≤ 1) (ha : ∀ b, i ≤ b → Near fl 1 1 412 (axis b) (A b))
    (hA : tailDot i A A ≤ 1) (hs : fl.isFinite sign) (hsv : fl.val sign = S) (hS : S * S = 1)
    (hc : ∀ b, fl.isFinite (col b)) (hL : 0 ≤ L) (hωL : fl.ω ≤ L) (s0 : Scale r 1) (s1 : Scale r L)
    (hlen : dot (vvec fl col) (vvec fl col) ≤ L * L) (b : Fin 3) :
    Near fl L 3 3347 (reflect i axis sign col b) (reflect i A S (vvec fl col) b) := by
  set Y := vvec fl col with hY
  have hYL : ∀ b, |Y b| ≤ L := fun b => by
    apply abs_le_of_sq_le_sq _ hL
    have h0 := mul_self_nonneg (Y 0)
    have h1 := mul_self_nonneg (Y 1)
    have h2 := mul_self_nonneg (Y 2)
    unfold dot at hlen
    rw [sq, sq]
    fin_cases b <;> dsimp only [Fin.zero_eta, Fin.mk_one, Fin.reduceFinMk] <;> linarith
  have hYt : tailDot i Y Y ≤ L * L := by
    refine le_trans ?_ hlen
    have h0 := mul_self_nonneg (Y 0)
    have h1 := mul_self_nonneg (Y 1)
    have h2 := mul_self_nonneg (Y 2)
    fin_cases i <;> simp [tailDot, dot] <;> linarith
  have hT : |tailDot i A Y| ≤ L := by
    apply abs_le_of_sq_le_sq _ hL
    have := tailDot_cauchy i A Y
    have h2 := mul_le_mul_of_nonneg_right hA (tailDot_nonneg i Y)
    nlinarith
  have hSa : |S| = 1 := by
    rcases mul_self_eq_one_iff.1 hS with h | h <;> rw [h] <;> norm_num
  have hA1 : ∀ b, i ≤ b → |A b| ≤ 1 := fun b hb => by
    exact (abs_le_tail hb A).trans (Real.sqrt_le_one.2 hA)
  have s1' : Scale r (1 * L) := by rwa [one_mul]
  have s1'' : Scale r (L * 1) := by rwa [mul_one]
  have s0' : Scale r (1 * 1 : ℝ) := by rwa [one_mul]
  have ny : ∀ b, Near fl L 1 0 (col b) (Y b) := fun b =>
    Near.exact (hc b) (by rw [one_mul]; exact hYL b)
  have n1 : Near fl L 1 1251 (tailDot i axis col) (tailDot i A Y) := by
    have := tailDot_near (r := r) (M := 1) (C := 415) i zero_le_one hL s1' (by rwa [one_mul]) hu ha
      (fun b _ => ny b) (by rw [one_mul, one_mul]; exact hT) (by norm_num) (by norm_num) le_rfl (by norm_num)
    exact (this.scale (one_mul _)).mono hL le_rfl (by norm_num)
  have nz : Near fl L 0 0 (0 : R) 0 := Near.of_val fl.zero.1 fl.zero.2 (by simp)
  have n2 : Near fl L 1 1253 (tailDot i axis col - 0) (tailDot i A Y - 0) :=
    Near.sub s1 hu n1 nz (by rw [sub_zero, one_mul]; exact hT)
  have nS : Near fl 1 1 0 sign S := Near.of_val hs hsv (by rw [hSa]; norm_num)
  have nm2 : Near fl 1 2 0 (Scalar.lit (-2) : R) (-2) :=
    Near.of_val q.lit_neg_two.1 q.lit_neg_two.2 (by norm_num)
  have n3 : Near fl 1 2 3 (sign * Scalar.lit (-2)) (S * -2) :=
    (Near.mul (r := r) (M := 2) zero_le_one zero_le_one s0' (by rwa [one_mul]) hu nS nm2
      (by rw [abs_mul, hSa]; norm_num)).scale (one_mul _)
  have n4 : Near fl L 2 2513 ((tailDot i axis col - 0) * (sign * Scalar.lit (-2)))
      ((tailDot i A Y - 0) * (S * -2)) :=
    (Near.mul (r := r) (M := 2) hL zero_le_one s1'' (by rwa [mul_one]) hu n2 n3
      (by rw [sub_zero, abs_mul, abs_mul, hSa, abs_neg, abs_two]; linarith)).scale (mul_one _)
  have e1 : reflect i axis sign col b =
      if i ≤ b then (tailDot i axis col - 0) * (sign * Scalar.lit (-2)) * axis b + sign * col b
      else col b := rfl
  have e2 : reflect i A S Y b =
      if i ≤ b then (tailDot i A Y - 0) * (S * -2) * A b + S * Y b else Y b := by
    simp [reflect]
  rw [e1, e2]
  split
  · rename_i hb
    have n5 : Near fl L 2 3341 ((tailDot i axis col - 0) * (sign * Scalar.lit (-2)) * axis b)
        ((tailDot i A Y - 0) * (S * -2) * A b) :=
      (Near.mul (r := r) (M := 2) hL zero_le_one s1'' (by rwa [mul_one]) hu n4 (ha b hb)
        (by rw [abs_mul, mul_one]
            have := mul_le_mul n4.mag (hA1 b hb) (abs_nonneg _) (by positivity)
            linarith)).scale (mul_one _)
    have n6 : Near fl L 1 2 (sign * col b) (S * Y b) :=
      (Near.mul (r := r) (M := 1) zero_le_one hL s1' (by rwa [one_mul]) hu nS (ny b)
        (by rw [abs_mul, hSa, one_mul, one_mul, one_mul]; exact hYL b)).scale (one_mul _)
    refine Near.add s1 hu n5 n6 ((abs_add_le _ _).trans ?_)
    linarith [n5.mag, n6.mag]
  · exact (ny b).mono hL (by norm_num) (by norm_num)

end Householder
end CamGeom
