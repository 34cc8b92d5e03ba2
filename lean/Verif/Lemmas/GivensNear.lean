import Verif.Lemmas.TridiagNear

/-!
# Rotations and shifts of nalgebra's eigenvector iteration in floating point
-/

namespace CamGeom
namespace SvdNear
open Matrix Householder
open Svd3 hiding Near

variable {R : Type} [Scalar R] {fl : Rounding R} {r : RoundingRange fl}

/-- Modulus and sign are exact. -/
theorem toExp_near (v : RoundingSvd fl) (r : RoundingRange fl) {x : R} (hx : fl.isFinite x) :
    ∃ g : ℝ, g * g = 1 ∧ g * |fl.val x| = fl.val x ∧ fl.isFinite (toExp x).1 ∧ fl.val (toExp x).1 = |fl.val x| ∧
      fl.isFinite (toExp x).2 ∧ fl.val (toExp x).2 = g := by
  have h := v.le_iff fl.zero.1 hx
  rw [fl.zero.2] at h
  by_cases h0 : 0 ≤ fl.val x
  · have e : toExp x = (x, 1) := by unfold toExp; rw [if_pos (h.2 h0)]
    rw [e]
    exact ⟨1, by norm_num, by rw [abs_of_nonneg h0, one_mul], hx, (abs_of_nonneg h0).symm, fl.one⟩
  · have e : toExp x = (-x, -1) := by unfold toExp; rw [if_neg (fun h' => h0 (h.1 h'))]
    have n1 := r.neg hx
    have n2 := r.neg fl.one.1
    rw [e]
    refine ⟨-1, by norm_num, by rw [abs_of_neg (not_le.1 h0)]; ring, n1, ?_, n2, ?_⟩
    · rw [(fl.neg n1).2, abs_of_neg (not_le.1 h0)]
    · rw [(fl.neg n2).2, fl.one.2]

/-- A length is computed with a small relative error. -/
theorem hyp_near (k : RoundingMore fl) (hF : Fine r) {x y : R} {n : ℝ} (hx : fl.isFinite x) (hy : fl.isFinite y)
    (hn0 : 0 < n) (hn : n * n = fl.val x * fl.val x + fl.val y * fl.val y) (hl : 1 / 10 ^ 40 ≤ n) (hh : n ≤ 1000) :
    Near fl (n * n) 1 6 (x * x + y * y) (n * n) ∧ Near fl n 1 8 (Scalar.sqrt (x * x + y * y)) n := by
  have hu := hF.hu
  have sn := hF.scale hn0.le (hh.trans (by norm_num))
  have hnn : n * n ≤ 1000000 := by nlinarith
  have snn := hF.scale (show 0 ≤ n * n by positivity) (hnn.trans (by norm_num))
  have hω : fl.ω ≤ n * n := by
    refine hF.ω_le'.trans ?_
    have := mul_le_mul hl hl (by positivity) hn0.le
    refine le_trans ?_ this
    norm_num
  have ax : |fl.val x| ≤ n := by
    refine abs_le_of_sq_le_sq ?_ hn0.le
    rw [sq, sq, hn]
    nlinarith [mul_self_nonneg (fl.val y)]
  have ay : |fl.val y| ≤ n := by
    refine abs_le_of_sq_le_sq ?_ hn0.le
    rw [sq, sq, hn]
    nlinarith [mul_self_nonneg (fl.val x)]
  have nx : Near fl n 1 0 x (fl.val x) := Near.exact hx (by rwa [one_mul])
  have ny : Near fl n 1 0 y (fl.val y) := Near.exact hy (by rwa [one_mul])
  have sq_le : ∀ {t : ℝ}, |t| ≤ n → |t * t| ≤ 1 * (n * n) := fun {t} ht => by
    rw [abs_mul, one_mul]; exact mul_le_mul ht ht (abs_nonneg _) hn0.le
  have p1 : Near fl (n * n) 1 2 (x * x) (fl.val x * fl.val x) :=
    Near.mul hn0.le hn0.le snn hω hu nx nx (sq_le ax)
  have p2 : Near fl (n * n) 1 2 (y * y) (fl.val y * fl.val y) :=
    Near.mul hn0.le hn0.le snn hω hu ny ny (sq_le ay)
  have p3 : Near fl (n * n) 1 6 (x * x + y * y) (n * n) := by
    rw [hn]
    have := Near.add (M := 1) (C := 6) snn hu p1 p2 (by rw [← hn, abs_of_pos (by positivity)]; linarith)
    rw [← hn] at this ⊢
    exact this
  refine ⟨p3, ?_⟩
  have := Near.sqrt (r := r) (M := 1) (C := 8) k 1 hn0.le sn hu p3 (by rw [one_mul, sq]) (by rw [one_mul, sq])
  rwa [Real.sqrt_mul_self hn0.le] at this

/-- An exact rotation and the computed one. -/
structure RotNear (fl : Rounding R) (g : Givens R) (C S : ℝ) : Prop where
  one : C * C + S * S = 1
  c : Near fl 1 1 14 g.c C
  s : Near fl 1 1 14 g.s S

/-- The quotients of a rotation. -/
theorem quot_near (k : RoundingMore fl) (v : RoundingSvd fl) (hF : Fine r) {x y : R} {n : ℝ} (hx : fl.isFinite x)
    (hy : fl.isFinite y) (hn0 : 0 < n) (hn : n * n = fl.val x * fl.val x + fl.val y * fl.val y)
    (hl : 1 / 10 ^ 40 ≤ n) (hh : n ≤ 1000) :
    ∃ g : ℝ, g * g = 1 ∧ g * |fl.val x| = fl.val x ∧
      Near fl n 1 8 (Scalar.sqrt ((toExp x).1 * (toExp x).1 + y * y)) n ∧
      Near fl n 1 11 ((toExp x).2 * Scalar.sqrt ((toExp x).1 * (toExp x).1 + y * y)) (g * n) ∧
      Near fl 1 1 14 ((toExp x).1 / Scalar.sqrt ((toExp x).1 * (toExp x).1 + y * y)) (|fl.val x| / n) ∧
      Near fl 1 1 14 (y / ((toExp x).2 * Scalar.sqrt ((toExp x).1 * (toExp x).1 + y * y))) (fl.val y / (g * n)) ∧
      Near fl 1 1 14 (-y / ((toExp x).2 * Scalar.sqrt ((toExp x).1 * (toExp x).1 + y * y))) (-fl.val y / (g * n)) ∧
      (1 / 10 ^ 20 ≤ |fl.val y| → Near fl (|fl.val y| / n) 1 14
        (-y / ((toExp x).2 * Scalar.sqrt ((toExp x).1 * (toExp x).1 + y * y))) (-fl.val y / (g * n))) := by
  have hu := hF.hu
  obtain ⟨g, hg, hgx, f1, v1, f2, v2⟩ := toExp_near v r hx
  have hn' : n * n = fl.val (toExp x).1 * fl.val (toExp x).1 + fl.val y * fl.val y := by
    rw [v1, abs_mul_abs_self, hn]
  obtain ⟨-, h1⟩ := hyp_near k hF f1 hy hn0 hn' hl hh
  set den := Scalar.sqrt ((toExp x).1 * (toExp x).1 + y * y) with hden
  have sn := hF.scale hn0.le (hh.trans (by norm_num))
  have s1 := hF.scale zero_le_one (by norm_num)
  have hωn : fl.ω ≤ n := by
    refine hF.ω_le'.trans (le_trans ?_ hl)
    norm_num
  have ga : |g| = 1 := by
    rcases mul_self_eq_one_iff.1 hg with h | h <;> rw [h] <;> norm_num
  have ax : |fl.val x| ≤ n := by
    refine abs_le_of_sq_le_sq ?_ hn0.le
    rw [sq, sq, hn]
    nlinarith [mul_self_nonneg (fl.val y)]
  have ay : |fl.val y| ≤ n := by
    refine abs_le_of_sq_le_sq ?_ hn0.le
    rw [sq, sq, hn]
    nlinarith [mul_self_nonneg (fl.val x)]
  have ng : Near fl 1 1 0 (toExp x).2 g := Near.of_val f2 v2 (by rw [ga]; norm_num)
  have h2 : Near fl n 1 11 ((toExp x).2 * den) (g * n) := by
    have := Near.mul (r := r) (M := 1) (C := 11) zero_le_one hn0.le (by rwa [one_mul]) (by rwa [one_mul]) hu ng h1
      (by rw [abs_mul, ga, one_mul, one_mul, one_mul, abs_of_pos hn0])
    exact this.scale (one_mul n)
  have nn1 : n / n = 1 := div_self hn0.ne'
  have gn : |g * n| = n := by rw [abs_mul, ga, one_mul, abs_of_pos hn0]
  have hd1 : ∀ {z : R} {Z : ℝ}, Near fl n 1 0 z Z → |Z| ≤ n → Near fl 1 1 14 (z / ((toExp x).2 * den)) (Z / (g * n)) := by
    intro z Z hz hZ
    have := Near.div (r := r) (M := 1) (C := 14) 1 hn0.le hn0 (by rwa [nn1]) (by rw [nn1]; exact hF.ω1) hu hz h2
      (by rw [one_mul, gn]) (by rw [nn1, mul_one, abs_div, gn, div_le_one hn0]; exact hZ)
    exact this.scale nn1
  have hny := r.neg hy
  refine ⟨g, hg, hgx, h1, h2, ?_, hd1 (Near.exact hy (by rwa [one_mul])) ay, ?_, fun hy0 => ?_⟩
  · have := Near.div (r := r) (M := 1) (C := 14) 1 hn0.le hn0 (by rwa [nn1]) (by rw [nn1]; exact hF.ω1) hu
      (Near.of_val (s := n) (m := 1) f1 v1 (by rw [abs_abs, one_mul]; exact ax)) h1
      (by rw [one_mul, abs_of_pos hn0]) (by rw [nn1, mul_one, abs_div, abs_abs, abs_of_pos hn0, div_le_one hn0]; exact ax)
    exact this.scale nn1
  · exact hd1 (Near.of_val (s := n) (m := 1) hny (fl.neg hny).2 (by rw [abs_neg, one_mul]; exact ay))
      (by rw [abs_neg]; exact ay)
  · have hq : |fl.val y| / n ≤ 1 := (div_le_one hn0).2 ay
    have hq' : 1 / 10 ^ 23 ≤ |fl.val y| / n := by
      rw [le_div_iff₀ hn0]
      refine le_trans ?_ hy0
      have : 1 / 10 ^ 23 * n ≤ 1 / 10 ^ 23 * (1000 : ℝ) := by gcongr
      exact this.trans (by norm_num)
    exact Near.div (r := r) (M := 1) (C := 14) 1 (abs_nonneg _) hn0
      (hF.scale (by positivity) (hq.trans (by norm_num))) (hF.ω_le'.trans (le_trans (by norm_num) hq')) hu
      (Near.of_val (s := |fl.val y|) (m := 1) hny (fl.neg hny).2 (by rw [abs_neg, one_mul])) h2
      (by rw [one_mul, gn]) (by rw [abs_div, abs_neg, gn, one_mul])

/-- `GivensRotation::cancel_y`. -/
theorem cancelY_near (q : RoundingQr fl) (k : RoundingMore fl) (v : RoundingSvd fl) (hF : Fine r) {x y : R}
    (hx : fl.isFinite x) (hy : fl.isFinite y) (hX : |fl.val x| ≤ 20) (hY : |fl.val y| ≤ 20)
    (hl : 1 / 10 ^ 20 ≤ |fl.val y|) :
    ∃ g nn C S N, cancelY x y = some (g, nn) ∧ RotNear fl g C S ∧ C * fl.val x - S * fl.val y = N ∧
      C * fl.val y + S * fl.val x = 0 ∧ |fl.val y| ≤ 30 * |S| ∧ Near fl 1 30 330 nn N ∧ |N| ≤ 30 ∧
      Near fl |S| 1 14 g.s S := by
  have hy0 : fl.val y ≠ 0 := fun h => by
    rw [h, abs_zero] at hl
    norm_num at hl
  have hb : ¬ Scalar.beq y 0 = true := fun h => hy0 (by rw [(q.beq_iff hy fl.zero.1).1 h, fl.zero.2])
  set n := Real.sqrt (fl.val x * fl.val x + fl.val y * fl.val y) with hn'
  have hnn : n * n = fl.val x * fl.val x + fl.val y * fl.val y :=
    Real.mul_self_sqrt (add_nonneg (mul_self_nonneg _) (mul_self_nonneg _))
  have hn1 : |fl.val y| ≤ n := Real.le_sqrt_of_sq_le (by rw [sq_abs]; nlinarith [mul_self_nonneg (fl.val x)])
  have hn0 : 0 < n := lt_of_lt_of_le (abs_pos.2 hy0) hn1
  have hn30 : n ≤ 30 := by
    refine Real.sqrt_le_iff.2 ⟨by norm_num, ?_⟩
    rw [← abs_mul_abs_self (fl.val x), ← abs_mul_abs_self (fl.val y)]
    nlinarith [abs_nonneg (fl.val x), abs_nonneg (fl.val y)]
  obtain ⟨g, hg, hgx, h1, h2, h3, h4, h5, h6⟩ := quot_near k v hF hx hy hn0 hnn
    (le_trans (by norm_num) (hl.trans hn1)) (hn30.trans (by norm_num))
  have hg0 : g ≠ 0 := fun h => by rw [h] at hg; norm_num at hg
  have ga : |g| = 1 := by
    rcases mul_self_eq_one_iff.1 hg with h | h <;> rw [h] <;> norm_num
  refine ⟨_, _, _, _, g * n, by unfold cancelY; rw [if_neg hb], ⟨?_, h3, h5⟩, ?_, ?_, ?_, ?_, ?_, ?_⟩
  · have e1 : |fl.val x| * |fl.val x| = fl.val x * fl.val x := abs_mul_abs_self _
    rw [div_mul_div_comm, div_mul_div_comm, e1, show g * n * (g * n) = n * n by linear_combination n * n * hg,
      ← add_div, div_eq_one_iff_eq (by positivity), hnn]
    ring
  · rw [← hgx]
    field_simp
    rw [abs_mul, abs_abs, ga, one_mul]
    have e1 : |fl.val x| * |fl.val x| = fl.val x * fl.val x := abs_mul_abs_self _
    linear_combination (|fl.val x| * |fl.val x| - n * n) * hg + e1 - hnn
  · rw [← hgx]
    field_simp
    rw [abs_mul, abs_abs, ga, one_mul]
    ring
  · rw [abs_div, abs_neg, abs_mul, ga, one_mul, abs_of_pos hn0, ← mul_div_assoc, le_div_iff₀ hn0]
    have := mul_le_mul_of_nonneg_left hn30 (abs_nonneg (fl.val y))
    linarith
  · refine ⟨h2.fin, ?_, ?_⟩
    · rw [abs_mul, ga, one_mul, abs_of_pos hn0]; linarith
    · refine h2.err.trans ?_
      have : fl.u * n ≤ fl.u * 30 := mul_le_mul_of_nonneg_left hn30 fl.u_nonneg
      linarith
  · rw [abs_mul, ga, one_mul, abs_of_pos hn0]; exact hn30
  · refine (h6 hl).scale ?_
    rw [abs_div, abs_neg, abs_mul, ga, one_mul, abs_of_pos hn0]

/-- `GivensRotation::try_new`: a rotation by the angle of `(x, y)`, or none if the vector is short. -/
theorem tryNew_near (k : RoundingMore fl) (v : RoundingSvd fl) (hF : Fine r) {x y eps : R}
    (he : fl.isFinite eps) (he1 : 99 / 10 ^ 9 ≤ fl.val eps) (he2 : fl.val eps ≤ 101 / 10 ^ 9)
    (hx : fl.isFinite x) (hy : fl.isFinite y) (hX : |fl.val x| ≤ 20) (hY : |fl.val y| ≤ 20) :
    (∃ g C S n, Givens.tryNew x y eps = some g ∧ RotNear fl g C S ∧ 0 < n ∧ |fl.val y| ≤ n ∧
      C * S * (n * n) = fl.val x * fl.val y ∧ (C * C - S * S) * (n * n) = fl.val x * fl.val x - fl.val y * fl.val y) ∨
    (Givens.tryNew x y eps = none ∧ |fl.val y| ≤ 102 / 10 ^ 9) := by
  have hu := hF.hu
  set n := Real.sqrt (fl.val x * fl.val x + fl.val y * fl.val y) with hn'
  have hnn : n * n = fl.val x * fl.val x + fl.val y * fl.val y :=
    Real.mul_self_sqrt (add_nonneg (mul_self_nonneg _) (mul_self_nonneg _))
  have hnx : |fl.val x| ≤ n := Real.le_sqrt_of_sq_le (by rw [sq_abs]; nlinarith [mul_self_nonneg (fl.val y)])
  have hn1 : |fl.val y| ≤ n := Real.le_sqrt_of_sq_le (by rw [sq_abs]; nlinarith [mul_self_nonneg (fl.val x)])
  have hn00 : 0 ≤ n := Real.sqrt_nonneg _
  have hn30 : n ≤ 30 := by
    refine Real.sqrt_le_iff.2 ⟨by norm_num, ?_⟩
    rw [← abs_mul_abs_self (fl.val x), ← abs_mul_abs_self (fl.val y)]
    nlinarith [abs_nonneg (fl.val x), abs_nonneg (fl.val y)]
  by_cases hs : n < 1 / 10 ^ 8
  · right
    refine ⟨?_, hn1.trans (hs.le.trans (by norm_num))⟩
    obtain ⟨g, hg, hgx, f1, v1, f2, v2⟩ := toExp_near v r hx
    set X := (toExp x).1 with hXd
    have s16 := hF.scale (s := 1 / 10 ^ 8 * (1 / 10 ^ 8)) (by norm_num) (by norm_num)
    have hω : fl.ω ≤ 1 / 10 ^ 8 * (1 / 10 ^ 8) := hF.ω_le'.trans (by norm_num)
    have nx : Near fl (1 / 10 ^ 8) 1 0 X |fl.val x| := Near.of_val f1 v1 (by rw [abs_abs, one_mul]; linarith)
    have ny : Near fl (1 / 10 ^ 8) 1 0 y (fl.val y) := Near.exact hy (by rw [one_mul]; linarith)
    have sq_le : ∀ {t : ℝ}, |t| ≤ 1 / 10 ^ 8 → |t * t| ≤ 1 * (1 / 10 ^ 8 * (1 / 10 ^ 8)) := fun {t} ht => by
      rw [abs_mul, one_mul]; exact mul_le_mul ht ht (abs_nonneg _) (by norm_num)
    have p1 := Near.mul (r := r) (M := 1) (C := 2) (by norm_num) (by norm_num) s16 hω hu nx nx
      (sq_le (by rw [abs_abs]; linarith))
    have p2 := Near.mul (r := r) (M := 1) (C := 2) (by norm_num) (by norm_num) s16 hω hu ny ny (sq_le (by linarith))
    have e1 : |fl.val x| * |fl.val x| + fl.val y * fl.val y = n * n := by rw [hnn, abs_mul_abs_self]
    have p3 := Near.add (M := 1) (C := 6) s16 hu p1 p2 (by
      rw [e1, abs_of_nonneg (by positivity), one_mul]; exact mul_le_mul hs.le hs.le hn00 (by norm_num))
    have q1 := mul_nonneg' v hu p1.fin (mul_self_nonneg _)
    have q2 := mul_nonneg' v hu p2.fin (mul_self_nonneg _)
    have q3 : 0 ≤ fl.val (X * X + y * y) := by
      have h1 := (fl.add p3.fin).2.2
      rw [abs_of_nonneg (show 0 ≤ fl.val (X * X) + fl.val (y * y) by linarith)] at h1
      have h2 : fl.u * (fl.val (X * X) + fl.val (y * y)) ≤ 1 / 10 ^ 7 * (fl.val (X * X) + fl.val (y * y)) := by gcongr
      have := (abs_le.1 h1).1
      linarith
    have h4 : fl.val (X * X + y * y) ≤ 2 / 10 ^ 8 * (2 / 10 ^ 8) := by
      have := p3.abs_val hu (by norm_num) (by norm_num)
      refine (le_abs_self _).trans (this.trans ?_)
      norm_num
    have h5 : Real.sqrt (fl.val (X * X + y * y)) ≤ 2 / 10 ^ 8 :=
      Real.sqrt_le_iff.2 ⟨by norm_num, by rw [sq]; exact h4⟩
    have fs : fl.isFinite (Scalar.sqrt (X * X + y * y)) :=
      (r.sqrt p3.fin q3 (k := 0) (Nat.zero_le _) (h5.trans (by norm_num))).1
    have h6 := (k.sqrt fs).2.2
    have h7 : fl.val (Scalar.sqrt (X * X + y * y)) ≤ 3 / 10 ^ 8 := by
      have h8 : fl.u * Real.sqrt (fl.val (X * X + y * y)) ≤ 1 / 10 ^ 7 * (2 / 10 ^ 8) :=
        mul_le_mul hu h5 (Real.sqrt_nonneg _) (by norm_num)
      have := (abs_le.1 h6).2
      linarith
    have h8 : ¬ Scalar.lt eps (Scalar.sqrt (X * X + y * y)) = true := fun h => by
      have := (k.lt_iff he fs).1 h
      linarith
    unfold Givens.tryNew
    simp only [← hXd]
    rw [if_neg h8]
  · have hs := not_lt.1 hs
    have hn0 : 0 < n := lt_of_lt_of_le (by norm_num) hs
    obtain ⟨g, hg, hgx, h1, h2, h3, h4, h5, -⟩ := quot_near k v hF hx hy hn0 hnn
      (le_trans (by norm_num) hs) (hn30.trans (by norm_num))
    have hg0 : g ≠ 0 := fun h => by rw [h] at hg; norm_num at hg
    by_cases hlt : Scalar.lt eps (Scalar.sqrt ((toExp x).1 * (toExp x).1 + y * y)) = true
    · left
      have e1 : |fl.val x| * |fl.val x| = fl.val x * fl.val x := abs_mul_abs_self _
      have e2 : g * n * (g * n) = n * n := by linear_combination n * n * hg
      refine ⟨_, _, _, n, by unfold Givens.tryNew; rw [if_pos hlt], ⟨?_, h3, h4⟩, hn0, hn1, ?_, ?_⟩
      · rw [div_mul_div_comm, div_mul_div_comm, e1, e2, ← add_div, div_eq_one_iff_eq (by positivity), hnn]
      · have e3 : |fl.val x| = g * fl.val x := by
          linear_combination (-1 : ℝ) * |fl.val x| * hg + g * hgx
        rw [e3]
        field_simp
      · rw [div_mul_div_comm, div_mul_div_comm, e1, e2, ← sub_div, div_mul_cancel₀]
        positivity
    · right
      refine ⟨by unfold Givens.tryNew; rw [if_neg hlt], ?_⟩
      have h6 : ¬ fl.val eps < fl.val (Scalar.sqrt ((toExp x).1 * (toExp x).1 + y * y)) :=
        fun h => hlt ((k.lt_iff he h1.fin).2 h)
      have h7 := (abs_le.1 h1.err).1
      have h8 : fl.u * n ≤ 1 / 10 ^ 7 * n := by gcongr
      have h9 := not_lt.1 h6
      have : n ≤ 102 / 10 ^ 9 := by linarith
      linarith

/-- Wilkinson's shift is near the exact shift of a matrix nearby. -/
theorem shift_near (q : RoundingQr fl) (k : RoundingMore fl) (v : RoundingSvd fl) (hF : Fine r) {a b o : R}
    (ha : fl.isFinite a) (hb : fl.isFinite b) (ho : fl.isFinite o) (hA : |fl.val a| ≤ 4) (hB : |fl.val b| ≤ 4)
    (hO : |fl.val o| ≤ 4) (hl : 1 / 10 ^ 20 ≤ |fl.val o|) :
    fl.isFinite (wilkinsonShift a b o) ∧ |fl.val (wilkinsonShift a b o)| ≤ 16 ∧
    ∃ A σ : ℝ, |A - fl.val a| ≤ 26 * fl.u ∧ |fl.val (wilkinsonShift a b o) - σ| ≤ 220 * fl.u ∧
      (A - σ) * (fl.val b - σ) = fl.val o ^ 2 ∧ fl.val o ^ 2 ≤ (A - σ) ^ 2 := by
  have hu0 := fl.u_nonneg
  have hu := hF.hu
  have nd : Near fl 1 4 13 ((a - b) * Scalar.lit (1 / 2)) ((fl.val a - fl.val b) * (1 / 2)) :=
    hF.mul 4 13 (hF.sub 8 8 (Near.exact1 ha hA) (Near.exact1 hb hB))
      (Near.of_val (m := 1 / 2) v.lit_half.1 v.lit_half.2 (by norm_num))
  set d := (a - b) * Scalar.lit (1 / 2) with hd
  have hD : |fl.val d| ≤ 5 := by
    have := nd.abs_val hu zero_le_one (by norm_num)
    exact this.trans (by norm_num)
  have ho0 : fl.val o ≠ 0 := fun h => by
    rw [h, abs_zero] at hl
    norm_num at hl
  set n := Real.sqrt (fl.val d * fl.val d + fl.val o * fl.val o) with hn'
  have hnn : n * n = fl.val d * fl.val d + fl.val o * fl.val o :=
    Real.mul_self_sqrt (add_nonneg (mul_self_nonneg _) (mul_self_nonneg _))
  have hno : |fl.val o| ≤ n := Real.le_sqrt_of_sq_le (by rw [sq_abs]; nlinarith [mul_self_nonneg (fl.val d)])
  have hnd : |fl.val d| ≤ n := Real.le_sqrt_of_sq_le (by rw [sq_abs]; nlinarith [mul_self_nonneg (fl.val o)])
  have hn0 : 0 < n := lt_of_lt_of_le (abs_pos.2 ho0) hno
  have hn30 : n ≤ 10 := by
    refine Real.sqrt_le_iff.2 ⟨by norm_num, ?_⟩
    rw [← abs_mul_abs_self (fl.val d), ← abs_mul_abs_self (fl.val o)]
    nlinarith [abs_nonneg (fl.val d), abs_nonneg (fl.val o)]
  have hl40 : 1 / 10 ^ 40 ≤ n := le_trans (by norm_num) (hl.trans hno)
  obtain ⟨h1, h2⟩ := hyp_near k hF nd.fin ho hn0 hnn hl40 (hn30.trans (by norm_num))
  obtain ⟨fsg, vsg⟩ := signum_near k r nd.fin (X := fl.val d) Iff.rfl
  have hsg := signum_mul_self (fl.val d)
  have hsd : 0 ≤ signum (fl.val d) * fl.val d := by
    unfold signum; rw [lt_real]
    split
    · rename_i h; rw [decide_eq_true_eq] at h; linarith
    · rename_i h; rw [decide_eq_true_eq] at h; linarith
  set g : ℝ := signum (fl.val d) with hg
  have ga : |g| = 1 := by
    rcases mul_self_eq_one_iff.1 hsg with h | h <;> rw [h] <;> norm_num
  have sn := hF.scale hn0.le (hn30.trans (by norm_num))
  have hωn : fl.ω ≤ n := hF.ω_le'.trans (le_trans (by norm_num) hl40)
  have hωnn : fl.ω ≤ n * n := by
    refine hF.ω_le'.trans (le_trans ?_ (mul_le_mul hl40 hl40 (by positivity) hn0.le))
    norm_num
  have h3 : Near fl n 1 11 (signum d * Scalar.sqrt (d * d + o * o)) (g * n) := by
    have := Near.mul (r := r) (M := 1) (C := 11) zero_le_one hn0.le (by rwa [one_mul]) (by rwa [one_mul]) hu
      (Near.of_val (s := 1) (m := 1) fsg vsg (by rw [ga]; norm_num)) h2
      (by rw [abs_mul, ga, one_mul, one_mul, one_mul, abs_of_pos hn0])
    exact this.scale (one_mul n)
  have gn : |g * n| = n := by rw [abs_mul, ga, one_mul, abs_of_pos hn0]
  have h4 : Near fl n 2 15 (d + signum d * Scalar.sqrt (d * d + o * o)) (fl.val d + g * n) :=
    Near.add (M := 2) (C := 15) sn hu (Near.exact (m := 1) nd.fin (by rwa [one_mul])) h3
      ((abs_add_le _ _).trans (by rw [gn]; linarith))
  have hlow : 1 * n ≤ |fl.val d + g * n| := by
    have e1 : g * (fl.val d + g * n) = g * fl.val d + n := by linear_combination n * hsg
    have e2 : |g * (fl.val d + g * n)| = |fl.val d + g * n| := by rw [abs_mul, ga, one_mul]
    rw [← e2, e1, one_mul]
    exact le_trans (by linarith) (le_abs_self _)
  have hoo : |fl.val o * fl.val o| ≤ 1 * (n * n) := by
    rw [abs_mul, one_mul]; exact mul_le_mul hno hno (abs_nonneg _) hn0.le
  have h5 : Near fl (n * n) 1 2 (o * o) (fl.val o * fl.val o) :=
    Near.mul hn0.le hn0.le (hF.scale (by positivity) (by nlinarith)) hωnn hu (Near.exact (m := 1) ho (by rwa [one_mul]))
      (Near.exact (m := 1) ho (by rwa [one_mul])) hoo
  have nnn : n * n / n = n := by field_simp
  have h6 : Near fl n 1 20 (o * o / (d + signum d * Scalar.sqrt (d * d + o * o)))
      (fl.val o * fl.val o / (fl.val d + g * n)) := by
    have := Near.div (r := r) (M := 1) (C := 20) 1 (show 0 ≤ n * n by positivity) hn0 (by rwa [nnn]) (by rwa [nnn]) hu h5 h4 hlow
      (by
        rw [nnn, one_mul, abs_div, div_le_iff₀ (lt_of_lt_of_le (by linarith) hlow)]
        rw [one_mul] at hlow hoo
        exact hoo.trans (mul_le_mul_of_nonneg_left hlow hn0.le))
    exact this.scale nnn
  have h7 := h6.abs_val hu hn0.le (by norm_num)
  have h7' : |fl.val (o * o / (d + signum d * Scalar.sqrt (d * d + o * o)))| ≤ 11 := by
    refine h7.trans ?_
    linarith
  have hw : wilkinsonShift a b o = if Scalar.beq (o * o) 0 then b else
      b - o * o / (d + signum d * Scalar.sqrt (d * d + o * o)) := rfl
  have ao : 0 < |fl.val o| := abs_pos.2 ho0
  have hωo : fl.ω ≤ |fl.val o| * |fl.val o| := by
    refine hF.ω_le'.trans (le_trans ?_ (mul_le_mul hl hl (by positivity) ao.le))
    norm_num
  have h9 : Near fl (|fl.val o| * |fl.val o|) 1 2 (o * o) (fl.val o * fl.val o) :=
    Near.mul ao.le ao.le (hF.scale (by positivity) (by nlinarith)) hωo hu (Near.exact (m := 1) ho (by rw [one_mul]))
      (Near.exact (m := 1) ho (by rw [one_mul])) (by rw [abs_mul, one_mul])
  have hne : ¬ Scalar.beq (o * o) 0 = true := fun hb => by
    have e := (q.beq_iff h9.fin fl.zero.1).1 hb
    have e2 := h9.err_le hu (by positivity) (by norm_num)
    rw [e, fl.zero.2, zero_sub, abs_neg, abs_mul] at e2
    have : 0 < |fl.val o| * |fl.val o| := by positivity
    linarith
  rw [hw, if_neg hne]
  have h8 : |fl.val b - fl.val (o * o / (d + signum d * Scalar.sqrt (d * d + o * o)))| ≤ 15 :=
    (abs_sub _ _).trans (by linarith)
  have f8 := r.sub hb h6.fin (k := 4) (le_trans (by norm_num) hF.top) (h8.trans (by norm_num))
  have sp := wilkinson_spec (fl.val b + 2 * fl.val d) (fl.val b) ho0
  have hσ : wilkinsonShift (fl.val b + 2 * fl.val d) (fl.val b) (fl.val o) =
      fl.val b - fl.val o * fl.val o / (fl.val d + g * n) := by
    have e1 : (fl.val b + 2 * fl.val d - fl.val b) * (1 / 2) = fl.val d := by ring
    simp only [wilkinsonShift, beq_real, decide_eq_true_eq, if_neg (mul_ne_zero ho0 ho0), sqrt_real, lit_real]
    push_cast
    rw [e1]
  refine ⟨f8.1, f8.2.trans (by norm_num), fl.val b + 2 * fl.val d, _, ?_, ?_, sp.1, sp.2⟩
  · have e := nd.err1
    have e1 : fl.val b + 2 * fl.val d - fl.val a = 2 * (fl.val d - (fl.val a - fl.val b) * (1 / 2)) := by ring
    rw [e1, abs_mul, abs_two]
    linarith
  · rw [hσ]
    have e1 := (fl.sub f8.1).2.2
    have e2 := h6.err
    have e3 : fl.u * |fl.val b - fl.val (o * o / (d + signum d * Scalar.sqrt (d * d + o * o)))| ≤ fl.u * 15 := by gcongr
    have e4 : fl.u * n ≤ fl.u * 10 := by gcongr
    rw [abs_le] at e1 e2 ⊢
    constructor <;> linarith

end SvdNear
end CamGeom
