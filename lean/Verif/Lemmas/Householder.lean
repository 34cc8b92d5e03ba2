import Verif.Model.Householder
import Verif.Lemmas.RotationToQuat
import Mathlib.Tactic.LinearCombination

/-!
# nalgebra's QR decomposition satisfies its contract
-/

namespace CamGeom
namespace Householder
open Spec Matrix

theorem tailDot_comm (i : Fin 3) (a b : V3 ℝ) : tailDot i a b = tailDot i b a := by
  fin_cases i <;> simp [tailDot] <;> ring

theorem tailDot_update (i : Fin 3) (x y : V3 ℝ) (d : ℝ) :
    tailDot i (Function.update x i (x i + d)) y = tailDot i x y + d * y i := by
  fin_cases i <;> simp [tailDot, Function.update] <;> ring

theorem tailDot_div (i : Fin 3) (x y : V3 ℝ) (s : ℝ) :
    tailDot i (fun r => if i ≤ r then x r / s else x r) y = tailDot i x y / s := by
  fin_cases i <;> simp [tailDot] <;> ring

theorem tailDot_nonneg (i : Fin 3) (x : V3 ℝ) : 0 ≤ tailDot i x x := by
  fin_cases i <;> simp [tailDot] <;> nlinarith [mul_self_nonneg (x 0), mul_self_nonneg (x 1), mul_self_nonneg (x 2)]

theorem tailDot_eq_zero {i : Fin 3} {x : V3 ℝ} (h : tailDot i x x = 0) (r : Fin 3) (hr : i ≤ r) :
    x r = 0 := by
  have h0 := mul_self_nonneg (x 0)
  have h1 := mul_self_nonneg (x 1)
  have h2 := mul_self_nonneg (x 2)
  rw [← mul_self_eq_zero]
  fin_cases i <;> fin_cases r <;> simp [tailDot] at h hr ⊢ <;> nlinarith

theorem signum_mul_self (x : ℝ) : signum x * signum x = 1 := by
  unfold signum; split <;> norm_num

/-- An axis for which `reflect` is an orthogonal involution. -/
def Good (i : Fin 3) (a : V3 ℝ) : Prop := tailDot i a a = 1 ∨ ∀ r, i ≤ r → a r = 0

theorem reflect_zero_axis {i : Fin 3} {a : V3 ℝ} (h : ∀ r, i ≤ r → a r = 0) (s : ℝ) (v : V3 ℝ)
    (r : Fin 3) : reflect i a s v r = if i ≤ r then s * v r else v r := by
  unfold reflect
  split
  · rename_i hr; rw [h r hr]; ring
  · rfl

theorem reflect_involutive {i : Fin 3} {a : V3 ℝ} (ha : Good i a) {s : ℝ} (hs : s * s = 1) (v : V3 ℝ) :
    reflect i a s (reflect i a s v) = v := by
  rcases ha with h | h
  · funext r
    have key : ∀ t ar vr : ℝ, ((t * (s * -2) * 1 + s * t) * (s * -2)) * ar +
        s * (t * (s * -2) * ar + s * vr) = vr := by
      intro t ar vr; linear_combination vr * hs
    have ht : tailDot i a (reflect i a s v) = tailDot i a v * (s * -2) * 1 + s * tailDot i a v := by
      rw [← h]
      fin_cases i <;> simp [tailDot, reflect] <;> ring
    have hr : reflect i a s (reflect i a s v) r = if i ≤ r then
        (tailDot i a (reflect i a s v) - 0) * (s * Scalar.lit (-2)) * a r + s * reflect i a s v r
        else reflect i a s v r := rfl
    rw [hr, ht]
    split
    · rename_i hir
      have h2 : reflect i a s v r = tailDot i a v * (s * -2) * a r + s * v r := by
        simp [reflect, hir]
      rw [h2]
      simpa using key (tailDot i a v) (a r) (v r)
    · rename_i hir
      simp [reflect, hir]
  · funext r
    rw [reflect_zero_axis h, reflect_zero_axis h]
    split
    · linear_combination v r * hs
    · rfl

/-- Dot product of two columns. -/
def dot (a b : V3 ℝ) : ℝ := a 0 * b 0 + a 1 * b 1 + a 2 * b 2

theorem reflect_dot {i : Fin 3} {a : V3 ℝ} (ha : Good i a) {s : ℝ} (hs : s * s = 1) (v w : V3 ℝ) :
    dot (reflect i a s v) (reflect i a s w) = dot v w := by
  rcases ha with h | h
  · fin_cases i <;> simp [tailDot, reflect, dot] at h ⊢
    · linear_combination (4 * (a 0 * v 0 + a 1 * v 1 + a 2 * v 2) * (a 0 * w 0 + a 1 * w 1 + a 2 * w 2)
        * s * s) * h + (v 0 * w 0 + v 1 * w 1 + v 2 * w 2) * hs
    · linear_combination (4 * (a 1 * v 1 + a 2 * v 2) * (a 1 * w 1 + a 2 * w 2)
        * s * s) * h + (v 1 * w 1 + v 2 * w 2) * hs
    · linear_combination (4 * (a 2 * v 2) * (a 2 * w 2) * s * s) * h + (v 2 * w 2) * hs
  · simp only [dot, reflect_zero_axis h]
    fin_cases i <;> simp
    · linear_combination (v 0 * w 0 + v 1 * w 1 + v 2 * w 2) * hs
    · linear_combination (v 1 * w 1 + v 2 * w 2) * hs
    · linear_combination (v 2 * w 2) * hs

theorem reflect_add (i : Fin 3) (a : V3 ℝ) (s : ℝ) (v w : V3 ℝ) :
    reflect i a s (v + w) = reflect i a s v + reflect i a s w := by
  funext r
  by_cases hr : i ≤ r
  · simp only [reflect, hr, if_true, Pi.add_apply, lit_real]
    fin_cases i <;> simp [tailDot] <;> ring
  · simp [reflect, hr]

theorem reflect_smul (i : Fin 3) (a : V3 ℝ) (s : ℝ) (c : ℝ) (v : V3 ℝ) :
    reflect i a s (c • v) = c • reflect i a s v := by
  funext r
  by_cases hr : i ≤ r
  · simp only [reflect, hr, if_true, Pi.smul_apply, smul_eq_mul, lit_real]
    fin_cases i <;> simp [tailDot] <;> ring
  · simp [reflect, hr]

theorem reflect_fixed {i : Fin 3} (a : V3 ℝ) (s : ℝ) {v : V3 ℝ} (h : ∀ r, i ≤ r → v r = 0) :
    reflect i a s v = v := by
  have h0 : tailDot i a v = 0 := by
    fin_cases i <;> simp [tailDot] <;> simp [h 0, h 1, h 2]
  funext r
  unfold reflect
  split
  · rename_i hr; rw [h0, h r hr]; ring
  · rfl

/-- `reflection_axis_mut` finds an axis whose signed reflection clears the column. -/
theorem reflectionAxis_spec (i : Fin 3) (x : V3 ℝ) :
    let a := reflectionAxis i x
    (∀ r, r < i → a.1 r = x r) ∧ Good i a.1 ∧ |a.2.1| = Real.sqrt (tailDot i x x) ∧
    (∀ r, i ≤ r → reflect i a.1 (signum a.2.1) x r = if r = i then Real.sqrt (tailDot i x x) else 0) ∧
    (a.2.2 = false → (∀ r, i ≤ r → a.1 r = 0) ∧ signum a.2.1 = 1) := by
  intro a
  set n := Real.sqrt (tailDot i x x) with hn
  have hn0 : 0 ≤ n := Real.sqrt_nonneg _
  have hnn : n * n = tailDot i x x := Real.mul_self_sqrt (tailDot_nonneg i x)
  set m := |x i| with hm
  set s : ℝ := if m = 0 then 1 else x i / m with hs
  have hm0 : 0 ≤ m := abs_nonneg _
  have hsm : s * m = x i := by
    rw [hs]; split
    · rename_i h
      have : x i = 0 := abs_eq_zero.1 h
      rw [h, this]; simp
    · rename_i h; field_simp
  have hss : s * s = 1 := by
    rw [hs]; split
    · norm_num
    · rename_i h
      have h2 : m * m = x i * x i := abs_mul_abs_self _
      field_simp; nlinarith
  have hsa : |s| = 1 := by
    rcases mul_self_eq_one_iff.1 hss with h | h <;> rw [h] <;> norm_num
  have hxs : s * x i = m := by rw [← hsm, ← mul_assoc, hss, one_mul]
  set f := (tailDot i x x + m * n) * 2 with hf
  have hfd : f = 2 * n * (n + m) := by rw [hf, ← hnn]; ring
  set w := Function.update x i (x i + s * n) with hw
  have ha : a = if f = 0 then (w, s * n, false) else
      (fun r => if i ≤ r then (if i ≤ r then w r / Real.sqrt f else w r) /
          Real.sqrt (tailDot i (fun r => if i ≤ r then w r / Real.sqrt f else w r)
            (fun r => if i ≤ r then w r / Real.sqrt f else w r)) else
            (if i ≤ r then w r / Real.sqrt f else w r), -(s * n), true) := by
    simp only [a, reflectionAxis, sqrt_real, abs_real, beq_real, lit_real, decide_eq_true_eq,
      Rat.cast_ofNat]
    rfl
  have hwlt : ∀ r, r < i → w r = x r := fun r hr => by rw [hw, Function.update_of_ne hr.ne]
  by_cases hf0 : f = 0
  · rw [if_pos hf0] at ha
    have hn1 : n = 0 := by
      rw [hfd] at hf0
      nlinarith
    have hxt : ∀ r, i ≤ r → x r = 0 := fun r hr => tailDot_eq_zero (by rw [← hnn, hn1, zero_mul]) r hr
    have hwt : ∀ r, i ≤ r → w r = 0 := fun r hr => by
      rw [hw, hn1, mul_zero, add_zero, Function.update_eq_self]; exact hxt r hr
    rw [ha]
    refine ⟨hwlt, .inr hwt, ?_, ?_, fun _ => ⟨hwt, ?_⟩⟩
    · rw [abs_mul, hsa, one_mul, abs_of_nonneg hn0]
    · intro r hr
      rw [reflect_zero_axis hwt, if_pos hr, hxt r hr, mul_zero, hn1]; simp
    · simp [signum, hn1]
  · rw [if_neg hf0] at ha
    have hn1 : 0 < n := by
      rcases hn0.lt_or_eq with h | h
      · exact h
      · rw [hfd, ← h] at hf0; simp at hf0
    have hfp : 0 < f := by rw [hfd]; positivity
    set g := Real.sqrt f with hg
    have hgp : 0 < g := Real.sqrt_pos.2 hfp
    have hgg : g * g = f := Real.mul_self_sqrt hfp.le
    have hwi : w i = x i + s * n := by rw [hw, Function.update_self]
    have hwx : tailDot i w x = f / 2 := by
      rw [hw, tailDot_update, ← hnn, hfd, ← hxs]; ring
    have hww : tailDot i w w = f := by
      have h := tailDot_update i x w (s * n)
      rw [← hw] at h
      rw [h, tailDot_comm, hwx, hwi, hfd, ← hxs]
      linear_combination (n * n) * hss
    set b : V3 ℝ := fun r => if i ≤ r then w r / g else w r with hb
    have hbb : tailDot i b b = 1 := by
      rw [hb, tailDot_div, tailDot_comm, tailDot_div, hww, ← hgg]; field_simp
    have ha1 : a.1 = b := by
      rw [ha]; funext r
      change (if i ≤ r then b r / Real.sqrt (tailDot i b b) else b r) = b r
      rw [hbb]; simp
    have ha2 : a.2.1 = -(s * n) := by rw [ha]
    have ha3 : a.2.2 = true := by rw [ha]
    have hsg : signum a.2.1 = -s := by
      rw [ha2]; unfold signum
      rcases mul_self_eq_one_iff.1 hss with h | h
      · rw [h]; simp [hn1]
      · rw [h]; simp [hn1.le]
    refine ⟨fun r hr => ?_, .inl (by rw [ha1]; exact hbb), ?_, ?_, ?_⟩
    · rw [ha1, hb]; simp only [not_le.2 hr, if_false]; exact hwlt r hr
    · rw [ha2, abs_neg, abs_mul, hsa, one_mul, abs_of_nonneg hn0]
    · intro r hr
      have hbx : tailDot i b x = f / 2 / g := by rw [hb, tailDot_div, hwx]
      have hbr : b r = w r / g := by rw [hb]; simp [hr]
      rw [hsg, ha1]
      have : reflect i b (-s) x r = s * w r - s * x r := by
        simp only [reflect, hr, if_true, hbx, hbr, lit_real]
        rw [← hgg]; push_cast; field_simp; ring
      rw [this]
      split
      · rename_i h; subst h
        rw [hwi]; linear_combination n * hss
      · rename_i h
        rw [hw, Function.update_of_ne h]; ring
    · rw [ha3]; simp

/-- After clearing column `i`: the signed reflection by the stored axis was applied to the columns from
`i` on, where column `i` itself is represented by the diagonal. -/
theorem clearColumn_spec (i : Fin 3) (m : Mat 3 3 ℝ) :
    let m' := (clearColumn i m).1
    let d := (clearColumn i m).2
    let T := reflect i (fun k => m' k i) (signum d)
    Good i (fun k => m' k i) ∧ (∀ c r, c < i → m' r c = m r c) ∧
    (∀ c, i < c → (fun r => m' r c) = T fun r => m r c) ∧
    (∀ r, r < i → m' r i = m r i) ∧
    T (fun r => m r i) = fun r => if r < i then m r i else if r = i then |d| else 0 := by
  obtain ⟨h1, h2, h3, h4, h5⟩ := reflectionAxis_spec i fun r => m r i
  set a := reflectionAxis i fun r => m r i with ha
  have hcol : (fun k => (clearColumn i m).1 k i) = a.1 := by
    funext k
    simp only [clearColumn, ← ha]
    split <;> simp
  have hd : (clearColumn i m).2 = a.2.1 := by
    simp only [clearColumn, ← ha]
    split <;> rfl
  dsimp only
  rw [hcol, hd]
  refine ⟨h2, ?_, ?_, ?_, ?_⟩
  · intro c r hc
    simp only [clearColumn, ← ha]
    split <;> simp [hc.ne, hc.le]
  · intro c hc
    cases hb : a.2.2 with
    | false =>
      obtain ⟨hz, hs⟩ := h5 hb
      funext r
      rw [reflect_zero_axis hz, hs]
      simp [clearColumn, ← ha, hb, hc.ne']
    | true =>
      funext r
      simp [clearColumn, ← ha, hb, hc.ne', hc]
  · intro r hr
    exact (congrFun hcol r).trans (h1 r hr)
  · funext r
    by_cases hr : r < i
    · simp [reflect, hr]
    · simp only [hr, if_false]
      rw [h4 r (not_lt.1 hr), h3]

/-- The standard basis. -/
def e (c : Fin 3) : V3 ℝ := fun k => if k = c then 1 else 0

theorem dot_e (b c : Fin 3) : dot (e b) (e c) = if b = c then 1 else 0 := by
  fin_cases b <;> fin_cases c <;> simp [dot, e]

theorem qStep_col (qr : Mat 3 3 ℝ × V3 ℝ) (i : Fin 3) (res : Mat 3 3 ℝ) (c : Fin 3)
    (h : c < i → (fun k => res k c) = e c) :
    (fun k => qStep qr i res k c) =
      reflect i (fun k => qr.1 k i) (signum (qr.2 i)) fun k => res k c := by
  funext k
  by_cases hc : i ≤ c
  · simp [qStep, hc]
  · have hc' := not_le.1 hc
    rw [reflect_fixed]
    · simp [qStep, hc]
    · intro r hr
      rw [congrFun (h hc') r]
      exact if_neg (hc'.trans_le hr).ne'

end Householder
open Householder Spec Matrix

/-- nalgebra's Householder QR meets the contract assumed of it, for every matrix, singular or not; the
diagonal of its `r()` is nonnegative. -/
theorem householder_qr (A : Mat 3 3 ℝ) :
    (Matrix.of (Householder.qr A).1).transpose * Matrix.of (Householder.qr A).1 = 1 ∧
    (∀ i j : Fin 3, j < i → (Householder.qr A).2 i j = 0) ∧
    Matrix.of (Householder.qr A).1 * Matrix.of (Householder.qr A).2 = Matrix.of A ∧
    ∀ i, 0 ≤ (Householder.qr A).2 i i := by
  obtain ⟨g0, p0, t0, u0, c0⟩ := clearColumn_spec 0 A
  obtain ⟨g1, p1, t1, u1, c1⟩ := clearColumn_spec 1 (clearColumn 0 A).1
  obtain ⟨g2, p2, t2, u2, c2⟩ := clearColumn_spec 2 (clearColumn 1 (clearColumn 0 A).1).1
  set m1 := (clearColumn 0 A).1 with hm1
  set m2 := (clearColumn 1 m1).1 with hm2
  set m3 := (clearColumn 2 m2).1 with hm3
  set d0 := (clearColumn 0 A).2 with hd0
  set d1 := (clearColumn 1 m1).2 with hd1
  set d2 := (clearColumn 2 m2).2 with hd2
  have hqr : qrNew A = (m3, ![d0, d1, d2]) := rfl
  have a0 : (fun k => m3 k 0) = fun k => m1 k 0 := by
    funext k; rw [p2 0 k (by decide), p1 0 k (by decide)]
  have a1 : (fun k => m3 k 1) = fun k => m2 k 1 := by
    funext k; rw [p2 1 k (by decide)]
  set T0 := reflect 0 (fun k => m1 k 0) (signum d0) with hT0
  set T1 := reflect 1 (fun k => m2 k 1) (signum d1) with hT1
  set T2 := reflect 2 (fun k => m3 k 2) (signum d2) with hT2
  have i0 : ∀ v, T0 (T0 v) = v := reflect_involutive g0 (signum_mul_self _)
  have i1 : ∀ v, T1 (T1 v) = v := reflect_involutive g1 (signum_mul_self _)
  have i2 : ∀ v, T2 (T2 v) = v := reflect_involutive g2 (signum_mul_self _)
  -- columns of q
  have hq : ∀ c, (fun k => (Householder.qr A).1 k c) = T0 (T1 (T2 (e c))) := by
    intro c
    have s2 : (fun k => qStep (m3, ![d0, d1, d2]) 2 (fun a b => if a = b then (1 : ℝ) else 0) k c) =
        T2 (e c) := qStep_col _ 2 _ c fun _ => rfl
    have s1 : (fun k => qStep (m3, ![d0, d1, d2]) 1 (qStep (m3, ![d0, d1, d2]) 2
        (fun a b => if a = b then (1 : ℝ) else 0)) k c) = T1 (T2 (e c)) := by
      rw [qStep_col _ 1, s2]
      · dsimp only; rw [a1]; rfl
      · intro hc; rw [s2]
        exact reflect_fixed _ _ fun r hr => if_neg (hc.trans_le ((by decide : (1 : Fin 3) ≤ 2).trans hr)).ne'
    have s0 : (fun k => Householder.q (m3, ![d0, d1, d2]) k c) = T0 (T1 (T2 (e c))) := by
      unfold Householder.q
      rw [qStep_col _ 0, s1]
      · dsimp only; rw [a0]; rfl
      · intro hc; exact absurd hc (by simp)
    exact s0
  -- columns of r
  have hr : ∀ c, (fun k => (Householder.qr A).2 k c) = T2 (T1 (T0 fun k => A k c)) := by
    intro c
    have hrd : ∀ k c, (Householder.qr A).2 k c =
        if k < c then m3 k c else if k = c then |(![d0, d1, d2] : V3 ℝ) k| else 0 := fun k c => rfl
    fin_cases c
    · change (fun k => (Householder.qr A).2 k 0) = T2 (T1 (T0 fun k => A k 0))
      have hT0 : T0 (fun k => A k 0) = fun r => if r = 0 then |d0| else 0 := by
        rw [c0]; funext r; simp
      rw [hT0, hT1, reflect_fixed (i := 1), hT2, reflect_fixed (i := 2)]
      · funext k; rw [hrd]; fin_cases k <;> simp
      · intro r hr; fin_cases r <;> simp at hr ⊢
      · intro r hr; fin_cases r <;> simp at hr ⊢
    · change (fun k => (Householder.qr A).2 k 1) = T2 (T1 (T0 fun k => A k 1))
      rw [← t0 1 (by decide), c1, hT2, reflect_fixed (i := 2)]
      · funext k; rw [hrd]
        fin_cases k <;> simp
        rw [p2 1 0 (by decide), u1 0 (by decide)]
      · intro r hr; fin_cases r <;> simp at hr ⊢
    · change (fun k => (Householder.qr A).2 k 2) = T2 (T1 (T0 fun k => A k 2))
      rw [← t0 2 (by decide), ← t1 2 (by decide), c2]
      funext k; rw [hrd]
      fin_cases k <;> simp
      · exact u2 0 (by decide)
      · exact u2 1 (by decide)
  refine ⟨?_, ?_, ?_, ?_⟩
  · ext b c
    have h : dot (fun k => (Householder.qr A).1 k b) (fun k => (Householder.qr A).1 k c) =
        if b = c then 1 else 0 := by
      rw [hq, hq, reflect_dot g0 (signum_mul_self _), reflect_dot g1 (signum_mul_self _),
        reflect_dot g2 (signum_mul_self _), dot_e]
    simpa [Matrix.mul_apply, Fin.sum_univ_three, dot, Matrix.one_apply] using h
  · intro i j hij
    change (if i < j then _ else if i = j then _ else (0 : ℝ)) = 0
    rw [if_neg hij.le.not_gt, if_neg hij.ne']
  · ext a c
    have hlin : T0 (T1 (T2 (fun k => (Householder.qr A).2 k c))) =
        (Householder.qr A).2 0 c • T0 (T1 (T2 (e 0))) + (Householder.qr A).2 1 c • T0 (T1 (T2 (e 1))) +
        (Householder.qr A).2 2 c • T0 (T1 (T2 (e 2))) := by
      have hv : (fun k => (Householder.qr A).2 k c) = (Householder.qr A).2 0 c • e 0 +
          (Householder.qr A).2 1 c • e 1 + (Householder.qr A).2 2 c • e 2 := by
        funext k; fin_cases k <;> simp [e]
      conv_lhs => rw [hv]
      simp only [hT0, hT1, hT2, reflect_add, reflect_smul]
    rw [hr c, i2, i1, i0, ← hq, ← hq, ← hq] at hlin
    have h := congrFun hlin a
    simp only [Pi.add_apply, Pi.smul_apply, smul_eq_mul] at h
    rw [Matrix.mul_apply, Fin.sum_univ_three]
    simp only [Matrix.of_apply]
    rw [h]; ring
  · intro i
    change 0 ≤ (if i < i then _ else if i = i then |(![d0, d1, d2] : V3 ℝ) i| else (0 : ℝ))
    rw [if_neg (lt_irrefl i), if_pos rfl]
    exact abs_nonneg _

/-- The linear algebra routines as nalgebra implements them. -/
def nalgebra {R : Type} [Scalar R] : Linalg R := ⟨Householder.qr, shepperd⟩

theorem nalgebra_qr : QrContract nalgebra := fun A =>
  ⟨(householder_qr A).1, (householder_qr A).2.1, (householder_qr A).2.2.1⟩

theorem nalgebra_rot : RotationContract nalgebra := rotationContract_shepperd _

end CamGeom
