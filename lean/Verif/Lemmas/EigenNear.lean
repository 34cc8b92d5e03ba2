import Verif.Lemmas.SweepNear

/-!
# The eigenvector iteration of nalgebra's singular value decomposition in floating point

If the iteration ends, its basis is close to an orthonormal basis in which the matrix is close to diagonal.
-/

namespace CamGeom
namespace SvdNear
open Matrix Householder
open Svd3 hiding Near

variable {R : Type} [Scalar R] {fl : Rounding R} {r : RoundingRange fl}

/-- Lengths depend on the sides with constant 1. -/
theorem sqrt_sub_le (b x y : ℝ) : |Real.sqrt (b * b + x * x) - Real.sqrt (b * b + y * y)| ≤ |x - y| := by
  have hx : 0 ≤ b * b + x * x := add_nonneg (mul_self_nonneg _) (mul_self_nonneg _)
  have hy : 0 ≤ b * b + y * y := add_nonneg (mul_self_nonneg _) (mul_self_nonneg _)
  have nx := Real.mul_self_sqrt hx
  have ny := Real.mul_self_sqrt hy
  have px := Real.sqrt_nonneg (b * b + x * x)
  have py := Real.sqrt_nonneg (b * b + y * y)
  have lx : |x| ≤ Real.sqrt (b * b + x * x) := Real.abs_le_sqrt (by nlinarith [mul_self_nonneg b])
  have ly : |y| ≤ Real.sqrt (b * b + y * y) := Real.abs_le_sqrt (by nlinarith [mul_self_nonneg b])
  set N := Real.sqrt (b * b + x * x)
  set D := Real.sqrt (b * b + y * y)
  rcases eq_or_lt_of_le (add_nonneg px py) with h0 | h0
  · have h1 : N = 0 := by linarith
    have h2 : D = 0 := by linarith
    rw [h1, h2, sub_zero, abs_zero]
    exact abs_nonneg _
  · refine le_of_mul_le_mul_right ?_ h0
    calc |N - D| * (N + D) = |(N - D) * (N + D)| := by rw [abs_mul, abs_of_nonneg h0.le]
      _ = |(x - y) * (x + y)| := by congr 1; linear_combination nx - ny
      _ = |x - y| * |x + y| := abs_mul _ _
      _ ≤ |x - y| * (N + D) := by
        refine mul_le_mul_of_nonneg_left ?_ (abs_nonneg _)
        linarith [abs_add_le x y]

/-- The eigenvalues of a 2x2 block. -/
theorem eig_near (k : RoundingMore fl) (v : RoundingSvd fl) (hF : Fine r) {a b c : R} (ha : fl.isFinite a)
    (hb : fl.isFinite b) (hc : fl.isFinite c) (hA : |fl.val a| ≤ 4) (hB : |fl.val b| ≤ 4) (hC : |fl.val c| ≤ 4)
    (hl : 1 / 10 ^ 8 ≤ |fl.val b|) :
    Near fl 1 10 86 (eigenvalues2 a b c).1
      ((fl.val a + fl.val c) * (1 / 2) + Real.sqrt (fl.val b * fl.val b +
        (fl.val a - fl.val c) * (1 / 2) * ((fl.val a - fl.val c) * (1 / 2)))) ∧
    Near fl 1 10 86 (eigenvalues2 a b c).2
      ((fl.val a + fl.val c) * (1 / 2) - Real.sqrt (fl.val b * fl.val b +
        (fl.val a - fl.val c) * (1 / 2) * ((fl.val a - fl.val c) * (1 / 2)))) := by
  have hu := hF.hu
  have hu0 := fl.u_nonneg
  have na := Near.exact1 ha hA
  have nb := Near.exact1 hb hB
  have nc := Near.exact1 hc hC
  have half : Near fl 1 (1 / 2) 0 (Scalar.lit (1 / 2) : R) (1 / 2) :=
    Near.of_val v.lit_half.1 v.lit_half.2 (by norm_num)
  have nv := hF.mul 4 13 (hF.sub 8 8 na nc) half
  have nt := hF.mul 4 13 (hF.add 8 8 na nc) half
  set h := (fl.val a - fl.val c) * (1 / 2) with hh
  set w := (a - c) * Scalar.lit (1 / 2) with hw
  have hW : |fl.val w| ≤ 41 / 10 := by
    have := nv.abs_val hu zero_le_one (by norm_num)
    linarith
  have hH : |h| ≤ 4 := by have := nv.mag; linarith
  set n := Real.sqrt (fl.val b * fl.val b + fl.val w * fl.val w) with hn
  have hnn : n * n = fl.val b * fl.val b + fl.val w * fl.val w :=
    Real.mul_self_sqrt (add_nonneg (mul_self_nonneg _) (mul_self_nonneg _))
  have hn1 : |fl.val b| ≤ n := Real.abs_le_sqrt (by nlinarith [mul_self_nonneg (fl.val w)])
  have hn0 : 0 < n := lt_of_lt_of_le (by norm_num) (hl.trans hn1)
  have hn6 : n ≤ 6 := by
    refine Real.sqrt_le_iff.2 ⟨by norm_num, ?_⟩
    rw [← abs_mul_abs_self (fl.val b), ← abs_mul_abs_self (fl.val w)]
    nlinarith [abs_nonneg (fl.val b), abs_nonneg (fl.val w)]
  obtain ⟨-, n2⟩ := hyp_near k hF hb nv.fin hn0 hnn (le_trans (by norm_num) (hl.trans hn1)) (hn6.trans (by norm_num))
  set D := Real.sqrt (fl.val b * fl.val b + h * h) with hD
  have hD6 : D ≤ 6 := by
    refine Real.sqrt_le_iff.2 ⟨by norm_num, ?_⟩
    rw [← abs_mul_abs_self (fl.val b), ← abs_mul_abs_self h]
    nlinarith [abs_nonneg (fl.val b), abs_nonneg h]
  have nD : Near fl 1 6 62 (Scalar.sqrt (b * b + w * w)) D := by
    refine ⟨n2.fin, ?_, ?_⟩
    · rw [abs_of_nonneg (Real.sqrt_nonneg _), mul_one]
      exact hD6
    · have h1 := sqrt_sub_le (fl.val b) (fl.val w) h
      have h2 := nv.err1
      have h3 := n2.err
      have h4 : 8 * (fl.u * n) ≤ 8 * (fl.u * 6) := by gcongr
      have h5 := abs_sub_le (fl.val (Scalar.sqrt (b * b + w * w))) n D
      rw [mul_one]
      linarith
  exact ⟨hF.add 10 86 nt nD, hF.sub 10 86 nt nD⟩

/-- The root found by `eigenvalues2`. -/
theorem root_eq (a b c x : ℝ)
    (hx : x = (a + c) * (1 / 2) + Real.sqrt (b * b + (a - c) * (1 / 2) * ((a - c) * (1 / 2))) - c) :
    x * x - (a - c) * x - b * b = 0 ∧ |2 * x - (a - c)| ≤ 2 * |b| + (|a| + |c|) := by
  have h0 : 0 ≤ b * b + (a - c) * (1 / 2) * ((a - c) * (1 / 2)) := by
    nlinarith [mul_self_nonneg b, mul_self_nonneg (a - c)]
  have h1 := Real.mul_self_sqrt h0
  have h2 := Real.sqrt_nonneg (b * b + (a - c) * (1 / 2) * ((a - c) * (1 / 2)))
  have h3 : Real.sqrt (b * b + (a - c) * (1 / 2) * ((a - c) * (1 / 2))) ≤ |b| + |a - c| * (1 / 2) := by
    refine Real.sqrt_le_iff.2 ⟨by positivity, ?_⟩
    nlinarith [abs_mul_abs_self b, abs_mul_abs_self (a - c), mul_nonneg (abs_nonneg b) (abs_nonneg (a - c))]
  set D := Real.sqrt (b * b + (a - c) * (1 / 2) * ((a - c) * (1 / 2)))
  subst hx
  refine ⟨by linear_combination h1, ?_⟩
  rw [show 2 * ((a + c) * (1 / 2) + D - c) - (a - c) = 2 * D by ring, abs_of_nonneg (by linarith)]
  have h4 := abs_sub a c
  linarith

/-- The off-diagonal entry left by a rotation that is not quite the right one. -/
theorem left_over {a b c x y C S n η : ℝ} (hη : η ≤ 2 / 10 ^ 14) (hx : x * x - (a - c) * x - b * b = 0)
    (hx' : |2 * x - (a - c)| ≤ 2 * |b| + (|a| + |c|)) (hy : |y - x| ≤ η) (hn : 0 < n) (hbn : |b| ≤ n)
    (h1 : C * S * (n * n) = y * b) (h2 : (C * C - S * S) * (n * n) = y * y - b * b)
    (hb : 3 / 10 ^ 8 ≤ |b|) (hac : |a| + |c| ≤ 1002 * 10 ^ 4 * |b|) :
    |C * -S * (a - c) + b * (C * C - -S * -S)| ≤ 21 / 10 ^ 8 := by
  have hη0 : 0 ≤ η := (abs_nonneg _).trans hy
  have hnn : 0 < n * n := mul_pos hn hn
  have e : (C * -S * (a - c) + b * (C * C - -S * -S)) * (n * n) = b * ((y - x) * ((y - x) + (2 * x - (a - c)))) := by
    linear_combination -(a - c) * h1 + b * h2 + b * hx
  have h3 : |(y - x) * ((y - x) + (2 * x - (a - c)))| ≤ 21 / 10 ^ 8 * |b| := by
    rw [abs_mul]
    have h4 : |(y - x) + (2 * x - (a - c))| ≤ (1002 * 10 ^ 4 + 3) * |b| := by
      have := abs_add_le (y - x) (2 * x - (a - c))
      linarith
    calc |y - x| * |(y - x) + (2 * x - (a - c))| ≤ 2 / 10 ^ 14 * ((1002 * 10 ^ 4 + 3) * |b|) :=
          mul_le_mul (hy.trans hη) h4 (abs_nonneg _) (by norm_num)
      _ ≤ 21 / 10 ^ 8 * |b| := by
        rw [← mul_assoc]
        exact mul_le_mul_of_nonneg_right (by norm_num) (abs_nonneg _)
  refine le_of_mul_le_mul_right ?_ hnn
  calc |C * -S * (a - c) + b * (C * C - -S * -S)| * (n * n)
      = |b * ((y - x) * ((y - x) + (2 * x - (a - c))))| := by rw [← e, abs_mul, abs_of_pos hnn]
    _ = |b| * |(y - x) * ((y - x) + (2 * x - (a - c)))| := abs_mul _ _
    _ ≤ n * (21 / 10 ^ 8 * n) := by
      refine mul_le_mul hbn (h3.trans ?_) (abs_nonneg _) hn.le
      exact mul_le_mul_of_nonneg_left hbn (by norm_num)
    _ = 21 / 10 ^ 8 * (n * n) := by ring

/-- The threshold `eps`. -/
structure EpsNear (fl : Rounding R) (eps : R) : Prop where
  fin : fl.isFinite eps
  low : 9999 / 10 ^ 11 ≤ fl.val eps
  high : fl.val eps ≤ 10001 / 10 ^ 11

/-- The rotation of a 2x2 block: either the block becomes almost diagonal or it almost was. -/
theorem block_rot (k : RoundingMore fl) (v : RoundingSvd fl) (hF : Fine r) {a b c eps : R} (he : EpsNear fl eps)
    (ha : fl.isFinite a) (hb : fl.isFinite b) (hc : fl.isFinite c) (hA : |fl.val a| ≤ 4) (hB : |fl.val b| ≤ 4)
    (hC : |fl.val c| ≤ 4) (hl : 3 / 10 ^ 8 ≤ |fl.val b|) (hac : |fl.val a| + |fl.val c| ≤ 1002 * 10 ^ 4 * |fl.val b|) :
    fl.isFinite (eigenvalues2 a b c).1 ∧ |fl.val (eigenvalues2 a b c).1| ≤ 11 ∧
    fl.isFinite (eigenvalues2 a b c).2 ∧
    ((∃ g C S, Givens.tryNew ((eigenvalues2 a b c).1 - c) b eps = some g ∧ RotNear fl g C S ∧
      |C * -S * (fl.val a - fl.val c) + fl.val b * (C * C - -S * -S)| ≤ 21 / 10 ^ 8) ∨
    (Givens.tryNew ((eigenvalues2 a b c).1 - c) b eps = none ∧ |fl.val b| ≤ 102 / 10 ^ 9)) := by
  have hu := hF.hu
  have hu' := hF.u_le
  obtain ⟨e1, e2⟩ := eig_near k v hF ha hb hc hA hB hC (le_trans (by norm_num) hl)
  have nx := hF.sub 14 102 e1 (Near.exact1 hc hC)
  have hX : |fl.val ((eigenvalues2 a b c).1 - c)| ≤ 20 := by
    have := nx.abs_val hu zero_le_one (by norm_num)
    linarith
  refine ⟨e1.fin, ?_, e2.fin, ?_⟩
  · have := e1.abs_val hu zero_le_one (by norm_num)
    linarith
  rcases tryNew_near k v hF he.fin (le_trans (by norm_num) he.low) (he.high.trans (by norm_num)) nx.fin hb hX
    (hB.trans (by norm_num)) with ⟨g, C, S, n, h1, h2, h3, h4, h5, h6⟩ | h
  · obtain ⟨r1, r2⟩ := root_eq (fl.val a) (fl.val b) (fl.val c) _ rfl
    refine Or.inl ⟨g, C, S, h1, h2, ?_⟩
    have herr := nx.err1
    exact left_over (by linarith) r1 r2 herr h3 h4 h5 h6 hl hac
  · exact Or.inr h

/-- The threshold for an off-diagonal entry. -/
theorem theta_near (q : RoundingQr fl) (hF : Fine r) {eps x y : R} (he : EpsNear fl eps) (hx : fl.isFinite x)
    (hy : fl.isFinite y) (hX : |fl.val x| ≤ 4) (hY : |fl.val y| ≤ 4) (hl : 39 / 100 ≤ |fl.val x| + |fl.val y|)
    (hh : |fl.val x| + |fl.val y| ≤ 30001 / 10000) :
    fl.isFinite (eps * (Scalar.abs x + Scalar.abs y)) ∧
    3 / 10 ^ 8 ≤ fl.val (eps * (Scalar.abs x + Scalar.abs y)) ∧
    fl.val (eps * (Scalar.abs x + Scalar.abs y)) ≤ 3002 / 10 ^ 10 ∧
    |fl.val x| + |fl.val y| ≤ 1002 * 10 ^ 4 * fl.val (eps * (Scalar.abs x + Scalar.abs y)) := by
  have hu' := hF.u_le
  obtain ⟨fx, vx⟩ := q.abs hx
  obtain ⟨fy, vy⟩ := q.abs hy
  have nx : Near fl 1 4 0 (Scalar.abs x) (|fl.val x|) := Near.of_val fx vx (by rwa [abs_abs, mul_one])
  have ny : Near fl 1 4 0 (Scalar.abs y) (|fl.val y|) := Near.of_val fy vy (by rwa [abs_abs, mul_one])
  have ne : Near fl 1 1 0 eps (fl.val eps) := Near.exact1 he.fin (by
    have := he.high
    have := he.low
    rw [abs_of_nonneg (by linarith)]
    linarith)
  have h := hF.mul 8 18 ne (hF.add 8 8 nx ny)
  have h1 := abs_le.1 h.err1
  have h2 : 9999 / 10 ^ 11 * (|fl.val x| + |fl.val y|) ≤ fl.val eps * (|fl.val x| + |fl.val y|) :=
    mul_le_mul_of_nonneg_right he.low (by linarith)
  have h3 : fl.val eps * (|fl.val x| + |fl.val y|) ≤ 10001 / 10 ^ 11 * (|fl.val x| + |fl.val y|) :=
    mul_le_mul_of_nonneg_right he.high (by linarith)
  exact ⟨h.fin, by linarith, by linarith, by linarith⟩

/-- State of the iteration: a tridiagonal form of the matrix. -/
def Holds (fl : Rounding R) (S : Matrix (Fin 3) (Fin 3) ℝ) (ε : ℝ) (t : State R) : Prop :=
  (∃ u v w, Shadow fl S ε t.q u v w (fl.val (t.diag 0)) (fl.val (t.diag 1)) (fl.val (t.diag 2)) (fl.val (t.off 0))
    (fl.val (t.off 1)) 0) ∧ (∀ i, i < 3 → fl.isFinite (t.diag i)) ∧ ∀ i, i < 2 → fl.isFinite (t.off i)

/-- The basis is almost orthonormal and makes the matrix almost diagonal. -/
def Final (fl : Rounding R) (S : Matrix (Fin 3) (Fin 3) ℝ) (ε δ : ℝ) (q : Fin 3 → ℕ → R) : Prop :=
  ∃ u v w d0 d1 d2 o0 o1 o2, Shadow fl S ε q u v w d0 d1 d2 o0 o1 o2 ∧ |o0| ≤ δ ∧ |o1| ≤ δ ∧ |o2| ≤ δ

theorem loop_done (eps : R) (k : ℕ) (t : State R) (n : ℕ) : loop eps k (t, n, n) = some t := by
  unfold loop; simp

/-- The facts about a state used below. -/
theorem Holds.facts (q : RoundingQr fl) (hF : Fine r) {S : Matrix (Fin 3) (Fin 3) ℝ} (g : GramNear S) {ε : ℝ}
    (hε : ε ≤ 1 / 10 ^ 9) {t : State R} (h : Holds fl S ε t) {eps : R} (he : EpsNear fl eps) :
    Bounds (fl.val (t.diag 0)) (fl.val (t.diag 1)) (fl.val (t.diag 2)) (fl.val (t.off 0)) (fl.val (t.off 1)) 0 ∧
    fl.isFinite (eps * (Scalar.abs (t.diag 1) + Scalar.abs (t.diag 0))) ∧
    3 / 10 ^ 8 ≤ fl.val (eps * (Scalar.abs (t.diag 1) + Scalar.abs (t.diag 0))) ∧
    fl.val (eps * (Scalar.abs (t.diag 1) + Scalar.abs (t.diag 0))) ≤ 3002 / 10 ^ 10 ∧
    |fl.val (t.diag 1)| + |fl.val (t.diag 0)| ≤
      1002 * 10 ^ 4 * fl.val (eps * (Scalar.abs (t.diag 1) + Scalar.abs (t.diag 0))) ∧
    fl.isFinite (eps * (Scalar.abs (t.diag 2) + Scalar.abs (t.diag 1))) ∧
    3 / 10 ^ 8 ≤ fl.val (eps * (Scalar.abs (t.diag 2) + Scalar.abs (t.diag 1))) ∧
    fl.val (eps * (Scalar.abs (t.diag 2) + Scalar.abs (t.diag 1))) ≤ 3002 / 10 ^ 10 ∧
    |fl.val (t.diag 2)| + |fl.val (t.diag 1)| ≤
      1002 * 10 ^ 4 * fl.val (eps * (Scalar.abs (t.diag 2) + Scalar.abs (t.diag 1))) ∧
    fl.isFinite (eps * (Scalar.abs (t.diag 1) + Scalar.abs (t.diag 2))) ∧
    fl.val (eps * (Scalar.abs (t.diag 1) + Scalar.abs (t.diag 2))) ≤ 3002 / 10 ^ 10 := by
  obtain ⟨⟨u, v, w, hs⟩, fd, fo⟩ := h
  have B := bounds g hs hε
  have f0 := fd 0 (by norm_num)
  have f1 := fd 1 (by norm_num)
  have f2 := fd 2 (by norm_num)
  obtain ⟨a1, a2, a3, a4⟩ := theta_near q hF he f1 f0 B.d1 B.d0 B.low01 B.high01
  obtain ⟨b1, b2, b3, b4⟩ := theta_near q hF he f2 f1 B.d2 B.d1 B.low12 B.high12
  obtain ⟨c1, c2, c3, c4⟩ := theta_near q hF he f1 f2 B.d1 B.d2 (by linarith [B.low12]) (by linarith [B.high12])
  exact ⟨B, a1, a2, a3, a4, b1, b2, b3, b4, c1, c3⟩

/-- Where the subproblem of the first two rows ends. -/
theorem delimit_one (q : RoundingQr fl) (k : RoundingMore fl) {eps : R} {t : State R}
    (fo : fl.isFinite (t.off 0))
    (ft : fl.isFinite (eps * (Scalar.abs (t.diag 1) + Scalar.abs (t.diag 0)))) :
    (delimit eps t 1 = (t, 0, 1) ∧
      fl.val (eps * (Scalar.abs (t.diag 1) + Scalar.abs (t.diag 0))) < |fl.val (t.off 0)|) ∨
    (delimit eps t 1 = (t, 0, 0) ∧
      |fl.val (t.off 0)| ≤ fl.val (eps * (Scalar.abs (t.diag 1) + Scalar.abs (t.diag 0)))) := by
  obtain ⟨f, e⟩ := q.abs fo
  have h := k.lt_iff ft f
  rw [e] at h
  by_cases hc : fl.val (eps * (Scalar.abs (t.diag 1) + Scalar.abs (t.diag 0))) < |fl.val (t.off 0)|
  · left
    refine ⟨?_, hc⟩
    have := h.2 hc
    simp [delimit, delimitEnd, delimitStart, this]
  · right
    refine ⟨?_, not_lt.1 hc⟩
    have : ¬ _ := fun h' => hc (h.1 h')
    simp [delimit, delimitEnd, this]

theorem delimit_two (q : RoundingQr fl) (k : RoundingMore fl) (v : RoundingSvd fl) {eps : R} {t : State R}
    (fo0 : fl.isFinite (t.off 0)) (fo1 : fl.isFinite (t.off 1))
    (ft0 : fl.isFinite (eps * (Scalar.abs (t.diag 1) + Scalar.abs (t.diag 0))))
    (ht0 : 0 ≤ fl.val (eps * (Scalar.abs (t.diag 1) + Scalar.abs (t.diag 0))))
    (ft1 : fl.isFinite (eps * (Scalar.abs (t.diag 2) + Scalar.abs (t.diag 1)))) :
    (delimit eps t 2 = (t, 0, 2) ∧
      fl.val (eps * (Scalar.abs (t.diag 2) + Scalar.abs (t.diag 1))) < |fl.val (t.off 1)| ∧
      fl.val (eps * (Scalar.abs (t.diag 1) + Scalar.abs (t.diag 0))) < |fl.val (t.off 0)|) ∨
    (delimit eps t 2 = ({ t with off := Function.update t.off 0 0 }, 1, 2) ∧
      fl.val (eps * (Scalar.abs (t.diag 2) + Scalar.abs (t.diag 1))) < |fl.val (t.off 1)| ∧
      |fl.val (t.off 0)| ≤ fl.val (eps * (Scalar.abs (t.diag 1) + Scalar.abs (t.diag 0)))) ∨
    (delimit eps t 2 = delimit eps t 1 ∧
      |fl.val (t.off 1)| ≤ fl.val (eps * (Scalar.abs (t.diag 2) + Scalar.abs (t.diag 1)))) := by
  obtain ⟨f0, e0⟩ := q.abs fo0
  obtain ⟨f1, e1⟩ := q.abs fo1
  have h1 := k.lt_iff ft1 f1
  rw [e1] at h1
  have h0 := v.le_iff f0 ft0
  rw [e0] at h0
  by_cases hc : fl.val (eps * (Scalar.abs (t.diag 2) + Scalar.abs (t.diag 1))) < |fl.val (t.off 1)|
  · have t1 := h1.2 hc
    by_cases hz : |fl.val (t.off 0)| ≤ fl.val (eps * (Scalar.abs (t.diag 1) + Scalar.abs (t.diag 0)))
    · right; left
      refine ⟨?_, hc, hz⟩
      have t0 := h0.2 hz
      simp [delimit, delimitEnd, delimitStart, small, t1, t0]
    · left
      refine ⟨?_, hc, not_le.1 hz⟩
      have t0 : ¬ _ := fun h' => hz (h0.1 h')
      have tb : ¬ Scalar.beq (t.off 0) 0 = true := fun hb => by
        have := (q.beq_iff fo0 fl.zero.1).1 hb
        rw [fl.zero.2] at this
        rw [this, abs_zero] at hz
        exact hz ht0
      simp [delimit, delimitEnd, delimitStart, small, t1, t0, tb]
  · right; right
    refine ⟨?_, not_lt.1 hc⟩
    have : ¬ _ := fun h' => hc (h1.1 h')
    simp [delimit, delimitEnd, this]

theorem loop_succ {eps : R} {k : ℕ} {t t' : State R} {s e : ℕ} (hse : e ≠ s)
    (h : loop eps k (t, s, e) = some t') :
    ∃ k', k = k' + 1 ∧ loop eps k' (delimit eps (body eps t s e).1 (body eps t s e).2) = some t' := by
  cases k with
  | zero => unfold loop at h; simp [hse] at h
  | succ n =>
    refine ⟨n, rfl, ?_⟩
    rw [loop] at h
    simp only [if_neg hse] at h
    split at h
    · cases h
    · exact h

/-- The first two rows. -/
theorem loop_one (q : RoundingQr fl) (k : RoundingMore fl) (v : RoundingSvd fl) (hF : Fine r)
    {S : Matrix (Fin 3) (Fin 3) ℝ} (g : GramNear S) {ε : ℝ} (hε : ε ≤ 1 / 10 ^ 9) {eps : R} (he : EpsNear fl eps)
    {t t' : State R} (h : Holds fl S ε t) (h1 : |fl.val (t.off 1)| ≤ 3002 / 10 ^ 10) {n : ℕ}
    (hl : loop eps n (delimit eps t 1) = some t') : Final fl S (ε + 5130 * fl.u) (3002 / 10 ^ 10) t'.q := by
  have hu0 := fl.u_nonneg
  obtain ⟨B, a1, a2, a3, a4, -⟩ := h.facts q hF g hε he
  obtain ⟨⟨u₁, u₂, u₃, hs⟩, fd, fo⟩ := h
  have fd0 := fd 0 (by norm_num)
  have fd1 := fd 1 (by norm_num)
  have fo0 := fo 0 (by norm_num)
  have mono := hs.mono (show ε ≤ ε + 5130 * fl.u by linarith)
  rcases delimit_one q k fo0 a1 with ⟨hd, hc⟩ | ⟨hd, hc⟩
  · rw [hd] at hl
    obtain ⟨n', -, hl⟩ := loop_succ (by norm_num) hl
    have hb2 : (body eps t 0 1).2 = 0 := by simp [body]
    rw [hb2, show ∀ x : State R, delimit eps x 0 = (x, 0, 0) from fun x => by simp [delimit, delimitEnd],
      loop_done] at hl
    cases hl
    obtain ⟨-, -, -, hr⟩ := block_rot k v hF he fd0 fo0 fd1 B.d0 B.o0 B.d1 (a2.trans hc.le) (by
      have : 1002 * 10 ^ 4 * fl.val (eps * (Scalar.abs (t.diag 1) + Scalar.abs (t.diag 0))) ≤
        1002 * 10 ^ 4 * |fl.val (t.off 0)| := by gcongr
      linarith)
    rcases hr with ⟨g, C, S', e, rn, hsm⟩ | ⟨e, hsm⟩
    · have eq : (body eps t 0 1).1.q = g.rotateRows 0 t.q := by simp [body, e]
      have bq := basis_le hs hε
      have Q : ∀ a, _ := fun a => qrot_near hF rn (hs.fin a 0 (by norm_num)) (hs.fin a 1 (by norm_num))
        (bq a 0 (by norm_num)) (bq a 1 (by norm_num))
      have c570 : ∀ {x : R} {X m c : ℝ}, Near fl 1 m c x X → c ≤ 570 → |fl.val x - X| ≤ 570 * fl.u :=
        fun hx hc => hx.err1.trans (mul_le_mul_of_nonneg_right hc hu0)
      have z570 : ∀ X : ℝ, |X - X| ≤ 570 * fl.u := fun X => by rw [sub_self, abs_zero]; positivity
      have H := hs.rot01 (δ := 570 * fl.u) (c := C) (s := -S') (by linarith [rn.one]) (q' := g.rotateRows 0 t.q)
        (fun a => ⟨(Q a).1.fin, (Q a).2.fin⟩) (fun a => by simp [Givens.rotateRows])
        (fun a => ⟨by
            have := c570 (Q a).1 (by norm_num)
            have e : fl.val (t.q a 0) * C + fl.val (t.q a 1) * S' =
              C * fl.val (t.q a 0) - -S' * fl.val (t.q a 1) := by ring
            rw [e] at this
            exact this, by
            have := c570 (Q a).2 (by norm_num)
            have e : -S' * fl.val (t.q a 0) + fl.val (t.q a 1) * C =
              -S' * fl.val (t.q a 0) + C * fl.val (t.q a 1) := by ring
            rw [e] at this
            exact this⟩)
        (z570 _) (z570 _) (z570 _) (z570 _) (z570 _) (z570 _)
      rw [eq]
      have o1 := abs_le_of_sq_one rn.one h1
      refine ⟨_, _, _, _, _, _, _, _, _, H.mono (by linarith), hsm.trans (by norm_num), ?_, ?_⟩
      · rw [mul_zero, add_zero]; exact o1.1
      · rw [mul_zero, zero_sub, neg_mul, neg_neg]; exact o1.2
    · have eq : (body eps t 0 1).1.q = t.q := by simp [body, e]
      rw [eq]
      exact ⟨_, _, _, _, _, _, _, _, _, mono, hsm.trans (by norm_num), h1, by norm_num⟩
  · rw [hd, loop_done] at hl
    cases hl
    exact ⟨_, _, _, _, _, _, _, _, _, mono, hc.trans a3, h1, by norm_num⟩

/-- The last two rows. -/
theorem loop_last (q : RoundingQr fl) (k : RoundingMore fl) (v : RoundingSvd fl) (hF : Fine r)
    {S : Matrix (Fin 3) (Fin 3) ℝ} (g : GramNear S) {ε : ℝ} (hε : ε ≤ 1 / 10 ^ 9) {eps : R} (he : EpsNear fl eps)
    {t t' : State R} (h : Holds fl S ε t) (h0 : |fl.val (t.off 0)| ≤ 3002 / 10 ^ 10)
    (hc : fl.val (eps * (Scalar.abs (t.diag 2) + Scalar.abs (t.diag 1))) < |fl.val (t.off 1)|) {n : ℕ}
    (hl : loop eps n ({ t with off := Function.update t.off 0 0 }, 1, 2) = some t') :
    Final fl S (ε + 5130 * fl.u) (3002 / 10 ^ 10) t'.q := by
  have hu := hF.hu
  have hu0 := fl.u_nonneg
  obtain ⟨B, -, -, -, -, b1, b2, b3, b4, -⟩ := h.facts q hF g hε he
  obtain ⟨⟨u₁, u₂, u₃, hs⟩, fd, fo⟩ := h
  have fd0 := fd 0 (by norm_num)
  have fd1 := fd 1 (by norm_num)
  have fd2 := fd 2 (by norm_num)
  have fo1 := fo 1 (by norm_num)
  have mono := hs.mono (show ε ≤ ε + 5130 * fl.u by linarith)
  obtain ⟨n', -, hl⟩ := loop_succ (by norm_num) hl
  obtain ⟨fe1, ve1, -, hr⟩ := block_rot k v hF he fd1 fo1 fd2 B.d1 B.o1 B.d2 (b2.trans hc.le) (by
    have : 1002 * 10 ^ 4 * fl.val (eps * (Scalar.abs (t.diag 2) + Scalar.abs (t.diag 1))) ≤
      1002 * 10 ^ 4 * |fl.val (t.off 1)| := by gcongr
    linarith)
  set s : State R := { t with off := Function.update t.off 0 0 } with hs'
  have hb2 : (body eps s 1 2).2 = 1 := by simp [body]
  have hbd1 : (body eps s 1 2).1.diag 1 = (eigenvalues2 (t.diag 1) (t.off 1) (t.diag 2)).1 := by
    simp [body, hs', Function.update]
  have hbd0 : (body eps s 1 2).1.diag 0 = t.diag 0 := by simp [body, hs', Function.update]
  have hbo0 : (body eps s 1 2).1.off 0 = 0 := by simp [body, hs', Function.update]
  rw [hb2] at hl
  -- the loop ends
  have hfin : delimit eps (body eps s 1 2).1 1 = ((body eps s 1 2).1, 0, 0) := by
    set s2 := (body eps s 1 2).1
    obtain ⟨g1, w1⟩ := q.abs fe1
    obtain ⟨g0, w0⟩ := q.abs fd0
    have n1 : Near fl 1 11 0 (Scalar.abs (eigenvalues2 (t.diag 1) (t.off 1) (t.diag 2)).1) _ :=
      Near.of_val g1 w1 (by rwa [abs_abs, mul_one])
    have n0 : Near fl 1 4 0 (Scalar.abs (t.diag 0)) _ := Near.of_val g0 w0 (by rw [abs_abs, mul_one]; exact B.d0)
    have ns := hF.add 15 15 n1 n0
    have ne : Near fl 1 1 0 eps (fl.val eps) := Near.exact1 he.fin (by
      have := he.high
      have := he.low
      rw [abs_of_nonneg (by linarith)]
      linarith)
    have np := hF.mul 15 32 ne ns
    have pos : 0 ≤ fl.val (eps * (Scalar.abs (eigenvalues2 (t.diag 1) (t.off 1) (t.diag 2)).1 + Scalar.abs (t.diag 0))) := by
      refine mul_nonneg' v hu np.fin (mul_nonneg (le_trans (by norm_num) he.low) ?_)
      have h1 := (fl.add ns.fin).2.2
      rw [w1, w0] at h1
      have h2 : 0 ≤ |fl.val (eigenvalues2 (t.diag 1) (t.off 1) (t.diag 2)).1| + |fl.val (t.diag 0)| := by positivity
      rw [abs_of_nonneg h2] at h1
      have h3 := (abs_le.1 h1).1
      have h4 : fl.u * (|fl.val (eigenvalues2 (t.diag 1) (t.off 1) (t.diag 2)).1| + |fl.val (t.diag 0)|) ≤
        1 / 10 ^ 7 * (|fl.val (eigenvalues2 (t.diag 1) (t.off 1) (t.diag 2)).1| + |fl.val (t.diag 0)|) :=
        mul_le_mul_of_nonneg_right hu h2
      linarith
    rcases delimit_one q k (t := s2) (eps := eps) (by rw [hbo0]; exact fl.zero.1) (by rw [hbd1, hbd0]; exact np.fin)
      with ⟨-, hlt⟩ | ⟨hd, -⟩
    · rw [hbd1, hbd0, hbo0, fl.zero.2, abs_zero] at hlt
      exact absurd pos (not_le.2 hlt)
    · exact hd
  rw [hfin, loop_done] at hl
  cases hl
  rcases hr with ⟨g, C, S', e, rn, hsm⟩ | ⟨e, hsm⟩
  · have eq : (body eps s 1 2).1.q = g.rotateRows 1 t.q := by simp [body, hs', Function.update, e]
    have bq := basis_le hs hε
    have Q : ∀ a, _ := fun a => qrot_near hF rn (hs.fin a 1 (by norm_num)) (hs.fin a 2 (by norm_num))
      (bq a 1 (by norm_num)) (bq a 2 (by norm_num))
    have c570 : ∀ {x : R} {X m c : ℝ}, Near fl 1 m c x X → c ≤ 570 → |fl.val x - X| ≤ 570 * fl.u :=
      fun hx hc => hx.err1.trans (mul_le_mul_of_nonneg_right hc hu0)
    have z570 : ∀ X : ℝ, |X - X| ≤ 570 * fl.u := fun X => by rw [sub_self, abs_zero]; positivity
    have H := hs.rot12 (δ := 570 * fl.u) (c := C) (s := -S') (by linarith [rn.one]) (q' := g.rotateRows 1 t.q)
      (fun a => ⟨(Q a).1.fin, (Q a).2.fin⟩) (fun a => by simp [Givens.rotateRows])
      (fun a => ⟨by
          have := c570 (Q a).1 (by norm_num)
          have e : fl.val (t.q a 1) * C + fl.val (t.q a 2) * S' =
            C * fl.val (t.q a 1) - -S' * fl.val (t.q a 2) := by ring
          rw [e] at this
          exact this, by
          have := c570 (Q a).2 (by norm_num)
          have e : -S' * fl.val (t.q a 1) + fl.val (t.q a 2) * C =
            -S' * fl.val (t.q a 1) + C * fl.val (t.q a 2) := by ring
          rw [e] at this
          exact this⟩)
      (z570 _) (z570 _) (z570 _) (z570 _) (z570 _) (z570 _)
    rw [eq]
    have o0 := abs_le_of_sq_one rn.one h0
    refine ⟨_, _, _, _, _, _, _, _, _, H.mono (by linarith), ?_, hsm.trans (by norm_num), ?_⟩
    · rw [mul_zero, sub_zero]; exact o0.1
    · rw [mul_zero, zero_add, neg_mul, abs_neg]; exact o0.2
  · have eq : (body eps s 1 2).1.q = t.q := by simp [body, hs', Function.update, e]
    rw [eq]
    exact ⟨_, _, _, _, _, _, _, _, _, mono, h0, hsm.trans (by norm_num), by norm_num⟩

/-- If the iteration ends, its basis is near an orthonormal basis that almost diagonalizes the matrix. -/
theorem loop_two (q : RoundingQr fl) (k : RoundingMore fl) (v : RoundingSvd fl) (hF : Fine r)
    {S : Matrix (Fin 3) (Fin 3) ℝ} (g : GramNear S) {eps : R} (he : EpsNear fl eps) {t' : State R} (n : ℕ) :
    ∀ {ε : ℝ} {t : State R}, ε + n * (10260 * fl.u) ≤ 1 / 10 ^ 9 → Holds fl S ε t →
      loop eps n (delimit eps t 2) = some t' →
      Final fl S (ε + n * (10260 * fl.u) + 5130 * fl.u) (3002 / 10 ^ 10) t'.q := by
  have hu0 := fl.u_nonneg
  have fin_mono : ∀ {ε ε' δ : ℝ} {p : Fin 3 → ℕ → R}, ε ≤ ε' → Final fl S ε δ p → Final fl S ε' δ p := by
    rintro ε ε' δ p hle ⟨a1, a2, a3, a4, a5, a6, a7, a8, a9, h, hr⟩
    exact ⟨a1, a2, a3, a4, a5, a6, a7, a8, a9, h.mono hle, hr⟩
  induction n with
  | zero =>
    intro ε t hε h hl
    have hε' : ε ≤ 1 / 10 ^ 9 := by simpa using hε
    obtain ⟨B, a1, a2, a3, a4, b1, b2, b3, b4, -⟩ := h.facts q hF g hε' he
    have fo := h.2.2
    rcases delimit_two q k v (fo 0 (by norm_num)) (fo 1 (by norm_num)) a1 (le_trans (by norm_num) a2) b1 with
      ⟨hd, hc1, hc0⟩ | ⟨hd, hc1, hc0⟩ | ⟨hd, hc1⟩
    · rw [hd] at hl
      obtain ⟨k', hk, -⟩ := loop_succ (by norm_num) hl
      cases hk
    · rw [hd] at hl
      exact fin_mono (by simp) (loop_last q k v hF g hε' he h (hc0.trans a3) hc1 hl)
    · rw [hd] at hl
      exact fin_mono (by simp) (loop_one q k v hF g hε' he h (hc1.trans b3) hl)
  | succ n ih =>
    intro ε t hε h hl
    have hn0 : (0 : ℝ) ≤ n * (10260 * fl.u) := by positivity
    push_cast at hε ⊢
    have hε' : ε ≤ 1 / 10 ^ 9 := by linarith
    obtain ⟨B, a1, a2, a3, a4, b1, b2, b3, b4, -⟩ := h.facts q hF g hε' he
    have fo := h.2.2
    have fd := h.2.1
    rcases delimit_two q k v (fo 0 (by norm_num)) (fo 1 (by norm_num)) a1 (le_trans (by norm_num) a2) b1 with
      ⟨hd, hc1, hc0⟩ | ⟨hd, hc1, hc0⟩ | ⟨hd, hc1⟩
    · rw [hd] at hl
      obtain ⟨k', hk, hl⟩ := loop_succ (by norm_num) hl
      obtain rfl : n = k' := by omega
      obtain ⟨⟨u₁, u₂, u₃, hs⟩, -, -⟩ := h
      have l1 : 1 / 10 ^ 8 ≤ |fl.val (t.off 1)| := le_trans (by norm_num) (b2.trans hc1.le)
      have l0 : 1 / 10 ^ 8 ≤ |fl.val (t.off 0)| := le_trans (by norm_num) (a2.trans hc0.le)
      obtain ⟨w1, w2, -⟩ := shift_near q k v hF (fd 1 (by norm_num)) (fd 2 (by norm_num)) (fo 1 (by norm_num)) B.d1 B.d2
        B.o1 (le_trans (by norm_num) l1)
      have nx := hF.sub (196 / 10) 20 (Near.exact1 (fd 0 (by norm_num))
        (show |fl.val (t.diag 0)| ≤ 35 / 10 by linarith [B.high01, abs_nonneg (fl.val (t.diag 1))])) (Near.exact1 w1 w2)
      have hX : |fl.val (t.diag 0 - wilkinsonShift (t.diag 1) (t.diag 2) (t.off 1))| ≤ 20 := by
        have := nx.abs_val hF.hu zero_le_one (by norm_num)
        linarith
      obtain ⟨v₁, v₂, v₃, hs', fd', fo'⟩ := sweep_near q k v hF g (by linarith) hs fd fo nx.fin hX l0 l1
      have hH : Holds fl S (ε + 10260 * fl.u) (sweep 0 2 2 0 (t.diag 0 - wilkinsonShift (t.diag 1) (t.diag 2) (t.off 1))
        (t.off 0) t) := ⟨⟨v₁, v₂, v₃, hs'⟩, fd', fo'⟩
      have hb : body eps t 0 2 = (sweep 0 2 2 0 (t.diag 0 - wilkinsonShift (t.diag 1) (t.diag 2) (t.off 1)) (t.off 0) t,
          if Scalar.le (Scalar.abs ((sweep 0 2 2 0 (t.diag 0 - wilkinsonShift (t.diag 1) (t.diag 2) (t.off 1))
              (t.off 0) t).off 1)) (eps * (Scalar.abs ((sweep 0 2 2 0
              (t.diag 0 - wilkinsonShift (t.diag 1) (t.diag 2) (t.off 1)) (t.off 0) t).diag 1) +
              Scalar.abs ((sweep 0 2 2 0
              (t.diag 0 - wilkinsonShift (t.diag 1) (t.diag 2) (t.off 1)) (t.off 0) t).diag 2))) then 1 else 2) := by
        simp only [body]
        norm_num
        split <;> rfl
      set t1 := sweep 0 2 2 0 (t.diag 0 - wilkinsonShift (t.diag 1) (t.diag 2) (t.off 1)) (t.off 0) t
      rw [hb] at hl
      split at hl
      · rename_i hle
        obtain ⟨-, -, -, -, -, -, -, -, -, c1, c2⟩ := hH.facts q hF g (by linarith) he
        obtain ⟨f1, e1⟩ := q.abs (fo' 1 (by norm_num))
        have hle := (v.le_iff f1 c1).1 hle
        rw [e1] at hle
        exact fin_mono (by linarith) (loop_one q k v hF g (by linarith) he hH (hle.trans c2) hl)
      · exact fin_mono (by linarith) (ih (by linarith) hH hl)
    · rw [hd] at hl
      exact fin_mono (by linarith) (loop_last q k v hF g hε' he h (hc0.trans a3) hc1 hl)
    · rw [hd] at hl
      exact fin_mono (by linarith) (loop_one q k v hF g hε' he h (hc1.trans b3) hl)

end SvdNear
end CamGeom
