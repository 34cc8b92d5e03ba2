import Verif.Lemmas.HouseholderNear

/-!
# Rounding errors of nalgebra's QR decomposition
-/

namespace CamGeom
namespace Householder
open Spec Matrix

variable {R : Type} [Scalar R] {fl : Rounding R} {r : RoundingRange fl}

theorem _root_.CamGeom.Scale.mono' {s t : ℝ} (h : Scale r t) (h0 : 0 ≤ s) (hst : s ≤ t) : Scale r s :=
  ⟨h0, by linarith [h.top]⟩

theorem len_dot (v : V3 ℝ) : len v * len v = dot v v := by
  rw [← sq, len_sq]; simp [dotProduct, Fin.sum_univ_three, dot]

theorem len_reflect {i : Fin 3} {a : V3 ℝ} (ha : tailDot i a a = 1) {s : ℝ} (hs : s * s = 1) (v : V3 ℝ) :
    len (reflect i a s v) = len v := by
  have h := reflect_dot (.inl ha) hs v v
  rw [← len_dot, ← len_dot] at h
  exact (mul_self_inj (len_nonneg _) (len_nonneg _)).1 h

theorem reflect_sub (i : Fin 3) (a : V3 ℝ) (s : ℝ) (v w : V3 ℝ) :
    reflect i a s (v - w) = reflect i a s v - reflect i a s w := by
  have h := reflect_add i a s (v - w) w
  rw [sub_add_cancel] at h
  rw [h, add_sub_cancel_right]

/-- Column `c` of a computed matrix. -/
def vcol (fl : Rounding R) (m : Mat 3 3 R) (c : Fin 3) : V3 ℝ := vvec fl fun k => m k c

/-- One step of `QR::new` in floating point, compared with an exact signed reflection `reflect i A S`. -/
structure StepNear (r : RoundingRange fl) (i : Fin 3) (m m' : Mat 3 3 R) (d : R) (n : ℝ) (A : V3 ℝ) (S : ℝ) :
    Prop where
  unit : tailDot i A A = 1
  sign : S * S = 1
  sign_fin : fl.isFinite (signum d)
  sign_val : fl.val (signum d) = S
  axis : ∀ b, i ≤ b → Near fl 1 1 412 (m' b i) (A b)
  above : ∀ b, b < i → m' b i = m b i
  left : ∀ b c, c < i → m' b c = m b c
  right : ∀ c, i < c → ∀ L, 0 ≤ L → fl.ω ≤ L → Scale r L → len (vcol fl m c) ≤ L →
    ∀ b, Near fl L 3 3347 (m' b c) (reflect i A S (vcol fl m c) b)
  clears : reflect i A S (vcol fl m i) = fun b => if b < i then fl.val (m b i) else if b = i then n else 0
  diag : Near fl n 1 19 (Scalar.abs d) n
  diag_nonneg : 0 ≤ fl.val (Scalar.abs d)

theorem clear_near (q : RoundingQr fl) (k : RoundingMore fl) (i : Fin 3) (m : Mat 3 3 R)
    (hu : fl.u ≤ 1 / 10 ^ 7) (hω1 : fl.ω ≤ 1) (hm : ∀ c, i ≤ c → ∀ b, fl.isFinite (m b c)) {n : ℝ}
    (hn : n = Real.sqrt (tailDot i (vcol fl m i) (vcol fl m i))) (h0 : 0 < n) (hω : fl.ω ≤ n * n)
    (s0 : Scale r 1) (s1 : Scale r n) (s2 : Scale r (n * n)) :
    ∃ A S, StepNear r i m (clearColumn i m).1 (clearColumn i m).2 n A S := by
  obtain ⟨g1, g2, g3, g4, g5, g6, g7, g8⟩ := reflectionAxis_near (r := r) q k i (fun b => m b i) hu hω1
    (fun b _ => hm i le_rfl b) hn h0 hω s0 s1 s2
  obtain ⟨-, -, -, e4, -⟩ := reflectionAxis_spec i (vcol fl m i)
  set a := reflectionAxis i fun b => m b i with ha
  have hAdef : reflectionAxis i (vvec fl fun b => m b i) = reflectionAxis i (vcol fl m i) := rfl
  rw [hAdef] at g2 g4 g6 g7 g8
  set A := reflectionAxis i (vcol fl m i) with hA
  have hc : clearColumn i m = (fun b c => if c = i then a.1 b
      else if i < c then reflect i a.1 (signum a.2.1) (fun b => m b c) b else m b c, a.2.1) := by
    simp only [clearColumn, ← ha, g1, if_true]
  have hS : signum A.2.1 * signum A.2.1 = 1 := signum_mul_self _
  rw [hc]
  refine ⟨A.1, signum A.2.1, g7, hS, g5, g6, ?_, ?_, ?_, ?_, ?_, ?_, ?_⟩
  · intro b hb
    simpa using g2 b hb
  · intro b hb
    simpa using g3 b hb
  · intro b c hc
    simp [hc.ne, hc.le]
  · intro c hc L hL hωL sL hlen b
    have h1 := reflect_near (r := r) q i hu hω1 g2 g7.le g5 g6 hS (fun b => hm c hc.le b) hL hωL s0 sL
      (by rw [← len_dot]; exact mul_le_mul hlen hlen (len_nonneg _) hL) b
    simp only [hc.ne', hc, if_false, if_true]
    exact h1
  · funext b
    by_cases hb : b < i
    · simp only [reflect, not_le.2 hb, hb, if_false, if_true]; rfl
    · simp only [hb, if_false]
      rw [e4 b (not_lt.1 hb), ← hn]
  · have := g4.abs q
    rwa [g8] at this
  · rw [(q.abs g4.fin).2]
    exact abs_nonneg _

/-- A column of `q()`: one computed reflection. -/
theorem qcol_near (q : RoundingQr fl) {i : Fin 3} {m m' : Mat 3 3 R} {d : R} {n : ℝ} {A : V3 ℝ} {S : ℝ}
    (hs : StepNear r i m m' d n A S) (hu : fl.u ≤ 1 / 10 ^ 7) (hω1 : fl.ω ≤ 1)
    (s0 : Scale r 1) (s2 : Scale r 2) {axis : V3 R} (hax : ∀ b, i ≤ b → axis b = m' b i) {w : V3 R} {W : V3 ℝ} {c : ℝ}
    (hw : ∀ b, fl.isFinite (w b)) (hW : len W = 1) (h : len (vvec fl w - W) ≤ c * fl.u)
    (_hc0 : 0 ≤ c) (hc : c ≤ 20000) :
    (∀ b, fl.isFinite (reflect i axis (signum d) w b)) ∧
    len (vvec fl (reflect i axis (signum d) w) - reflect i A S W) ≤ (c + 6720) * fl.u := by
  have hu0 := fl.u_nonneg
  have hcu : c * fl.u ≤ 2 / 1000 := by
    calc c * fl.u ≤ 20000 * (1 / 10 ^ 7) := mul_le_mul hc hu hu0 (by norm_num)
      _ = _ := by norm_num
  have hl : len (vvec fl w) ≤ 1002 / 1000 := by
    have := len_add_le (vvec fl w - W) W
    rw [sub_add_cancel] at this; linarith
  have h1 := reflect_near (r := r) q i (axis := axis) (L := 1002 / 1000) hu hω1 (fun b hb => by rw [hax b hb]; exact hs.axis b hb) hs.unit.le
    hs.sign_fin hs.sign_val hs.sign hw (by norm_num) (by linarith) s0 (s2.mono' (by norm_num) (by norm_num))
    (by rw [← len_dot]; exact mul_le_mul hl hl (len_nonneg _) (by norm_num))
  refine ⟨fun b => (h1 b).fin, ?_⟩
  have h2 : len (vvec fl (reflect i axis (signum d) w) - reflect i A S (vvec fl w)) ≤
      2 * (3347 * (fl.u * (1002 / 1000))) := len_le_entries fun b => (h1 b).err
  have h3 : len (reflect i A S (vvec fl w) - reflect i A S W) ≤ c * fl.u := by
    rw [← reflect_sub, len_reflect hs.unit hs.sign]; exact h
  have h4 := len_add_le (vvec fl (reflect i axis (signum d) w) - reflect i A S (vvec fl w))
    (reflect i A S (vvec fl w) - reflect i A S W)
  rw [sub_add_sub_cancel] at h4
  linarith

theorem len_e (c : Fin 3) : len (e c) = 1 := by
  have h := len_dot (e c)
  rw [dot_e, if_pos rfl] at h
  nlinarith [len_nonneg (e c)]

/-- Determinant of three columns. -/
def det3c (x y z : V3 ℝ) : ℝ :=
  x 0 * (y 1 * z 2 - y 2 * z 1) - x 1 * (y 0 * z 2 - y 2 * z 0) + x 2 * (y 0 * z 1 - y 1 * z 0)

theorem det3c_sq (x y z : V3 ℝ) : det3c x y z ^ 2 =
    dot x x * (dot y y * dot z z - dot y z ^ 2) - dot x y * (dot x y * dot z z - dot y z * dot x z) +
      dot x z * (dot x y * dot y z - dot y y * dot x z) := by
  simp only [det3c, dot]; ring

theorem det3c_reflect {i : Fin 3} {a : V3 ℝ} (ha : tailDot i a a = 1) {s : ℝ} (hs : s * s = 1)
    (x y z : V3 ℝ) : |det3c (reflect i a s x) (reflect i a s y) (reflect i a s z)| = |det3c x y z| := by
  rw [← sq_eq_sq_iff_abs_eq_abs, det3c_sq, det3c_sq]
  simp only [reflect_dot (.inl ha) hs]

/-- Determinant of the rows 1, 2 of two columns. -/
def det2c (x y : V3 ℝ) : ℝ := x 1 * y 2 - x 2 * y 1

theorem det2c_sq (x y : V3 ℝ) : det2c x y ^ 2 = tailDot 1 x x * tailDot 1 y y - tailDot 1 x y ^ 2 := by
  simp only [det2c, tailDot]; simp; ring

theorem tailDot_dot (x y : V3 ℝ) : tailDot 1 x y = dot x y - x 0 * y 0 := by
  simp [tailDot, dot]; ring

theorem det2c_reflect {a : V3 ℝ} (ha : tailDot 1 a a = 1) {s : ℝ} (hs : s * s = 1) (x y : V3 ℝ) :
    |det2c (reflect 1 a s x) (reflect 1 a s y)| = |det2c x y| := by
  have h0 : ∀ v, reflect 1 a s v 0 = v 0 := fun v => by simp [reflect]
  rw [← sq_eq_sq_iff_abs_eq_abs, det2c_sq, det2c_sq]
  simp only [tailDot_dot, reflect_dot (.inl ha) hs, h0]

theorem det2c_le (x y : V3 ℝ) : |det2c x y| ≤ Real.sqrt (tailDot 1 x x) * len y := by
  have h1 : tailDot 1 y y ≤ len y * len y := by
    rw [len_dot, tailDot_dot]; nlinarith [mul_self_nonneg (y 0)]
  have h2 := tailDot_nonneg 1 x
  rw [← Real.sqrt_sq_eq_abs, det2c_sq]
  apply Real.sqrt_le_iff.2
  refine ⟨mul_nonneg (Real.sqrt_nonneg _) (len_nonneg _), ?_⟩
  rw [mul_pow, Real.sq_sqrt h2, sq (len y)]
  have := mul_le_mul_of_nonneg_left h1 h2
  linarith [sq_nonneg (tailDot 1 x y)]

theorem det2c_near {x y X Y : V3 ℝ} {a b A B : ℝ} (hx : ∀ k, |x k - X k| ≤ a) (hy : ∀ k, |y k - Y k| ≤ b)
    (hA : ∀ k, |X k| ≤ A) (hB : ∀ k, |y k| ≤ B) : |det2c x y - det2c X Y| ≤ 2 * (a * B + A * b) := by
  have ha := (abs_nonneg _).trans (hx 0)
  have hA0 := (abs_nonneg _).trans (hA 0)
  have p : ∀ j k, |x j * y k - X j * Y k| ≤ a * B + A * b := fun j k => by
    rw [show x j * y k - X j * Y k = (x j - X j) * y k + X j * (y k - Y k) by ring]
    refine (abs_add_le _ _).trans ?_
    rw [abs_mul, abs_mul]
    exact add_le_add (mul_le_mul (hx j) (hB k) (abs_nonneg _) ha) (mul_le_mul (hA j) (hy k) (abs_nonneg _) hA0)
  have e : det2c x y - det2c X Y = (x 1 * y 2 - X 1 * Y 2) - (x 2 * y 1 - X 2 * Y 1) := by
    simp only [det2c]; ring
  rw [e]
  exact (abs_sub _ _).trans (by linarith [p 1 2, p 2 1])

/-- Conditions on the matrix: finite, columns of lengths `N c`, far from singular, from overflow and from
underflow. -/
structure QrInput (r : RoundingRange fl) (m : Mat 3 3 R) (N : Fin 3 → ℝ) (κ : ℝ) : Prop where
  fin : ∀ a c, fl.isFinite (m a c)
  len : ∀ c, len (vcol fl m c) = N c
  pos : ∀ c, 0 < N c
  det : κ * (N 0 * N 1 * N 2) ≤ |det3c (vcol fl m 0) (vcol fl m 1) (vcol fl m 2)|
  κ_le : κ ≤ 1
  κ_big : 10 ^ 5 * fl.u ≤ κ
  κ_pos : 0 < κ
  ω : ∀ c, fl.ω ≤ κ / 2 * N c * (κ / 2 * N c)
  top1 : ∀ c, Scale r (2 * N c)
  top2 : ∀ c, Scale r (2 * (N c * N c))

/-- The computed factors, compared with an exactly orthogonal matrix. -/
structure QrOutput (fl : Rounding R) (m : Mat 3 3 R) (N : Fin 3 → ℝ) (κ : ℝ) (Qh Rh : Mat 3 3 R)
    (Q : Matrix (Fin 3) (Fin 3) ℝ) : Prop where
  orth : Q.transpose * Q = 1
  q_fin : ∀ a c, fl.isFinite (Qh a c)
  q_near : ∀ a c, |fl.val (Qh a c) - Q a c| ≤ 20200 * fl.u
  r_fin : ∀ a c, fl.isFinite (Rh a c)
  r_zero : ∀ a c, c < a → fl.val (Rh a c) = 0
  r_diag : ∀ a, κ / 2 * N a ≤ fl.val (Rh a a)
  r_diag0 : |fl.val (Rh 0 0) - N 0| ≤ 19 * (fl.u * N 0)
  prod : ∀ a c, |(Q * Matrix.of fun a c => fl.val (Rh a c)) a c - fl.val (m a c)| ≤ 13500 * fl.u * N c

theorem qr_near (q : RoundingQr fl) (k : RoundingMore fl) {m : Mat 3 3 R} {N : Fin 3 → ℝ} {κ : ℝ}
    (h : QrInput r m N κ) (hu : fl.u ≤ 1 / 10 ^ 7) (hω1 : fl.ω ≤ 1) (s0 : Scale r 1) (s2 : Scale r 2) :
    ∃ Q, QrOutput fl m N κ (Householder.qr m).1 (Householder.qr m).2 Q := by
  have hu0 := fl.u_nonneg
  have hN := h.pos
  have hκ := h.κ_pos
  have hκ1 := h.κ_le
  have hκu : fl.u ≤ κ / 10 ^ 5 := by linarith [h.κ_big]
  have uN : ∀ c, fl.u * N c ≤ 1 / 10 ^ 7 * N c := fun c => mul_le_mul_of_nonneg_right hu (hN c).le
  have uN0 : ∀ c, 0 ≤ fl.u * N c := fun c => mul_nonneg hu0 (hN c).le
  have κN : ∀ c, fl.u * N c ≤ κ / 10 ^ 5 * N c := fun c => mul_le_mul_of_nonneg_right hκu (hN c).le
  have κN0 : ∀ c, 0 < κ * N c := fun c => mul_pos hκ (hN c)
  have κNle : ∀ c, κ * N c ≤ N c := fun c => by nlinarith [hN c]
  have hω2 : ∀ c n, κ / 2 * N c ≤ n → fl.ω ≤ n * n := fun c n hn =>
    (h.ω c).trans (mul_le_mul hn hn (by linarith [κN0 c]) (by linarith [κN0 c]))
  have hωN : ∀ c L, N c ≤ L → fl.ω ≤ L := fun c L hL => by
    have h1 := hω2 c (N c) (by linarith [κNle c, κN0 c])
    rcases le_total (N c) 1 with h2 | h2
    · nlinarith [hN c]
    · linarith
  have sc1 : ∀ c n, 0 ≤ n → n ≤ 1002 / 1000 * N c → Scale r n := fun c n h0 hn =>
    (h.top1 c).mono' h0 (by linarith [hN c])
  have sc2 : ∀ c n, 0 ≤ n → n ≤ 1002 / 1000 * N c → Scale r (n * n) := fun c n h0 hn =>
    (h.top2 c).mono' (mul_nonneg h0 h0) (by
      have := mul_le_mul hn hn h0 (by linarith [hN c])
      have := mul_pos (hN c) (hN c)
      linarith)
  -- step 0
  have n0 : N 0 = Real.sqrt (tailDot 0 (vcol fl m 0) (vcol fl m 0)) := by
    rw [← h.len 0, len_eq]; simp [tailDot, dotProduct, Fin.sum_univ_three]
  obtain ⟨A0, S0, h0⟩ := clear_near (r := r) q k 0 m hu hω1 (fun c _ b => h.fin b c) n0 (hN 0)
    (hω2 0 _ (by linarith [κNle 0, κN0 0])) s0 (sc1 0 _ (hN 0).le (by linarith [hN 0]))
    (sc2 0 _ (hN 0).le (by linarith [hN 0]))
  set m1 := (clearColumn 0 m).1 with hm1
  set d0 := (clearColumn 0 m).2 with hd0
  set T0 := reflect 0 A0 S0 with hT0
  have near1 : ∀ c, 0 < c → ∀ b, Near fl (N c) 3 3347 (m1 b c) (T0 (vcol fl m c) b) := fun c hc b =>
    h0.right c hc (N c) (hN c).le (hωN c _ le_rfl) (sc1 c _ (hN c).le (by linarith [hN c])) (h.len c).le b
  have e1 : ∀ c, 0 < c → len (vcol fl m1 c - T0 (vcol fl m c)) ≤ 6694 * (fl.u * N c) := fun c hc => by
    have := len_le_entries (v := vcol fl m1 c - T0 (vcol fl m c)) (fun b => (near1 c hc b).err)
    linarith
  have lT0 : ∀ c, len (T0 (vcol fl m c)) = N c := fun c => by
    rw [hT0, len_reflect h0.unit h0.sign, h.len]
  have l1 : ∀ c, 0 < c → len (vcol fl m1 c) ≤ 1001 / 1000 * N c := fun c hc => by
    have := len_add_le (vcol fl m1 c - T0 (vcol fl m c)) (T0 (vcol fl m c))
    rw [sub_add_cancel, lT0] at this
    linarith [e1 c hc, uN c, hN c]
  -- the remaining 2x2 determinant
  have hd2 : κ * (N 1 * N 2) ≤ |det2c (T0 (vcol fl m 1)) (T0 (vcol fl m 2))| := by
    have h3 := det3c_reflect h0.unit h0.sign (vcol fl m 0) (vcol fl m 1) (vcol fl m 2)
    rw [h0.clears] at h3
    have h4 : det3c (fun b => if b < (0 : Fin 3) then fl.val (m b 0) else if b = 0 then N 0 else 0)
        (reflect 0 A0 S0 (vcol fl m 1)) (reflect 0 A0 S0 (vcol fl m 2)) =
        N 0 * det2c (T0 (vcol fl m 1)) (T0 (vcol fl m 2)) := by
      simp [det3c, det2c, hT0]
    rw [h4, abs_mul, abs_of_pos (hN 0)] at h3
    have h5 := h.det
    rw [← h3] at h5
    have h6 : N 0 * (κ * (N 1 * N 2)) ≤ N 0 * |det2c (T0 (vcol fl m 1)) (T0 (vcol fl m 2))| := by
      linarith
    exact le_of_mul_le_mul_left h6 (hN 0)
  have p12 : 0 < N 1 * N 2 := mul_pos (hN 1) (hN 2)
  have hd2' : 866 / 1000 * (κ * (N 1 * N 2)) ≤ |det2c (vcol fl m1 1) (vcol fl m1 2)| := by
    have h3 := det2c_near (x := vcol fl m1 1) (y := vcol fl m1 2) (X := T0 (vcol fl m 1))
      (Y := T0 (vcol fl m 2)) (A := N 1) (B := 1001 / 1000 * N 2)
      (fun b => (near1 1 (by decide) b).err) (fun b => (near1 2 (by decide) b).err)
      (fun b => (abs_coord_le _ b).trans (lT0 1).le) (fun b => (abs_coord_le _ b).trans (l1 2 (by decide)))
    have h4 := abs_sub_abs_le_abs_sub (det2c (T0 (vcol fl m 1)) (T0 (vcol fl m 2)))
      (det2c (vcol fl m1 1) (vcol fl m1 2))
    rw [abs_sub_comm] at h4
    have h5 : fl.u * (N 1 * N 2) ≤ κ / 10 ^ 5 * (N 1 * N 2) := mul_le_mul_of_nonneg_right hκu p12.le
    have h6 : 2 * (3347 * (fl.u * N 1) * (1001 / 1000 * N 2) + N 1 * (3347 * (fl.u * N 2))) =
        2 * (3347 * (2001 / 1000)) * (fl.u * (N 1 * N 2)) := by ring
    rw [h6] at h3
    have h7 : 0 < κ * (N 1 * N 2) := mul_pos hκ p12
    linarith
  -- step 1
  set n1 := Real.sqrt (tailDot 1 (vcol fl m1 1) (vcol fl m1 1)) with hn1
  have n1ge : 86 / 100 * (κ * N 1) ≤ n1 := by
    have h3 := det2c_le (vcol fl m1 1) (vcol fl m1 2)
    rw [← hn1] at h3
    have h4 : n1 * len (vcol fl m1 2) ≤ n1 * (1001 / 1000 * N 2) :=
      mul_le_mul_of_nonneg_left (l1 2 (by decide)) (Real.sqrt_nonneg _)
    have h5 : 866 / 1000 * (κ * N 1) * N 2 ≤ 1001 / 1000 * n1 * N 2 := by linarith
    have h6 := le_of_mul_le_mul_right h5 (hN 2)
    linarith [κN0 1]
  have tail_le : ∀ (i : Fin 3) (v : V3 ℝ), Real.sqrt (tailDot i v v) ≤ len v := fun i v => by
    rw [len_eq]
    apply Real.sqrt_le_sqrt
    have t0 := mul_self_nonneg (v 0)
    have t1 := mul_self_nonneg (v 1)
    fin_cases i <;> simp [tailDot, dotProduct, Fin.sum_univ_three] <;> linarith
  have n1le : n1 ≤ 1001 / 1000 * N 1 := (tail_le 1 _).trans (l1 1 (by decide))
  have n1pos : 0 < n1 := lt_of_lt_of_le (by linarith [κN0 1]) n1ge
  have fin1 : ∀ c, 1 ≤ c → ∀ b, fl.isFinite (m1 b c) := fun c hc b =>
    (near1 c (lt_of_lt_of_le (by decide) hc) b).fin
  obtain ⟨A1, S1, h1⟩ := clear_near (r := r) q k 1 m1 hu hω1 fin1 hn1 n1pos
    (hω2 1 _ (by linarith [κN0 1])) s0 (sc1 1 _ n1pos.le (by linarith [hN 1]))
    (sc2 1 _ n1pos.le (by linarith [hN 1]))
  set m2 := (clearColumn 1 m1).1 with hm2
  set d1 := (clearColumn 1 m1).2 with hd1
  set T1 := reflect 1 A1 S1 with hT1
  have near2 : ∀ b, |fl.val (m2 b 2) - T1 (vcol fl m1 2) b| ≤ 3351 * (fl.u * N 2) ∧
      fl.isFinite (m2 b 2) := fun b => by
    have := h1.right 2 (by decide) (1001 / 1000 * N 2) (by linarith [hN 2])
      (hωN 2 _ (by linarith [hN 2])) (sc1 2 _ (by linarith [hN 2]) (by linarith [hN 2])) (l1 2 (by decide)) b
    exact ⟨this.err.trans (by linarith [uN0 2]), this.fin⟩
  have e2 : len (vcol fl m2 2 - T1 (vcol fl m1 2)) ≤ 6702 * (fl.u * N 2) := by
    have := len_le_entries (v := vcol fl m2 2 - T1 (vcol fl m1 2)) (fun b => (near2 b).1)
    linarith
  have l2 : len (vcol fl m2 2) ≤ 1002 / 1000 * N 2 := by
    have := len_add_le (vcol fl m2 2 - T1 (vcol fl m1 2)) (T1 (vcol fl m1 2))
    rw [sub_add_cancel, hT1, len_reflect h1.unit h1.sign, ← hT1] at this
    linarith [l1 2 (by decide), uN 2, hN 2]
  have hd1' : 86 / 100 * (κ * N 2) ≤ |T1 (vcol fl m1 2) 2| := by
    have h3 := det2c_reflect h1.unit h1.sign (vcol fl m1 1) (vcol fl m1 2)
    rw [h1.clears] at h3
    have h4 : det2c (fun b => if b < (1 : Fin 3) then fl.val (m1 b 1) else if b = 1 then n1 else 0)
        (reflect 1 A1 S1 (vcol fl m1 2)) = n1 * T1 (vcol fl m1 2) 2 := by
      simp [det2c, hT1]
    rw [h4, abs_mul, abs_of_pos n1pos] at h3
    rw [← h3] at hd2'
    have h5 : n1 * |T1 (vcol fl m1 2) 2| ≤ 1001 / 1000 * N 1 * |T1 (vcol fl m1 2) 2| :=
      mul_le_mul_of_nonneg_right n1le (abs_nonneg _)
    have h6 : N 1 * (866 / 1000 * (κ * N 2)) ≤ N 1 * (1001 / 1000 * |T1 (vcol fl m1 2) 2|) := by
      linarith
    have h7 := le_of_mul_le_mul_left h6 (hN 1)
    linarith [κN0 2]
  -- step 2
  set n2 := Real.sqrt (tailDot 2 (vcol fl m2 2) (vcol fl m2 2)) with hn2
  have n2abs : n2 = |vcol fl m2 2 2| := by
    rw [hn2]; simp [tailDot, Real.sqrt_mul_self_eq_abs]
  have n2ge : 8 / 10 * (κ * N 2) ≤ n2 := by
    have h3 := abs_sub_abs_le_abs_sub (T1 (vcol fl m1 2) 2) (vcol fl m2 2 2)
    rw [abs_sub_comm] at h3
    have h4 : |vcol fl m2 2 2 - T1 (vcol fl m1 2) 2| ≤ 3351 * (fl.u * N 2) := (near2 2).1
    rw [n2abs]
    linarith [κN 2, κN0 2]
  have n2le : n2 ≤ 1002 / 1000 * N 2 := (tail_le 2 _).trans l2
  have n2pos : 0 < n2 := lt_of_lt_of_le (by linarith [κN0 2]) n2ge
  obtain ⟨A2, S2, h2⟩ := clear_near (r := r) q k 2 m2 hu hω1
    (fun c hc b => by
      have : c = 2 := le_antisymm (Fin.le_last c) hc
      subst this; exact (near2 b).2) hn2 n2pos
    (hω2 2 _ (by linarith [κN0 2])) s0 (sc1 2 _ n2pos.le (by linarith [hN 2]))
    (sc2 2 _ n2pos.le (by linarith [hN 2]))
  set m3 := (clearColumn 2 m2).1 with hm3
  set d2 := (clearColumn 2 m2).2 with hd2
  set T2 := reflect 2 A2 S2 with hT2
  have hqr : qrNew m = (m3, ![d0, d1, d2]) := rfl
  have i0 : ∀ v, T0 (T0 v) = v := reflect_involutive (.inl h0.unit) h0.sign
  have i1 : ∀ v, T1 (T1 v) = v := reflect_involutive (.inl h1.unit) h1.sign
  have i2 : ∀ v, T2 (T2 v) = v := reflect_involutive (.inl h2.unit) h2.sign
  have len0 : ∀ v, len (T0 v) = len v := len_reflect h0.unit h0.sign
  have len1 : ∀ v, len (T1 v) = len v := len_reflect h1.unit h1.sign
  have len2 : ∀ v, len (T2 v) = len v := len_reflect h2.unit h2.sign
  set Q : Matrix (Fin 3) (Fin 3) ℝ := Matrix.of fun a c => T0 (T1 (T2 (e c))) a with hQ
  -- the entries of `r()`
  have hR : ∀ a c, (Householder.qr m).2 a c =
      if a < c then m3 a c else if a = c then Scalar.abs ((![d0, d1, d2] : V3 R) a) else 0 := fun _ _ => rfl
  have r01 : (Householder.qr m).2 0 1 = m1 0 1 := by
    rw [hR, if_pos (by decide), h2.left 0 1 (by decide), h1.above 0 (by decide)]
  have r02 : (Householder.qr m).2 0 2 = m2 0 2 := by
    rw [hR, if_pos (by decide), h2.above 0 (by decide)]
  have r12 : (Householder.qr m).2 1 2 = m2 1 2 := by
    rw [hR, if_pos (by decide), h2.above 1 (by decide)]
  have r00 : (Householder.qr m).2 0 0 = Scalar.abs d0 := by rw [hR]; simp
  have r11 : (Householder.qr m).2 1 1 = Scalar.abs d1 := by rw [hR]; simp
  have r22 : (Householder.qr m).2 2 2 = Scalar.abs d2 := by rw [hR]; simp
  have rz : ∀ a c, c < a → (Householder.qr m).2 a c = 0 := fun a c hca => by
    rw [hR, if_neg hca.le.not_gt, if_neg hca.ne']
  set Rh := (Householder.qr m).2 with hRh
  set V := vcol fl Rh with hV
  -- the columns of `r()`
  have c0 : len (V 0 - T2 (T1 (T0 (vcol fl m 0)))) ≤ 13500 * (fl.u * N 0) := by
    rw [hT0, h0.clears, hT1, reflect_fixed (i := 1), hT2, reflect_fixed (i := 2)]
    · have : ∀ b, |(V 0 - fun b => if b < (0 : Fin 3) then fl.val (m b 0) else if b = 0 then N 0 else 0) b| ≤
          19 * (fl.u * N 0) := by
        intro b
        fin_cases b
        · have := h0.diag.err
          simpa [hV, vcol, vvec, r00] using this
        · simpa [hV, vcol, vvec, rz 1 0 (by decide), fl.zero.2] using uN0 0
        · simpa [hV, vcol, vvec, rz 2 0 (by decide), fl.zero.2] using uN0 0
      have := len_le_entries this
      linarith [uN0 0]
    · intro b hb; fin_cases b <;> simp at hb ⊢
    · intro b hb; fin_cases b <;> simp at hb ⊢
  have c1 : len (V 1 - T2 (T1 (T0 (vcol fl m 1)))) ≤ 13500 * (fl.u * N 1) := by
    have h3 : len (V 1 - T1 (vcol fl m1 1)) ≤ 40 * (fl.u * N 1) := by
      have : ∀ b, |(V 1 - T1 (vcol fl m1 1)) b| ≤ 20 * (fl.u * N 1) := by
        rw [hT1, h1.clears]
        intro b
        fin_cases b
        · simpa [hV, vcol, vvec, r01] using uN0 1
        · have h4 := h1.diag.err
          have h5 : fl.u * n1 ≤ fl.u * (1001 / 1000 * N 1) := mul_le_mul_of_nonneg_left n1le hu0
          have h6 : 19 * (fl.u * n1) ≤ 20 * (fl.u * N 1) := by linarith [uN0 1]
          have h7 := h4.trans h6
          simpa [hV, vcol, vvec, r11] using h7
        · simpa [hV, vcol, vvec, rz 2 1 (by decide), fl.zero.2] using uN0 1
      have := len_le_entries this
      linarith [uN0 1]
    have hf : T2 (V 1) = V 1 := by
      rw [hT2, reflect_fixed]
      intro b hb
      fin_cases b <;> simp at hb ⊢
      simp [hV, vcol, vvec, rz 2 1 (by decide), fl.zero.2]
    rw [← hf, hT2, ← reflect_sub, ← hT2, len2]
    have h4 : len (T1 (vcol fl m1 1) - T1 (T0 (vcol fl m 1))) ≤ 6694 * (fl.u * N 1) := by
      rw [hT1, ← reflect_sub, ← hT1, len1]; exact e1 1 (by decide)
    have h5 := len_add_le (V 1 - T1 (vcol fl m1 1)) (T1 (vcol fl m1 1) - T1 (T0 (vcol fl m 1)))
    rw [sub_add_sub_cancel] at h5
    linarith [uN0 1]
  have c2 : len (V 2 - T2 (T1 (T0 (vcol fl m 2)))) ≤ 13500 * (fl.u * N 2) := by
    have h3 : len (V 2 - T2 (vcol fl m2 2)) ≤ 40 * (fl.u * N 2) := by
      have : ∀ b, |(V 2 - T2 (vcol fl m2 2)) b| ≤ 20 * (fl.u * N 2) := by
        rw [hT2, h2.clears]
        intro b
        fin_cases b
        · simpa [hV, vcol, vvec, r02] using uN0 2
        · simpa [hV, vcol, vvec, r12] using uN0 2
        · have h4 := h2.diag.err
          have h5 : fl.u * n2 ≤ fl.u * (1002 / 1000 * N 2) := mul_le_mul_of_nonneg_left n2le hu0
          have h6 : 19 * (fl.u * n2) ≤ 20 * (fl.u * N 2) := by linarith [uN0 2]
          have h7 := h4.trans h6
          simpa [hV, vcol, vvec, r22] using h7
      have := len_le_entries this
      linarith [uN0 2]
    have h4 : len (T2 (vcol fl m2 2) - T2 (T1 (vcol fl m1 2))) ≤ 6702 * (fl.u * N 2) := by
      rw [hT2, ← reflect_sub, ← hT2, len2]; exact e2
    have h5 : len (T2 (T1 (vcol fl m1 2)) - T2 (T1 (T0 (vcol fl m 2)))) ≤ 6694 * (fl.u * N 2) := by
      rw [hT2, ← reflect_sub, ← hT2, len2, hT1, ← reflect_sub, ← hT1, len1]; exact e1 2 (by decide)
    have h6 := len_add_le (V 2 - T2 (vcol fl m2 2)) (T2 (vcol fl m2 2) - T2 (T1 (vcol fl m1 2)))
    rw [sub_add_sub_cancel] at h6
    have h7 := len_add_le (V 2 - T2 (T1 (vcol fl m1 2)))
      (T2 (T1 (vcol fl m1 2)) - T2 (T1 (T0 (vcol fl m 2))))
    rw [sub_add_sub_cancel] at h7
    linarith [uN0 2]
  have cc : ∀ c, len (V c - T2 (T1 (T0 (vcol fl m c)))) ≤ 13500 * (fl.u * N c) := by
    intro c; fin_cases c
    exacts [c0, c1, c2]
  -- the columns of `q()`
  have fe : ∀ c b : Fin 3, fl.isFinite (if b = c then (1 : R) else 0) := fun c b => by
    split
    exacts [fl.one.1, fl.zero.1]
  have ve : ∀ c, vvec fl (fun b => if b = c then (1 : R) else 0) = e c := fun c => by
    funext b
    by_cases hb : b = c
    · simp [vvec, e, hb, fl.one.2]
    · simp [vvec, e, hb, fl.zero.2]
  have lz : len (0 : V3 ℝ) = 0 := len_eq_zero.2 rfl
  set I : Mat 3 3 R := fun a b => if a = b then 1 else 0 with hI
  set q2 := qStep (m3, ![d0, d1, d2]) 2 I with hq2
  set q1 := qStep (m3, ![d0, d1, d2]) 1 q2 with hq1
  set q0 := qStep (m3, ![d0, d1, d2]) 0 q1 with hq0
  have hqm : (Householder.qr m).1 = q0 := rfl
  have fixe : ∀ (i c : Fin 3) (A : V3 ℝ) (S : ℝ), c < i → reflect i A S (e c) = e c := fun i c A S hc =>
    reflect_fixed _ _ fun b hb => if_neg (hc.trans_le hb).ne'
  have g2 : ∀ c, (∀ b, fl.isFinite (q2 b c)) ∧ len (vcol fl q2 c - T2 (e c)) ≤ 6720 * fl.u ∧
      (c < 2 → (fun b => q2 b c) = fun b => I b c) := by
    intro c
    by_cases hc : c < 2
    · have e3 : (fun b => q2 b c) = fun b => I b c := by
        funext b; simp [hq2, qStep, hc]
      refine ⟨fun b => ?_, ?_, fun _ => e3⟩
      · rw [show q2 b c = I b c from congrFun e3 b]; exact fe c b
      · have : vcol fl q2 c = e c := by
          unfold vcol; rw [e3]; exact ve c
        rw [this, hT2, fixe 2 c A2 S2 hc, sub_self, lz]; positivity
    · have hc' : c = 2 := le_antisymm (Fin.le_last c) (not_lt.1 hc)
      have h3 := qcol_near q h2 hu hω1 s0 s2 (axis := fun k => m3 k 2) (w := fun b => I b c)
        (W := e c) (c := 0) (fun _ _ => rfl) (fe c) (len_e c) (by
          rw [show vvec fl (fun b => I b c) = e c from ve c, sub_self, lz]; simp) le_rfl (by norm_num)
      have e3 : (fun b => q2 b c) = reflect 2 (fun k => m3 k 2) (signum d2) fun b => I b c := by
        funext b; simp [hq2, qStep, hc']
      refine ⟨fun b => ?_, ?_, fun h => absurd h hc⟩
      · rw [show q2 b c = _ from congrFun e3 b]; exact h3.1 b
      · unfold vcol; rw [e3]; linarith [h3.2]
  have g1 : ∀ c, (∀ b, fl.isFinite (q1 b c)) ∧ len (vcol fl q1 c - T1 (T2 (e c))) ≤ 13440 * fl.u := by
    intro c
    by_cases hc : c < 1
    · have e3 : (fun b => q1 b c) = fun b => I b c := by
        rw [← (g2 c).2.2 (hc.trans (by decide))]
        have hc' : c = 0 := by omega
        funext b; simp [hq1, qStep, hc']
      refine ⟨fun b => ?_, ?_⟩
      · rw [show q1 b c = I b c from congrFun e3 b]; exact fe c b
      · have : vcol fl q1 c = e c := by
          unfold vcol; rw [e3]; exact ve c
        rw [this, hT2, fixe 2 c A2 S2 (hc.trans (by decide)), hT1, fixe 1 c A1 S1 hc, sub_self, lz]; positivity
    · have h3 := qcol_near q h1 hu hω1 s0 s2 (axis := fun k => m3 k 1) (w := fun b => q2 b c)
        (W := T2 (e c)) (c := 6720) (fun b _ => h2.left b 1 (by decide)) (g2 c).1
        (by rw [len2, len_e]) (g2 c).2.1 (by norm_num) (by norm_num)
      have e3 : (fun b => q1 b c) = reflect 1 (fun k => m3 k 1) (signum d1) fun b => q2 b c := by
        funext b; simp [hq1, qStep, not_lt.1 hc]
      refine ⟨fun b => ?_, ?_⟩
      · rw [show q1 b c = _ from congrFun e3 b]; exact h3.1 b
      · unfold vcol; rw [e3]; linarith [h3.2]
  have g0 : ∀ c, (∀ b, fl.isFinite (q0 b c)) ∧ len (vcol fl q0 c - T0 (T1 (T2 (e c)))) ≤ 20160 * fl.u := by
    intro c
    have h3 := qcol_near q h0 hu hω1 s0 s2 (axis := fun k => m3 k 0) (w := fun b => q1 b c)
      (W := T1 (T2 (e c))) (c := 13440)
      (fun b _ => by rw [h2.left b 0 (by decide), h1.left b 0 (by decide)]) (g1 c).1
      (by rw [len1, len2, len_e]) (g1 c).2 (by norm_num) (by norm_num)
    have e3 : (fun b => q0 b c) = reflect 0 (fun k => m3 k 0) (signum d0) fun b => q1 b c := by
      funext b; simp [hq0, qStep]
    refine ⟨fun b => ?_, ?_⟩
    · rw [show q0 b c = _ from congrFun e3 b]; exact h3.1 b
    · unfold vcol; rw [e3]; linarith [h3.2]
  refine ⟨Q, ?_, ?_, ?_, ?_, ?_, ?_, ?_, ?_⟩
  · ext b c
    have h3 : dot (T0 (T1 (T2 (e b)))) (T0 (T1 (T2 (e c)))) = if b = c then 1 else 0 := by
      rw [hT0, reflect_dot (.inl h0.unit) h0.sign, hT1, reflect_dot (.inl h1.unit) h1.sign, hT2,
        reflect_dot (.inl h2.unit) h2.sign, dot_e]
    simpa [hQ, Matrix.mul_apply, Fin.sum_univ_three, dot, Matrix.one_apply] using h3
  · intro a c
    rw [hqm]; exact (g0 c).1 a
  · intro a c
    rw [hqm]
    have h3 := (abs_coord_le (vcol fl q0 c - T0 (T1 (T2 (e c)))) a).trans (g0 c).2
    exact h3.trans (by linarith)
  · intro a c
    have f0 := fl.zero.1
    fin_cases a <;> fin_cases c
    · show fl.isFinite (Rh 0 0); rw [r00]; exact h0.diag.fin
    · show fl.isFinite (Rh 0 1); rw [r01]; exact fin1 1 le_rfl 0
    · show fl.isFinite (Rh 0 2); rw [r02]; exact (near2 0).2
    · show fl.isFinite (Rh 1 0); rw [rz 1 0 (by decide)]; exact f0
    · show fl.isFinite (Rh 1 1); rw [r11]; exact h1.diag.fin
    · show fl.isFinite (Rh 1 2); rw [r12]; exact (near2 1).2
    · show fl.isFinite (Rh 2 0); rw [rz 2 0 (by decide)]; exact f0
    · show fl.isFinite (Rh 2 1); rw [rz 2 1 (by decide)]; exact f0
    · show fl.isFinite (Rh 2 2); rw [r22]; exact h2.diag.fin
  · intro a c hca
    rw [rz a c hca]; exact fl.zero.2
  · have dg : ∀ {c : Fin 3} {n : ℝ} {d : R}, Near fl n 1 19 d n → 8 / 10 * (κ * N c) ≤ n → 0 < n →
        κ / 2 * N c ≤ fl.val d := fun {c n d} hd hn hn0 => by
      have h3 := (abs_le.1 (hd.err_le hu hn0.le (by norm_num))).1
      linarith [κN0 c]
    intro a
    fin_cases a
    · show κ / 2 * N 0 ≤ fl.val (Rh 0 0)
      rw [r00]; exact dg h0.diag (by linarith [κNle 0, κN0 0]) (hN 0)
    · show κ / 2 * N 1 ≤ fl.val (Rh 1 1)
      rw [r11]; exact dg h1.diag (by linarith [κN0 1]) n1pos
    · show κ / 2 * N 2 ≤ fl.val (Rh 2 2)
      rw [r22]; exact dg h2.diag n2ge n2pos
  · rw [r00]; exact h0.diag.err
  · intro a c
    have hlin : T0 (T1 (T2 (V c))) =
        V c 0 • T0 (T1 (T2 (e 0))) + V c 1 • T0 (T1 (T2 (e 1))) + V c 2 • T0 (T1 (T2 (e 2))) := by
      have hv : V c = V c 0 • e 0 + V c 1 • e 1 + V c 2 • e 2 := by
        funext b; fin_cases b <;> simp [e]
      conv_lhs => rw [hv]
      simp only [hT0, hT1, hT2, reflect_add, reflect_smul]
    have h3 : (Q * Matrix.of fun a c => fl.val (Rh a c)) a c = T0 (T1 (T2 (V c))) a := by
      rw [hlin, Matrix.mul_apply, Fin.sum_univ_three]
      simp only [hQ, Matrix.of_apply, Pi.add_apply, Pi.smul_apply, smul_eq_mul]
      have : ∀ b, V c b = fl.val (Rh b c) := fun b => rfl
      rw [this, this, this]; ring
    have h4 : fl.val (m a c) = T0 (T1 (T2 (T2 (T1 (T0 (vcol fl m c)))))) a := by
      rw [i2, i1, i0]; rfl
    rw [h3, h4, ← Pi.sub_apply]
    refine (abs_coord_le _ a).trans ?_
    rw [hT0, ← reflect_sub, ← hT0, len0, hT1, ← reflect_sub, ← hT1, len1, hT2, ← reflect_sub, ← hT2, len2]
    linarith [cc c]

end Householder
end CamGeom
