import Verif.Lemmas.Shadow

/-!
# nalgebra's tridiagonalization in floating point

The computed basis and tridiagonal matrix, compared with an exactly orthonormal basis.
-/

namespace CamGeom

variable {R : Type} [Scalar R] {fl : Rounding R} {r : RoundingRange fl}

namespace Fine

variable {m m' c c' : ℝ} {x y : R} {X Y : ℝ}

/-- Sums at the scale 1. -/
theorem add (hF : Fine r) (M C : ℝ) (hx : Near fl 1 m c x X) (hy : Near fl 1 m' c' y Y)
    (hM : m + m' ≤ M := by norm_num)
    (hC : c + c' + M + (c + c') / 10 ^ 7 ≤ C := by norm_num)
    (hc : 0 ≤ c + c' := by norm_num) (hM' : M + (c + c') / 10 ^ 7 ≤ 1000 := by norm_num) :
    Near fl 1 M C (x + y) (X + Y) :=
  Near.add (hF.scale zero_le_one (by norm_num)) hF.hu hx hy
    ((abs_add_le _ _).trans (by linarith [hx.mag, hy.mag])) hC hc hM'

/-- Differences at the scale 1. -/
theorem sub (hF : Fine r) (M C : ℝ) (hx : Near fl 1 m c x X) (hy : Near fl 1 m' c' y Y)
    (hM : m + m' ≤ M := by norm_num)
    (hC : c + c' + M + (c + c') / 10 ^ 7 ≤ C := by norm_num)
    (hc : 0 ≤ c + c' := by norm_num) (hM' : M + (c + c') / 10 ^ 7 ≤ 1000 := by norm_num) :
    Near fl 1 M C (x - y) (X - Y) :=
  Near.sub (hF.scale zero_le_one (by norm_num)) hF.hu hx hy
    ((abs_sub _ _).trans (by linarith [hx.mag, hy.mag])) hC hc hM'

/-- Products at the scale 1. -/
theorem mul (hF : Fine r) (M C : ℝ) (hx : Near fl 1 m c x X) (hy : Near fl 1 m' c' y Y)
    (hM : m * m' ≤ M := by norm_num)
    (hC : c * (m' + c' / 10 ^ 7) + m * c' + ((m + c / 10 ^ 7) * (m' + c' / 10 ^ 7) + 1) ≤ C := by norm_num)
    (hc : 0 ≤ c := by norm_num) (hc' : 0 ≤ c' := by norm_num) (hm : 0 ≤ m := by norm_num)
    (hM' : (m + c / 10 ^ 7) * (m' + c' / 10 ^ 7) ≤ 1000 := by norm_num) :
    Near fl 1 M C (x * y) (X * Y) := by
  have h : |X * Y| ≤ M * (1 * 1) := by
    rw [abs_mul, one_mul, mul_one]
    have h1 := hx.mag
    have h2 := hy.mag
    rw [mul_one] at h1 h2
    exact (mul_le_mul h1 h2 (abs_nonneg _) hm).trans hM
  exact (Near.mul zero_le_one zero_le_one (by rw [one_mul]; exact hF.scale zero_le_one (by norm_num))
    (by rw [one_mul]; exact hF.ω1) hF.hu hx hy h hC hc hc' hm hM').scale (one_mul 1)

end Fine

namespace Near

theorem exact1 {x : R} {m : ℝ} (h : fl.isFinite x) (hm : |fl.val x| ≤ m) : Near fl 1 m 0 x (fl.val x) :=
  Near.exact h (by rwa [mul_one])

theorem neg_one (r : RoundingRange fl) : Near fl 1 1 0 (-1 : R) (-1) := (Near.one fl).neg r

theorem err1 {x : R} {X m c : ℝ} (h : Near fl 1 m c x X) : |fl.val x - X| ≤ c * fl.u := by
  have := h.err
  rwa [mul_one] at this

end Near

namespace SvdNear
open Matrix Householder
open Svd3 hiding Near

/-- Sums of products of the rows `k..`, where `k` is 1 or 2. -/
theorem tail_sum (hF : Fine r) {k : Fin 3} (hk : k ≠ 0) {a b : V3 R} {A B : V3 ℝ} (M C M' C' : ℝ)
    (h : ∀ i, k ≤ i → Near fl 1 M C (a i * b i) (A i * B i))
    (hM : M + M ≤ M' := by norm_num) (hM0 : M ≤ M' := by norm_num) (hC0 : C ≤ C' := by norm_num)
    (hC : C + C + M' + (C + C) / 10 ^ 7 ≤ C' := by norm_num)
    (hc : 0 ≤ C + C := by norm_num) (hM' : M' + (C + C) / 10 ^ 7 ≤ 1000 := by norm_num) :
    Near fl 1 M' C' (tailDot k a b) (tailDot k A B) := by
  fin_cases k
  · exact absurd rfl hk
  · exact hF.add M' C' (h 1 (by decide)) (h 2 (by decide)) hM hC hc hM'
  · exact (h 2 (by decide)).mono zero_le_one hM0 hC0

/-- The exact value of the trailing block after a step. -/
noncomputable def block (k : Fin 3) (A : V3 ℝ) (Y : Matrix (Fin 3) (Fin 3) ℝ) (a c : Fin 3) : ℝ :=
  tailDot k A (fun b => 2 * tailDot k (Y b) A) * 2 * A a * A c +
    (-1 * A a * (2 * tailDot k (Y c) A) + (-1 * (2 * tailDot k (Y a) A) * A c + Y a c))

/-- The trailing block after a step. -/
theorem block_near (hF : Fine r) {k : Fin 3} (hk : k ≠ 0) {axis : V3 R} {A : V3 ℝ}
    (ha : ∀ b, k ≤ b → Near fl 1 1 412 (axis b) (A b)) {sy : Fin 3 → V3 R} {Y : Matrix (Fin 3) (Fin 3) ℝ}
    (hs : ∀ a c, k ≤ a → k ≤ c → Near fl 1 4 0 (sy a c) (Y a c)) (a c : Fin 3) (hka : k ≤ a) (hkc : k ≤ c) :
    Near fl 1 100 134200
      (tailDot k axis (fun b => Scalar.lit 2 * tailDot k (sy b) axis) * Scalar.lit 2 * axis a * axis c +
        (-1 * axis a * (Scalar.lit 2 * tailDot k (sy c) axis) +
          (-1 * (Scalar.lit 2 * tailDot k (sy a) axis) * axis c + sy a c))) (block k A Y a c) := by
  have hp : ∀ b, k ≤ b → Near fl 1 16 6700 (Scalar.lit 2 * tailDot k (sy b) axis) (2 * tailDot k (Y b) A) :=
    fun b hb => hF.mul 16 6700 (Near.lit_two fl) (tail_sum hF hk 4 1660 8 3330 fun i hi =>
      hF.mul 4 1660 (hs b i hb hi) (ha i hi))
  have hd := tail_sum hF hk 16 13350 32 26800 (b := fun b => Scalar.lit 2 * tailDot k (sy b) axis)
    (B := fun b => 2 * tailDot k (Y b) A) fun i hi => hF.mul 16 13350 (ha i hi) (hp i hi)
  have h1 := hF.mul 64 107000 (hF.mul 64 80200 (hF.mul 64 53700 hd (Near.lit_two fl)) (ha a hka)) (ha c hkc)
  have h2 := hF.mul 16 13400 (hF.mul 1 415 (Near.neg_one r) (ha a hka)) (hp c hkc)
  have h3 := hF.mul 16 13400 (hF.mul 16 6720 (Near.neg_one r) (hp a hka)) (ha c hkc)
  exact hF.add 100 134200 h1 (hF.add 36 26900 h2 (hF.add 20 13450 h3 (hs a c hka hkc)))

/-- The exact value is the matrix after a reflection of the rows and columns 1, 2. -/
theorem bil_block {Y : Matrix (Fin 3) (Fin 3) ℝ} (hY : Y 1 2 = Y 2 1) (A : V3 ℝ) {s : ℝ} (hs : s * s = 1) :
    bil Y (reflect 1 A s (e 1)) (reflect 1 A s (e 1)) = block 1 A Y 1 1 ∧
    bil Y (reflect 1 A s (e 2)) (reflect 1 A s (e 1)) = block 1 A Y 2 1 ∧
    bil Y (reflect 1 A s (e 2)) (reflect 1 A s (e 2)) = block 1 A Y 2 2 := by
  have l : ¬ (2 : Fin 3) ≤ 1 := by decide
  have l2 : (1 : Fin 3) ≤ 2 := by decide
  refine ⟨?_, ?_, ?_⟩ <;>
    simp [bil, block, dotProduct, mulVec, Fin.sum_univ_three, reflect, tailDot, e, l2, ← hY]
  · linear_combination (Y 1 1 * (1 - 2 * A 1 ^ 2) ^ 2 - 4 * Y 1 2 * A 1 * A 2 * (1 - 2 * A 1 ^ 2) +
      4 * Y 2 2 * A 1 ^ 2 * A 2 ^ 2) * hs
  · linear_combination (Y 1 2 * (1 - 2 * A 1 ^ 2) * (1 - 2 * A 2 ^ 2) +
      4 * Y 1 2 * A 1 ^ 2 * A 2 ^ 2 - 2 * A 1 * A 2 * (Y 1 1 * (1 - 2 * A 1 ^ 2) +
      Y 2 2 * (1 - 2 * A 2 ^ 2))) * hs
  · linear_combination (Y 2 2 * (1 - 2 * A 2 ^ 2) ^ 2 - 4 * Y 1 2 * A 1 * A 2 * (1 - 2 * A 2 ^ 2) +
      4 * Y 1 1 * A 1 ^ 2 * A 2 ^ 2) * hs

theorem block_zero_axis {k : Fin 3} {A : V3 ℝ} (hA : ∀ b, k ≤ b → A b = 0)
    (Y : Matrix (Fin 3) (Fin 3) ℝ) (a c : Fin 3) (hka : k ≤ a) (hkc : k ≤ c) : block k A Y a c = Y a c := by
  simp [block, hA a hka, hA c hkc]

/-- The second step does not change the last entry. -/
theorem block_two {A : V3 ℝ} (hA : Good 2 A) (Y : Matrix (Fin 3) (Fin 3) ℝ) : block 2 A Y 2 2 = Y 2 2 := by
  rcases hA with h | h
  · simp only [tailDot] at h
    simp only [Fin.isValue, Fin.reduceEq, if_false] at h
    simp [block, tailDot]
    linear_combination (4 * Y 2 2 * (A 2 * A 2) + 4 * Y 2 2 - 4 * Y 2 2) * h
  · exact block_zero_axis h Y 2 2 le_rfl le_rfl

/-- The values of the lower triangle, as a symmetric matrix. -/
def symVal (fl : Rounding R) (m : Mat 3 3 R) : Matrix (Fin 3) (Fin 3) ℝ := Matrix.of fun a b => fl.val (sym m a b)

omit [Scalar R] in
theorem sym_comm (m : Mat 3 3 R) (a b : Fin 3) : sym m a b = sym m b a := by
  unfold sym
  rcases lt_trichotomy a b with h | h | h
  · rw [if_neg (not_le.2 h), if_pos h.le]
  · rw [h]
  · rw [if_pos h.le, if_neg (not_le.2 h)]

theorem symVal_transpose (m : Mat 3 3 R) : (symVal fl m).transpose = symVal fl m := by
  ext a b
  simp [symVal, sym_comm m b a]

/-- One step of the tridiagonalization. -/
theorem tridiagStep_near (q : RoundingQr fl) (k : RoundingMore fl) (v : RoundingSvd fl) (hF : Fine r) {i j : Fin 3}
    (hi : i < j) {m : Mat 3 3 R} (hm : ∀ a c, c ≤ a → i ≤ c → fl.isFinite (m a c) ∧ |fl.val (m a c)| ≤ 4)
    (hx : tailDot j (fun b => fl.val (m b i)) (fun b => fl.val (m b i)) ≤ 16) :
    ∃ A S, AxisNear fl j (fun b => m b i) ((fun b => (tridiagStep i j m).1 b i), (tridiagStep i j m).2,
        (reflectionAxis j fun b => m b i).2.2) A S ∧
      (∀ a c, c ≠ i → ¬ (j ≤ c ∧ c ≤ a) → (tridiagStep i j m).1 a c = m a c) ∧
      ∀ a c, j ≤ c → c ≤ a → Near fl 1 100 134200 ((tridiagStep i j m).1 a c) (block j A (symVal fl m) a c) := by
  have hj : j ≠ 0 := fun h => by subst h; exact absurd hi (Fin.not_lt_zero i)
  obtain ⟨A, S, h⟩ := axis_near q k v hF j (fun b => m b i) (fun b hb => (hm b i (hi.le.trans hb) le_rfl).1) hx
  have e1 : (fun b => (tridiagStep i j m).1 b i) = (reflectionAxis j fun b => m b i).1 := by
    funext b
    simp only [tridiagStep]
    split <;> simp
  have e2 : (tridiagStep i j m).2 = (reflectionAxis j fun b => m b i).2.1 := by
    simp only [tridiagStep]
    split <;> rfl
  have hs : ∀ a c, j ≤ a → j ≤ c → Near fl 1 4 0 (sym m a c) (symVal fl m a c) := fun a c ha hc => by
    have : fl.isFinite (sym m a c) ∧ |fl.val (sym m a c)| ≤ 4 := by
      unfold sym
      split
      · rename_i h; exact hm a c h (hi.le.trans hc)
      · rename_i h; exact hm c a (le_of_lt (not_le.1 h)) (hi.le.trans ha)
    exact Near.exact1 this.1 this.2
  refine ⟨A, S, by rw [e1, e2]; exact h, fun a c hci hn => ?_, fun a c hjc hca => ?_⟩
  · simp only [tridiagStep]
    split <;> simp [hci, hn]
  · have hci : c ≠ i := fun h => by subst h; exact absurd hjc (not_le.2 hi)
    cases hb : (reflectionAxis j fun b => m b i).2.2 with
    | true =>
      have := block_near hF hj h.axis hs a c (hjc.trans hca) hjc
      have e3 : sym m a c = m a c := by unfold sym; rw [if_pos hca]
      rw [e3] at this
      simpa [tridiagStep, hb, hci, hjc, hca] using this
    | false =>
      rw [block_zero_axis (h.flag hb) _ a c (hjc.trans hca) hjc]
      have := hs a c (hjc.trans hca) hjc
      have e3 : sym m a c = m a c := by unfold sym; rw [if_pos hca]
      rw [e3] at this
      refine Near.mono (m := 4) (c := 0) ?_ zero_le_one (by norm_num) (by norm_num)
      simpa [tridiagStep, hb, hci] using this

theorem bil_abs_le {S : Matrix (Fin 3) (Fin 3) ℝ} {x y : V3 ℝ} {ε : ℝ} (hx : x ⬝ᵥ x = 1) (hy : y ⬝ᵥ y = 1)
    (h : ∀ a b, |S a b| ≤ ε) : |bil S x y| ≤ 301 / 100 * ε := by
  have := bil_form (u := 0) (v := 0) (w := 0) (d0 := 0) (d1 := 0) (d2 := 0) (o0 := 0) (o1 := 0) (o2 := 0) (S := S)
    (ε := ε) hx hy fun a b => by simpa [form] using h a b
  have e : Matrix.of (form 0 0 0 0 0 0 0 0 0) = 0 := by
    ext a b; simp [form]
  rw [e] at this
  simpa [bil] using this

theorem reflect_sub (i : Fin 3) (A : V3 ℝ) (s : ℝ) (v w : V3 ℝ) (b : Fin 3) :
    reflect i A s v b - reflect i A s w b = reflect i A s (v - w) b := by
  have h1 := congrFun (reflect_add i A s (v - w) w) b
  rw [sub_add_cancel] at h1
  rw [h1, Pi.add_apply, add_sub_cancel_right]

/-- The computed tridiagonal matrix and basis. -/
theorem tridiag_near (q : RoundingQr fl) (k : RoundingMore fl) (v : RoundingSvd fl) (hF : Fine r) {m : Mat 3 3 R}
    (hm : ∀ a c, c ≤ a → fl.isFinite (m a c) ∧ |fl.val (m a c)| ≤ 1000001 / 1000000) :
    ∃ u v w, Shadow fl (symVal fl m) (2420000 * fl.u) (tridiag m).q u v w (fl.val ((tridiag m).diag 0))
      (fl.val ((tridiag m).diag 1)) (fl.val ((tridiag m).diag 2)) (fl.val ((tridiag m).off 0))
      (fl.val ((tridiag m).off 1)) 0 ∧ (∀ i, i < 3 → fl.isFinite ((tridiag m).diag i)) ∧
      ∀ i, fl.isFinite ((tridiag m).off i) := by
  have hu := hF.hu
  have hu0 := fl.u_nonneg
  have hu' := hF.u_le
  set Y := symVal fl m with hY
  have hYT := symVal_transpose (fl := fl) m
  rw [← hY] at hYT
  have hY1 : ∀ a b, |Y a b| ≤ 1000001 / 1000000 := fun a b => by
    show |fl.val (sym m a b)| ≤ 1000001 / 1000000
    unfold sym
    split
    · rename_i h; exact (hm a b h).2
    · rename_i h; exact (hm b a (le_of_lt (not_le.1 h))).2
  have hY12 : Y 1 2 = Y 2 1 := congrFun (congrFun hYT 2) 1
  have hYl : ∀ a c, c ≤ a → Y a c = fl.val (m a c) := fun a c h => by
    show fl.val (sym m a c) = _
    unfold sym
    rw [if_pos h]
  -- the first step
  obtain ⟨A1, S1, h1, n1, b1⟩ := tridiagStep_near q k v hF (i := 0) (j := 1) (by decide) (m := m)
    (fun a c h _ => ⟨(hm a c h).1, (hm a c h).2.trans (by norm_num)⟩) (by
      simp only [tailDot]
      simp only [Fin.isValue, one_ne_zero, if_false, if_true]
      have e1 := (hm 1 0 (by decide)).2
      have e2 := (hm 2 0 (by decide)).2
      rw [← abs_mul_abs_self (fl.val (m 1 0)), ← abs_mul_abs_self (fl.val (m 2 0))]
      nlinarith [abs_nonneg (fl.val (m 1 0)), abs_nonneg (fl.val (m 2 0))])
  rw [← hY] at b1
  set m1 := (tridiagStep 0 1 m).1 with hm1
  set dd0 := (tridiagStep 0 1 m).2 with hd0
  obtain ⟨B11, B21, B22⟩ := bil_block hY12 A1 h1.sign
  set T0 := reflect 1 A1 S1 with hT0
  have dotT0 : ∀ x y, T0 x ⬝ᵥ T0 y = x ⬝ᵥ y := fun x y => by
    rw [← dot_eq, hT0, reflect_dot h1.good h1.sign, dot_eq]
  have ee : ∀ a b : Fin 3, e a ⬝ᵥ e b = if a = b then 1 else 0 := fun a b => by rw [← dot_eq, dot_e]
  have u1 : T0 (e 1) ⬝ᵥ T0 (e 1) = 1 := by rw [dotT0, ee]; simp
  have u2 : T0 (e 2) ⬝ᵥ T0 (e 2) = 1 := by rw [dotT0, ee]; simp
  have B11' := bil_abs_le u1 u1 hY1
  have B21' := bil_abs_le u2 u1 hY1
  have B22' := bil_abs_le u2 u2 hY1
  rw [B11] at B11'
  rw [B21] at B21'
  rw [B22] at B22'
  have M11 := b1 1 1 le_rfl le_rfl
  have M21 := b1 2 1 le_rfl (by decide)
  have M22 := b1 2 2 (by decide) le_rfl
  have small : (134200 : ℝ) * fl.u ≤ 1 / 100 := by linarith
  have hle : ∀ {x : R} {X : ℝ}, Near fl 1 100 134200 x X → |X| ≤ 301 / 100 * (1000001 / 1000000) → fl.isFinite x ∧ |fl.val x| ≤ 4 := by
    intro x X hx hX
    refine ⟨hx.fin, ?_⟩
    have h2 := abs_sub_abs_le_abs_sub (fl.val x) X
    have h3 := hx.err1
    linarith
  -- the second step
  obtain ⟨A2, S2, h2, n2, b2⟩ := tridiagStep_near q k v hF (i := 1) (j := 2) (by decide) (m := m1)
    (fun a c h h' => by
      have hc : c = 1 ∨ c = 2 := by omega
      have ha : a = 1 ∨ a = 2 := by omega
      rcases hc with rfl | rfl <;> rcases ha with rfl | rfl
      · exact hle M11 B11'
      · exact hle M21 B21'
      · exact absurd h (by decide)
      · exact hle M22 B22') (by
      simp only [tailDot]
      simp only [Fin.isValue, Fin.reduceEq, if_false]
      have e1 := (hle M21 B21').2
      rw [← abs_mul_abs_self]
      have := abs_nonneg (fl.val (m1 2 1))
      nlinarith)
  set m2 := (tridiagStep 1 2 m1).1 with hm2
  set dd1 := (tridiagStep 1 2 m1).2 with hd1
  set T1 := reflect 2 A2 S2 with hT1
  have b22 := b2 2 2 le_rfl le_rfl
  rw [block_two h2.good] at b22
  have sv22 : symVal fl m1 2 2 = fl.val (m1 2 2) := by
    show fl.val (sym m1 2 2) = _
    unfold sym
    rw [if_pos le_rfl]
  rw [sv22] at b22
  set ε := S2 * (1 - 2 * (A2 2 * A2 2)) with hε
  have hA22 : (A2 2 * A2 2 = 1 ∨ A2 2 * A2 2 = 0) := by
    rcases h2.good with h | h
    · left
      simpa [tailDot] using h
    · right
      rw [h 2 le_rfl, mul_zero]
  have hεε : ε * ε = 1 := by
    have e1 : (1 - 2 * (A2 2 * A2 2)) * (1 - 2 * (A2 2 * A2 2)) = 1 := by
      rcases hA22 with h | h <;> rw [h] <;> norm_num
    linear_combination (norm := (rw [hε]; ring_nf)) (1 - 2 * (A2 2 * A2 2)) * (1 - 2 * (A2 2 * A2 2)) * h2.sign + e1
  have hεa : |ε| ≤ 1 := by
    rcases mul_self_eq_one_iff.1 hεε with h | h <;> rw [h] <;> norm_num
  have T12 : ∀ x, T1 x 2 = ε * x 2 := fun x => by
    simp [hT1, reflect, tailDot, hε]
    ring
  have T1e2 : T1 (e 2) = ε • e 2 := by
    funext b
    fin_cases b
    · simp [hT1, reflect, e]
    · simp [hT1, reflect, e]
    · exact (T12 (e 2)).trans (by simp)
  have T1e0 : T1 (e 0) = e 0 := by
    rw [hT1, reflect_fixed]
    intro b hb; fin_cases b <;> simp [e] at hb ⊢
  have T1e1 : T1 (e 1) = e 1 := by
    rw [hT1, reflect_fixed]
    intro b hb; fin_cases b <;> simp [e] at hb ⊢
  have T0e0 : T0 (e 0) = e 0 := by
    rw [hT0, reflect_fixed]
    intro b hb; fin_cases b <;> simp [e] at hb ⊢
  have dotT1 : ∀ x y, T1 x ⬝ᵥ T1 y = x ⬝ᵥ y := fun x y => by
    rw [← dot_eq, hT1, reflect_dot h2.good h2.sign, dot_eq]
  have frame : Frame (T0 (T1 (e 0))) (T0 (T1 (e 1))) (T0 (T1 (e 2))) := by
    constructor <;> rw [dotT0, dotT1, ee] <;> simp
  -- the computed basis
  have c0 : (fun b => m2 b 0) = fun b => m1 b 0 := funext fun b => n2 b 0 (by decide) (by simp)
  set q1 : Mat 3 3 R := fun a b => if (1 : Fin 3) ≤ b then
      reflect 2 (fun k => m2 k 1) (signum dd1) (fun k => if k = b then 1 else 0) a
    else if a = b then 1 else 0 with hq1
  have hq : ∀ (a c : Fin 3), (tridiag m).q a c = reflect 1 (fun b => m1 b 0) (signum dd0) (fun b => q1 b c) a := by
    intro a c
    rw [← c0]
    simp [tridiag, ← hm1, ← hm2, ← hd0, ← hd1, hq1]
  have good_le : ∀ {i : Fin 3} {A : V3 ℝ}, Good i A → tailDot i A A ≤ 1 := by
    intro i A h
    rcases h with h | h
    · exact h.le
    · have : tailDot i A A = 0 := by
        fin_cases i <;> simp only [tailDot]
        · simp only [Fin.zero_eta, Fin.isValue, if_true]
          rw [h 0 (by decide), h 1 (by decide), h 2 (by decide)]; ring
        · simp only [Fin.mk_one, Fin.isValue, one_ne_zero, if_false, if_true]
          rw [h 1 (by decide), h 2 (by decide)]; ring
        · simp only [Fin.reduceFinMk, Fin.isValue, Fin.reduceEq, if_false]
          rw [h 2 (by decide)]; ring
      rw [this]; norm_num
  have ev : ∀ b c : Fin 3, fl.isFinite (if b = c then (1 : R) else 0) ∧
      fl.val (if b = c then (1 : R) else 0) = e c b := fun b c => by
    unfold e
    split
    · exact fl.one
    · exact fl.zero
  have scale1 := hF.scale zero_le_one (by norm_num)
  have q1n : ∀ b c : Fin 3, fl.isFinite (q1 b c) ∧ |fl.val (q1 b c) - T1 (e c) b| ≤ 3347 * fl.u := by
    intro b c
    by_cases hc : (1 : Fin 3) ≤ c
    · have hv : vvec fl (fun k => if k = c then (1 : R) else 0) = e c := funext fun k => (ev k c).2
      have := reflect_near (r := r) q 2 (L := 1) hu hF.ω1 h2.axis (good_le h2.good) h2.sign_fin h2.sign_val h2.sign
        (fun b => (ev b c).1) zero_le_one hF.ω1 scale1 scale1
        (by rw [hv, dot_e, if_pos rfl]; norm_num) b
      rw [hv] at this
      simp only [hq1, hc, if_true]
      refine ⟨this.fin, ?_⟩
      have h3 := this.err1
      exact h3
    · have hc0 : c = 0 := by omega
      subst hc0
      simp only [hq1, hc, if_false]
      refine ⟨(ev b 0).1, ?_⟩
      rw [(ev b 0).2, T1e0, sub_self, abs_zero]
      positivity
  have T1le : ∀ b c, |T1 (e c) b| ≤ 1 := fun b c => by
    have h3 := dotT1 (e c) (e c)
    rw [ee, if_pos rfl, dotProduct, Fin.sum_univ_three] at h3
    rw [← sq_le_one_iff_abs_le_one]
    fin_cases b <;> dsimp only [Fin.zero_eta, Fin.mk_one, Fin.reduceFinMk] <;>
      nlinarith [mul_self_nonneg (T1 (e c) 0), mul_self_nonneg (T1 (e c) 1), mul_self_nonneg (T1 (e c) 2)]
  have qn : ∀ a c : Fin 3, fl.isFinite ((tridiag m).q a c) ∧
      |fl.val ((tridiag m).q a c) - T0 (T1 (e c)) a| ≤ 30130 * fl.u := by
    intro a c
    rw [hq]
    set cc := vvec fl fun b => q1 b c with hcc
    have hle1 : ∀ b, |cc b| ≤ 11 / 10 := fun b => by
      have h3 := (q1n b c).2
      have h4 := T1le b c
      have h5 := abs_sub_abs_le_abs_sub (fl.val (q1 b c)) (T1 (e c) b)
      show |fl.val (q1 b c)| ≤ _
      linarith
    have hsq : ∀ b, cc b * cc b ≤ 4 / 3 := fun b => by
      rw [← abs_mul_abs_self]
      have := hle1 b
      have := abs_nonneg (cc b)
      nlinarith
    have := reflect_near (r := r) q 1 (L := 2) hu hF.ω1 h1.axis (good_le h1.good) h1.sign_fin h1.sign_val h1.sign
      (fun b => (q1n b c).1) zero_le_two (hF.ω1.trans one_le_two) scale1 (hF.scale zero_le_two (by norm_num))
      (by rw [← hcc]; unfold dot; linarith [hsq 0, hsq 1, hsq 2]) a
    refine ⟨this.fin, ?_⟩
    have h3 := this.err
    rw [← hcc, ← hT0] at h3
    have h4 : |T0 cc a - T0 (T1 (e c)) a| ≤ 7 * (3347 * fl.u) := by
      rw [hT0, reflect_sub]
      by_cases ha : 1 ≤ a
      · exact reflect_abs_le h1.good h1.sign (fun b _ => (q1n b c).2) a ha
      · have : reflect 1 A1 S1 (cc - T1 (e c)) a = (cc - T1 (e c)) a := by simp [reflect, ha]
        rw [this]
        exact ((q1n a c).2).trans (by linarith)
    have h5 := abs_add_le (fl.val (reflect 1 (fun b => m1 b 0) (signum dd0) (fun b => q1 b c) a) - T0 cc a)
      (T0 cc a - T0 (T1 (e c)) a)
    rw [sub_add_sub_cancel] at h5
    have h6 : 3347 * (fl.u * 2) = 6694 * fl.u := by ring
    rw [h6] at h3
    have h7 : |fl.val (reflect 1 (fun b => m1 b 0) (signum dd0) (fun b => q1 b c) a) - T0 cc a| ≤ 6694 * fl.u := h3
    linarith
  -- the computed entries
  have g0 : (tridiag m).diag 0 = m 0 0 := by
    have e1 : m2 0 0 = m1 0 0 := congrFun c0 0
    have e2 : m1 0 0 = m 0 0 := h1.below 0 (by decide)
    simp [tridiag, ← hm1, ← hm2, e1, e2]
  have g1 : (tridiag m).diag 1 = m1 1 1 := by
    have e1 : m2 1 1 = m1 1 1 := h2.below 1 (by decide)
    simp [tridiag, ← hm1, ← hm2, e1]
  have g2 : (tridiag m).diag 2 = m2 2 2 := by
    simp [tridiag, ← hm1, ← hm2]
  have p0 : (tridiag m).off 0 = Scalar.abs dd0 := by
    simp [tridiag, ← hd0]
  have p1 : (tridiag m).off 1 = Scalar.abs dd1 := by
    simp [tridiag, ← hm1, ← hd1]
  have p1' : ∀ i, i ≠ 0 → (tridiag m).off i = Scalar.abs dd1 := fun i hi => by
    simp [tridiag, ← hm1, ← hd1, hi]
  obtain ⟨a0, a0v⟩ := q.abs h1.fin
  obtain ⟨a1, a1v⟩ := q.abs h2.fin
  simp only at a0 a0v a1 a1v
  have he : ∀ (x : V3 ℝ) c, x ⬝ᵥ e c = x c := by
    intro x c
    fin_cases c <;> simp [dotProduct, e]
  have hSe : Y *ᵥ e 0 = vvec fl fun b => m b 0 := by
    funext b
    have : (Y *ᵥ e 0) b = Y b 0 := he (Y b) 0
    rw [this]
    exact hYl b 0 (Fin.zero_le b)
  have hrow : ∀ x, bil Y (e 0) (T0 x) = T0 (vvec fl fun b => m b 0) ⬝ᵥ x := by
    intro x
    rw [bil_comm hYT, bil, hSe, dotProduct_comm, hT0, reflect_adj, ← reflect_adj]
  have k00 : bil Y (T0 (T1 (e 0))) (T0 (T1 (e 0))) = fl.val (m 0 0) := by
    rw [T1e0, T0e0, bil, dotProduct_comm, he, hSe]; rfl
  have k01 : bil Y (T0 (T1 (e 0))) (T0 (T1 (e 1))) = T0 (vvec fl fun b => m b 0) 1 := by
    rw [T1e0, T0e0, T1e1, hrow, he]
  have k02 : bil Y (T0 (T1 (e 0))) (T0 (T1 (e 2))) = ε * T0 (vvec fl fun b => m b 0) 2 := by
    rw [T1e0, T0e0, T1e2, hrow, dotProduct_smul, he, smul_eq_mul]
  have k11 : bil Y (T0 (T1 (e 1))) (T0 (T1 (e 1))) = block 1 A1 Y 1 1 := by
    rw [T1e1, B11]
  have k12 : bil Y (T0 (T1 (e 1))) (T0 (T1 (e 2))) = ε * block 1 A1 Y 2 1 := by
    rw [T1e1, T1e2, bil_comm hYT, hT0, reflect_smul, bil_smul_left, ← hT0, B21]
  have k22 : bil Y (T0 (T1 (e 2))) (T0 (T1 (e 2))) = block 1 A1 Y 2 2 := by
    rw [T1e2, hT0, reflect_smul, bil_smul_left, bil_smul_right, ← hT0, B22, ← mul_assoc, hεε, one_mul]
  have err12 : |fl.val (Scalar.abs dd1) - ε * block 1 A1 Y 2 1| ≤ 268400 * fl.u := by
    have e1 := h2.head
    rw [← hT1, T12] at e1
    have e2 := M21.err1
    have e3 : |ε * fl.val (m1 2 1) - ε * block 1 A1 Y 2 1| ≤ 134200 * fl.u := by
      rw [← mul_sub, mul_comm]
      exact mul_le_of_one e2 hεa
    rw [a1v, abs_sub_comm]
    have e4 := abs_add_le (ε * block 1 A1 Y 2 1 - ε * fl.val (m1 2 1)) (ε * fl.val (m1 2 1) - |fl.val dd1|)
    rw [sub_add_sub_cancel, abs_sub_comm _ (ε * fl.val (m1 2 1))] at e4
    have e5 : |ε * fl.val (m1 2 1) - (|fl.val dd1|)| ≤ 100 * fl.u := e1
    linarith
  have err22 : |fl.val (m2 2 2) - block 1 A1 Y 2 2| ≤ 268400 * fl.u := by
    have e1 := b22.err1
    have e2 := M22.err1
    have e4 := abs_add_le (fl.val (m2 2 2) - fl.val (m1 2 2)) (fl.val (m1 2 2) - block 1 A1 Y 2 2)
    rw [sub_add_sub_cancel] at e4
    linarith
  refine ⟨T0 (T1 (e 0)), T0 (T1 (e 1)), T0 (T1 (e 2)), ⟨frame, ?_, ?_, ?_⟩, ?_, ?_⟩
  · intro a c hc
    exact (qn a ⟨c, hc⟩).1
  · intro a b
    have f := frame.columns a b
    obtain ⟨f1, f2, f3⟩ := frame.le_one b
    have e0 := abs_le.1 (mul_le_of_one (qn a 0).2 f1)
    have e1 := abs_le.1 (mul_le_of_one (qn a 1).2 f2)
    have e2 := abs_le.1 (mul_le_of_one (qn a 2).2 f3)
    rw [← f, abs_le]
    change _ ≤ fl.val ((tridiag m).q a ((0 : Fin 3) : ℕ)) * _ + fl.val ((tridiag m).q a ((1 : Fin 3) : ℕ)) * _ +
      fl.val ((tridiag m).q a ((2 : Fin 3) : ℕ)) * _ - _ ∧ fl.val ((tridiag m).q a ((0 : Fin 3) : ℕ)) * _ +
      fl.val ((tridiag m).q a ((1 : Fin 3) : ℕ)) * _ + fl.val ((tridiag m).q a ((2 : Fin 3) : ℕ)) * _ - _ ≤ _
    constructor <;> linarith [e0.1, e0.2, e1.1, e1.2, e2.1, e2.2]
  · intro a b
    have e1 := form_bil frame hYT a b
    rw [← e1, k00, k01, k02, k11, k12, k22, g0, g1, g2, p0, p1]
    refine (form_perturb frame (δ := 268400 * fl.u) ?_ ?_ ?_ ?_ ?_ ?_ a b).trans (by linarith)
    · rw [sub_self, abs_zero]; positivity
    · exact M11.err1.trans (by linarith)
    · exact err22
    · rw [a0v, abs_sub_comm]
      exact h1.head.trans (by linarith)
    · exact err12
    · rw [zero_sub, abs_neg, mul_comm]
      exact (mul_le_of_one (h1.tail 2 (by decide)) hεa).trans (by linarith)
  · intro i hi
    have : i = 0 ∨ i = 1 ∨ i = 2 := by omega
    rcases this with rfl | rfl | rfl
    · rw [g0]; exact (hm 0 0 le_rfl).1
    · rw [g1]; exact M11.fin
    · rw [g2]; exact b22.fin
  · intro i
    by_cases hi : i = 0
    · subst hi; rw [p0]; exact a0
    · rw [p1' i hi]; exact a1

end SvdNear
end CamGeom
