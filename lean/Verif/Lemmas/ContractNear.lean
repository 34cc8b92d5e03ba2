import Verif.Lemmas.EigenNear

/-!
# Convergence of nalgebra's eigenvector iteration in floating point

As in exact arithmetic, `off₀² off₁⁴` shrinks by a constant factor in each QR step.  A computed off-diagonal entry
differs from that of the exact step by a multiple of the unit roundoff even if the second rotation of the step is
determined by two tiny numbers, because the entries it acts on are then as small.
-/

namespace CamGeom
namespace SvdNear
open Matrix Householder
open Svd3 hiding Near

theorem le_of_pow4 {x y : ℝ} (hy : 0 ≤ y) (h : x ^ 4 ≤ y ^ 4) : x ≤ y := by
  by_contra hn
  exact absurd h (not_le.2 (pow_lt_pow_left₀ (not_le.1 hn) hy (by norm_num)))

/-- The estimate behind convergence, with a shift that is not quite Wilkinson's: the main term. -/
theorem contraction_main {a b z X y e1 ε : ℝ} (hε : ε ≤ 1 / 10 ^ 13) (hXy : X * y = b) (hbX : b ≤ X ^ 2)
    (ha : (1 / 10 ^ 8) ^ 2 ≤ a) (hb : (1 / 10 ^ 8) ^ 2 ≤ b) (h1 : |e1| ≤ ε) :
    (a * y) ^ 4 ≤ 2967 / 10000 * ((z * (X + e1) - a) ^ 2 + b * (z ^ 2 + a)) ^ 3 := by
  have ha0 : 0 < a := lt_of_lt_of_le (by norm_num) ha
  have hb0 : 0 < b := lt_of_lt_of_le (by norm_num) hb
  set x := X + e1 with hx
  have hX : 1 / 10 ^ 8 ≤ |X| := by
    refine le_of_sq_le_sq ?_ (abs_nonneg X)
    rw [sq_abs]; exact hb.trans hbX
  have hX0 : 0 < |X| := lt_of_lt_of_le (by norm_num) hX
  have he : |e1| ≤ 1 / 10 ^ 5 * |X| := by linarith
  have hx1 : (1 - 1 / 10 ^ 5) * |X| ≤ |x| := by
    have := abs_sub_abs_le_abs_sub X (-e1)
    rw [abs_neg, sub_neg_eq_add] at this
    linarith
  have hx2 : |x| ≤ (1 + 1 / 10 ^ 5) * |X| := by
    have := abs_add_le X e1
    linarith
  have hx0 : x ≠ 0 := abs_pos.1 (lt_of_lt_of_le (by linarith) hx1)
  set f := (z * x - a) ^ 2 + b * (z ^ 2 + a) with hf
  -- the exact estimate for a slightly smaller entry
  have c := contraction (z := z) (x := x) (y := (1 - 1 / 10 ^ 4) * b / x) (b := (1 - 1 / 10 ^ 4) * b) (a := a)
    (by field_simp) (by
      rw [← sq_abs X] at hbX
      rw [← sq_abs x]
      have : ((1 - 1 / 10 ^ 5) * |X|) ^ 2 ≤ |x| ^ 2 := pow_le_pow_left₀ (by positivity) hx1 2
      nlinarith) ha0 (by linarith)
  have hf1 : (z * x - a) ^ 2 + (1 - 1 / 10 ^ 4) * b * (z ^ 2 + a) ≤ f := by
    have : 0 ≤ b * (z ^ 2 + a) := by positivity
    rw [hf]; linarith
  have c' : 27 * (a * ((1 - 1 / 10 ^ 4) * b / x)) ^ 4 ≤ 8 * f ^ 3 := by
    refine c.trans (mul_le_mul_of_nonneg_left (pow_le_pow_left₀ ?_ hf1 3) (by norm_num))
    have : 0 ≤ b * (z ^ 2 + a) := by positivity
    nlinarith [sq_nonneg (z * x - a)]
  have hy : |y| = b / |X| := by
    rw [eq_div_iff hX0.ne', ← abs_mul, mul_comm, hXy, abs_of_pos hb0]
  have hy1 : |a * y| ≤ 10002 / 10000 * |a * ((1 - 1 / 10 ^ 4) * b / x)| := by
    rw [abs_mul, abs_mul, abs_of_pos ha0, hy, abs_div, abs_of_pos (show 0 < (1 - 1 / 10 ^ 4) * b by linarith)]
    have hxp : 0 < |x| := abs_pos.2 hx0
    rw [← mul_div_assoc, ← mul_div_assoc, ← mul_div_assoc, div_le_div_iff₀ hX0 hxp]
    have := mul_le_mul_of_nonneg_left hx2 (mul_pos ha0 hb0).le
    have h0 : 0 < a * b * |X| := by positivity
    nlinarith
  have h3 := pow_le_pow_left₀ (abs_nonneg _) hy1 4
  rw [mul_pow, Even.pow_abs (by decide), Even.pow_abs (by decide)] at h3
  have h4 : (0 : ℝ) ≤ f ^ 3 := by positivity
  linarith

/-- The estimate behind convergence, with a shift that is not quite Wilkinson's. -/
theorem contraction_near {a b z X y e1 e2 ε : ℝ} (hε : ε ≤ 1 / 10 ^ 13) (hXy : X * y = b) (hbX : b ≤ X ^ 2)
    (ha : (1 / 10 ^ 8) ^ 2 ≤ a) (hb : (1 / 10 ^ 8) ^ 2 ≤ b) (h1 : |e1| ≤ ε) (h2 : |e2| ≤ ε) :
    (e2 * (z * (X + e1) - a) + e1 * z * y - a * y) ^ 4 ≤
      2985 / 10000 * ((z * (X + e1) - a) ^ 2 + b * (z ^ 2 + a)) ^ 3 := by
  have hε0 : 0 ≤ ε := (abs_nonneg _).trans h1
  have ha0 : 0 < a := lt_of_lt_of_le (by norm_num) ha
  have hb0 : 0 < b := lt_of_lt_of_le (by norm_num) hb
  have hA := contraction_main (z := z) hε hXy hbX ha hb h1
  generalize X + e1 = x at *
  set f := (z * x - a) ^ 2 + b * (z ^ 2 + a) with hf
  -- fourth roots
  have hf0 : 0 ≤ f := by positivity
  set h := Real.sqrt (Real.sqrt f) with hh
  have hh0 : 0 ≤ h := Real.sqrt_nonneg _
  have hsq : h ^ 2 = Real.sqrt f := Real.sq_sqrt (Real.sqrt_nonneg _)
  have hf4 : f = h ^ 4 := by
    rw [show h ^ 4 = (h ^ 2) ^ 2 by ring, hsq, Real.sq_sqrt hf0]
  have h12 : (h ^ 3) ^ 4 = f ^ 3 := by rw [hf4]; ring
  have hlow : 1 / 10 ^ 8 ≤ h := by
    refine le_of_pow4 hh0 ?_
    rw [← hf4]
    have e1 : (1 / 10 ^ 8 : ℝ) ^ 2 * (1 / 10 ^ 8) ^ 2 ≤ b * (z ^ 2 + a) :=
      mul_le_mul hb (by have := sq_nonneg z; linarith) (by positivity) hb0.le
    have : (1 / 10 ^ 8 : ℝ) ^ 4 = (1 / 10 ^ 8) ^ 2 * (1 / 10 ^ 8) ^ 2 := by norm_num
    rw [this, hf]
    have e3 := sq_nonneg (z * x - a)
    linarith
  have k1 : |z * x - a| ≤ h ^ 2 := by
    rw [hsq]
    refine Real.le_sqrt_of_sq_le ?_
    rw [sq_abs, hf]
    have : 0 ≤ b * (z ^ 2 + a) := by positivity
    linarith
  have hyb : y ^ 2 ≤ b := by
    have e1 : X ^ 2 * y ^ 2 = b * b := by rw [← mul_pow, hXy]; ring
    have hX2 : 0 < X ^ 2 := lt_of_lt_of_le hb0 hbX
    refine le_of_mul_le_mul_left ?_ hX2
    rw [e1]
    exact mul_le_mul_of_nonneg_right hbX hb0.le
  have k2 : |z * y| ≤ h ^ 2 := by
    rw [hsq]
    refine Real.le_sqrt_of_sq_le ?_
    rw [sq_abs, mul_pow, hf]
    have e1 := mul_le_mul_of_nonneg_left hyb (sq_nonneg z)
    have e2 := sq_nonneg (z * x - a)
    have e3 := mul_pos hb0 ha0
    linarith
  have k3 : |a * y| ≤ 7382 / 10000 * h ^ 3 := by
    refine le_of_pow4 (by positivity) ?_
    rw [Even.pow_abs (by decide), mul_pow (7382 / 10000), h12]
    refine hA.trans (mul_le_mul_of_nonneg_right (by norm_num) (by positivity))
  have k4 : |e2 * (z * x - a) + e1 * z * y - a * y| ≤ 7386 / 10000 * h ^ 3 := by
    have e3 : |e2 * (z * x - a)| ≤ ε * h ^ 2 := by
      rw [abs_mul]; exact mul_le_mul h2 k1 (abs_nonneg _) hε0
    have e4 : |e1 * z * y| ≤ ε * h ^ 2 := by
      rw [mul_assoc, abs_mul]; exact mul_le_mul h1 k2 (abs_nonneg _) hε0
    have e5 := abs_sub (e2 * (z * x - a) + e1 * z * y) (a * y)
    have e6 := abs_add_le (e2 * (z * x - a)) (e1 * z * y)
    have e7 : ε * h ^ 2 ≤ 1 / 10 ^ 5 * h ^ 3 := by
      have : ε ≤ 1 / 10 ^ 5 * h := by linarith
      calc ε * h ^ 2 ≤ 1 / 10 ^ 5 * h * h ^ 2 := by gcongr
        _ = _ := by ring
    have : 0 ≤ h ^ 3 := by positivity
    linarith
  have k5 := pow_le_pow_left₀ (abs_nonneg _) k4 4
  rw [Even.pow_abs (by decide), mul_pow] at k5
  rw [h12] at k5
  refine k5.trans (mul_le_mul_of_nonneg_right (by norm_num) (by positivity))

/-- A rotation by nearly the angle of a vector. -/
theorem turn_near {C S N D o α β α' β' δ ρ : ℝ} (h1 : C * C + S * S = 1) (hα' : C * α' - S * β' = N)
    (hβ' : C * β' + S * α' = 0) (hδ : |α' - α| + |β' - β| ≤ δ) (hρ0 : 0 < ρ) (hρ : ρ ^ 2 = α ^ 2 + β ^ 2) :
    |N| ≤ ρ + δ ∧
    |(C * S * D + o * (C * C - S * S)) - (-(α * β * D) + o * (α ^ 2 - β ^ 2)) / ρ ^ 2| ≤ δ * (|D| + 2 * |o|) / ρ := by
  have hC : |C| ≤ 1 := abs_le_one_iff_mul_self_le_one.2 (by nlinarith [mul_self_nonneg S])
  have hS : |S| ≤ 1 := abs_le_one_iff_mul_self_le_one.2 (by nlinarith [mul_self_nonneg C])
  have unit : ∀ p q : ℝ, p ^ 2 + q ^ 2 = ρ ^ 2 → |p| ≤ ρ := fun p q h =>
    abs_le_of_sq_le_sq (by nlinarith [sq_nonneg q]) hρ0.le
  have lin : ∀ p q : ℝ, |p| ≤ 1 → |q| ≤ 1 → |p * (α' - α) + q * (β' - β)| ≤ δ := fun p q hp hq => by
    refine (abs_add_le _ _).trans (le_trans ?_ hδ)
    rw [abs_mul, abs_mul]
    have := mul_le_mul_of_nonneg_right hp (abs_nonneg (α' - α))
    have := mul_le_mul_of_nonneg_right hq (abs_nonneg (β' - β))
    linarith
  constructor
  · have e1 := unit (C * α - S * β) (C * β + S * α) (by rw [hρ]; linear_combination (α ^ 2 + β ^ 2) * h1)
    have e2 := lin C (-S) hC (by rwa [abs_neg])
    have e3 : N = (C * α - S * β) + (C * (α' - α) + -S * (β' - β)) := by rw [← hα']; ring
    rw [e3]
    exact (abs_add_le _ _).trans (by linarith)
  · have cr : |C * β + S * α| ≤ δ := by
      have e2 := lin S C hS hC
      have e3 : C * β + S * α = -(S * (α' - α) + C * (β' - β)) := by linear_combination hβ'
      rw [e3, abs_neg]; exact e2
    have hδ0 : 0 ≤ δ := (abs_nonneg _).trans cr
    have e1 := unit (C * α + S * β) (C * β - S * α) (by rw [hρ]; linear_combination (α ^ 2 + β ^ 2) * h1)
    have e2 := unit (C * β - S * α) (C * α + S * β) (by rw [hρ]; linear_combination (α ^ 2 + β ^ 2) * h1)
    have key : (C * S * D + o * (C * C - S * S)) - (-(α * β * D) + o * (α ^ 2 - β ^ 2)) / ρ ^ 2 =
        (C * β + S * α) * ((C * α + S * β) * D + 2 * ((C * β - S * α) * o)) / ρ ^ 2 := by
      rw [eq_div_iff (by positivity), sub_mul, div_mul_cancel₀ _ (by positivity), hρ]
      linear_combination (o * (α ^ 2 - β ^ 2) - α * β * D) * h1
    rw [key, abs_div, abs_mul, abs_of_pos (show 0 < ρ ^ 2 by positivity), div_le_div_iff₀ (by positivity) hρ0]
    have e4 : |(C * α + S * β) * D + 2 * ((C * β - S * α) * o)| ≤ ρ * (|D| + 2 * |o|) := by
      refine (abs_add_le _ _).trans ?_
      rw [abs_mul, abs_mul, abs_mul, abs_two]
      have := mul_le_mul_of_nonneg_right e1 (abs_nonneg D)
      have := mul_le_mul_of_nonneg_right e2 (abs_nonneg o)
      linarith
    have e5 := mul_le_mul cr e4 (abs_nonneg _) hδ0
    calc _ ≤ δ * (ρ * (|D| + 2 * |o|)) * ρ := mul_le_mul_of_nonneg_right e5 hρ0.le
      _ = _ := by ring

theorem step_size {z o0 o1 x X y w e1 e2 ε C S N k τ : ℝ} (hε : ε ≤ 1 / 10 ^ 13) (h1 : C * C + S * S = 1)
    (hz : z = C * N) (ho : o0 = -S * N) (hx' : x = X + e1) (hw : w = y + e2) (hk : k = C * x - S * S * N)
    (hXy : X * y = o1 ^ 2) (hbX : o1 ^ 2 ≤ X ^ 2) (he1 : |e1| ≤ ε) (he2 : |e2| ≤ ε) (l0 : 1 / 10 ^ 8 ≤ |o0|)
    (l1 : 1 / 10 ^ 8 ≤ |o1|) (hN : N ≠ 0) (hττ : τ ^ 2 = k ^ 2 + o1 ^ 2) :
    (k * w - C * o1 ^ 2) ^ 4 ≤ 2985 / 10000 * (N ^ 2 * τ ^ 6) := by
  have c := contraction_near (z := z) (a := o0 ^ 2) hε hXy hbX
    (by rw [← sq_abs o0]; exact pow_le_pow_left₀ (by norm_num) l0 2)
    (by rw [← sq_abs o1]; exact pow_le_pow_left₀ (by norm_num) l1 2) he1 he2
  rw [← hx'] at c
  have f1 : z * x - o0 ^ 2 = N * k := by rw [hz, ho, hk]; ring
  have f2 : z ^ 2 + o0 ^ 2 = N ^ 2 := by rw [hz, ho]; linear_combination N ^ 2 * h1
  have f3 : e2 * (z * x - o0 ^ 2) + e1 * z * y - o0 ^ 2 * y = N * (k * w - C * o1 ^ 2) := by
    have : x * y = o1 ^ 2 + e1 * y := by rw [hx', add_mul, hXy]
    rw [f1, hw, hk, hz, ho]
    linear_combination (-(C * N)) * this
  have f4 : (z * x - o0 ^ 2) ^ 2 + o1 ^ 2 * (z ^ 2 + o0 ^ 2) = N ^ 2 * τ ^ 2 := by
    rw [f1, f2, hττ]; ring
  rw [f3, f4] at c
  refine le_of_mul_le_mul_left ?_ (show 0 < N ^ 4 by positivity)
  calc _ = (N * (k * w - C * o1 ^ 2)) ^ 4 := by ring
    _ ≤ _ := c
    _ = _ := by ring

/-- A QR step in exact arithmetic, with a shift that is not quite Wilkinson's. -/
theorem step_real {z o0 o1 d0 d1 d2 X y e1 e2 ε C S N : ℝ} (hε : ε ≤ 1 / 10 ^ 13) (h1 : C * C + S * S = 1)
    (hz : z = C * N) (ho : o0 = -S * N) (hx : d1 - (d0 - z) = X + e1) (hy : d2 - (d0 - z) = y + e2)
    (hXy : X * y = o1 ^ 2) (hbX : o1 ^ 2 ≤ X ^ 2) (he1 : |e1| ≤ ε) (he2 : |e2| ≤ ε) (l0 : 1 / 10 ^ 8 ≤ |o0|)
    (l1 : 1 / 10 ^ 8 ≤ |o1|) {α β D o : ℝ} (hα : α = C * S * (d0 - d1) + o0 * (C * C - S * S)) (hβ : β = -S * o1)
    (hD : D = S * S * d0 + C * C * d1 + C * S * 2 * o0 - d2) (hoo : o = o1 * C) :
    ∃ ρ, 0 < ρ ∧ ρ ^ 2 = α ^ 2 + β ^ 2 ∧ (|D| + 2 * |o|) * |S| ≤ 401 / 100 * ρ ∧
      ρ ^ 2 * ((-(α * β * D) + o * (α ^ 2 - β ^ 2)) / ρ ^ 2) ^ 4 ≤ 2985 / 10000 * (o0 ^ 2 * o1 ^ 4) := by
  have h0 : o0 ≠ 0 := fun h => by rw [h, abs_zero] at l0; norm_num at l0
  have h0' : o1 ≠ 0 := fun h => by rw [h, abs_zero] at l1; norm_num at l1
  have hS : S ≠ 0 := fun h => h0 (by rw [ho, h]; ring)
  have hN : N ≠ 0 := fun h => h0 (by rw [ho, h]; ring)
  obtain ⟨x, hx'⟩ : ∃ x, x = X + e1 := ⟨_, rfl⟩
  obtain ⟨w, hw⟩ : ∃ w, w = y + e2 := ⟨_, rfl⟩
  obtain ⟨k, hk⟩ : ∃ k, k = C * x - S * S * N := ⟨_, rfl⟩
  rw [← hx'] at hx
  rw [← hw] at hy
  have ed1 : d1 = d0 - C * N + x := by rw [hz] at hx; linarith
  have ed2 : d2 = d0 - C * N + w := by rw [hz] at hy; linarith
  have eα : α = -S * k := by rw [hα, ed1, ho, hk]; ring
  have eD : D = C * k - w := by
    rw [hD, ed1, ed2, ho, hk]; linear_combination (d0 - C * N) * h1
  have τ0 : 0 < k ^ 2 + o1 ^ 2 := by positivity
  obtain ⟨τ, hττ, τp⟩ : ∃ τ, τ ^ 2 = k ^ 2 + o1 ^ 2 ∧ 0 < τ := ⟨_, Real.sq_sqrt τ0.le, Real.sqrt_pos.2 τ0⟩
  have kτ : |k| ≤ τ := abs_le_of_sq_le_sq (by rw [hττ]; linarith [sq_nonneg o1]) τp.le
  have oτ : |o1| ≤ τ := abs_le_of_sq_le_sq (by rw [hττ]; linarith [sq_nonneg k]) τp.le
  have hC : |C| ≤ 1 := abs_le_one_iff_mul_self_le_one.2 (by nlinarith [mul_self_nonneg S])
  refine ⟨|S| * τ, mul_pos (abs_pos.2 hS) τp, ?_, ?_, ?_⟩
  · rw [mul_pow, sq_abs, hττ, eα, hβ]; ring
  · have yo : |y| ≤ |o1| := by
      have hX2 : 0 < X ^ 2 := lt_of_lt_of_le (by positivity) hbX
      refine sq_le_sq.1 ?_
      refine le_of_mul_le_mul_left ?_ hX2
      have e1 : X ^ 2 * y ^ 2 = o1 ^ 2 * o1 ^ 2 := by rw [← mul_pow, hXy]; ring
      rw [e1]
      exact mul_le_mul_of_nonneg_right hbX (sq_nonneg _)
    have wo : |w| ≤ 1001 / 1000 * |o1| := by
      have := abs_add_le y e2
      rw [hw]
      linarith
    have Do : |D| ≤ |k| + |w| := by
      rw [eD]
      refine (abs_sub _ _).trans ?_
      rw [abs_mul]
      have := mul_le_of_le_one_left (abs_nonneg k) hC
      linarith
    have oo : |o| ≤ |o1| := by rw [hoo, abs_mul]; exact mul_le_of_le_one_right (abs_nonneg _) hC
    calc (|D| + 2 * |o|) * |S| ≤ 401 / 100 * τ * |S| :=
          mul_le_mul_of_nonneg_right (by linarith) (abs_nonneg S)
      _ = _ := by ring
  · have c2 := step_size hε h1 hz ho hx' hw hk hXy hbX he1 he2 l0 l1 hN hττ
    have e5 : (-(α * β * D) + o * (α ^ 2 - β ^ 2)) / (|S| * τ) ^ 2 = o1 * (k * w - C * o1 ^ 2) / τ ^ 2 := by
      rw [mul_pow, sq_abs, div_eq_div_iff (by positivity) (by positivity), eα, hβ, eD, hoo]
      ring
    rw [e5, div_pow, mul_pow, mul_pow, sq_abs]
    have e6 : S ^ 2 * τ ^ 2 * (o1 ^ 4 * (k * w - C * o1 ^ 2) ^ 4 / (τ ^ 2) ^ 4) =
        S ^ 2 * o1 ^ 4 * (k * w - C * o1 ^ 2) ^ 4 / τ ^ 6 := by field_simp
    rw [e6, div_le_iff₀ (by positivity)]
    calc S ^ 2 * o1 ^ 4 * (k * w - C * o1 ^ 2) ^ 4 ≤ S ^ 2 * o1 ^ 4 * (2985 / 10000 * (N ^ 2 * τ ^ 6)) :=
          mul_le_mul_of_nonneg_left c2 (by positivity)
      _ = _ := by rw [ho]; ring

variable {R : Type} [Scalar R] {fl : Rounding R} {r : RoundingRange fl}

/-- The entries that determine the second rotation are accurate relative to the sine of the first. -/
theorem first_near (hF : Fine r) {g : Givens R} {C S N : ℝ} (h : RotNear fl g C S) (hs : Near fl |S| 1 14 g.s S)
    {a b o p : R} (ha : fl.isFinite a) (hb : fl.isFinite b) (ho : fl.isFinite o) (hp : fl.isFinite p)
    (hA : |fl.val a| ≤ 4) (hB : |fl.val b| ≤ 4) (hO : fl.val o = -S * N) (hN : |N| ≤ 30) (hP : |fl.val p| ≤ 4)
    (hl : 1 / 10 ^ 8 ≤ |fl.val o|) :
    |fl.val (rotO g a b o) - (C * S * (fl.val a - fl.val b) + fl.val o * (C * C - S * S))| +
      |fl.val (-g.s * p) - -S * fl.val p| ≤ 2530 * (fl.u * |S|) := by
  have hu := hF.hu
  have aO : |fl.val o| ≤ 30 * |S| := by
    rw [hO, abs_mul, abs_neg, mul_comm]
    exact mul_le_mul_of_nonneg_right hN (abs_nonneg S)
  have hS0 : 1 / 10 ^ 10 ≤ |S| := by linarith
  have hS1 : |S| ≤ 1 := abs_le_one_iff_mul_self_le_one.2 (by have := h.one; nlinarith [mul_self_nonneg C])
  have hC1 : |C| ≤ 1 := abs_le_one_iff_mul_self_le_one.2 (by have := h.one; nlinarith [mul_self_nonneg S])
  have sp : 0 ≤ |S| := abs_nonneg S
  have sc : Scale r |S| := hF.scale sp (hS1.trans (by norm_num))
  have hω : fl.ω ≤ |S| := hF.ω_le'.trans (le_trans (by norm_num) hS0)
  have sc1 : Scale r (1 * |S|) := by rwa [one_mul]
  have hω1 : fl.ω ≤ 1 * |S| := by rwa [one_mul]
  have sc2 : Scale r (|S| * 1) := by rwa [mul_one]
  have hω2 : fl.ω ≤ |S| * 1 := by rwa [mul_one]
  have na := Near.exact1 ha hA
  have nb := Near.exact1 hb hB
  have ab := hF.sub 8 8 na nb
  have cs : Near fl |S| 1 31 (g.c * g.s) (C * S) := by
    have := Near.mul (M := 1) (C := 31) zero_le_one sp sc1 hω1 hu h.c hs (by
      rw [abs_mul, one_mul, one_mul]
      exact mul_le_of_le_one_left sp hC1)
    exact this.scale (one_mul _)
  have t1 : Near fl |S| 8 270 (g.c * g.s * (a - b)) (C * S * (fl.val a - fl.val b)) := by
    have := Near.mul (M := 8) (C := 270) sp zero_le_one sc2 hω2 hu cs ab (by
      rw [abs_mul, mul_one]
      have e1 := cs.mag
      have e2 := ab.mag
      have := mul_le_mul e1 e2 (abs_nonneg _) (by positivity)
      linarith)
    exact this.scale (mul_one _)
  have cc := hF.mul 1 31 h.c h.c
  have ss := hF.mul 1 31 h.s h.s
  have dd : Near fl 1 1 64 (g.c * g.c - g.s * g.s) (C * C - S * S) := Near.sub (M := 1) (C := 64)
    (hF.scale zero_le_one (by norm_num)) hu cc ss (by
    rw [one_mul, abs_le]
    have := h.one
    constructor <;> nlinarith [mul_self_nonneg C, mul_self_nonneg S])
  have t2 : Near fl |S| 30 1960 (o * (g.c * g.c - g.s * g.s)) (fl.val o * (C * C - S * S)) := by
    have := Near.mul (M := 30) (C := 1960) sp zero_le_one sc2 hω2 hu (Near.exact ho aO) dd (by
      rw [abs_mul, mul_one]
      have e2 := dd.mag
      have := mul_le_mul aO e2 (abs_nonneg _) (by positivity)
      linarith)
    exact this.scale (mul_one _)
  have t3 : Near fl |S| 38 2269 (rotO g a b o) _ := Near.add (M := 38) (C := 2269) sc hu t1 t2 (by
    have e1 := t1.mag
    have e2 := t2.mag
    exact (abs_add_le _ _).trans (by linarith))
  have t4 : Near fl |S| 4 62 (-g.s * p) (-S * fl.val p) := by
    have := Near.mul (M := 4) (C := 62) sp zero_le_one sc2 hω2 hu (hs.neg r) (Near.exact1 hp hP) (by
      rw [abs_mul, mul_one, abs_neg, mul_comm]
      exact mul_le_mul_of_nonneg_right hP sp)
    exact this.scale (mul_one _)
  have e3 := t3.err
  have e4 := t4.err
  have : 0 ≤ fl.u * |S| := mul_nonneg fl.u_nonneg sp
  linarith

theorem unit_le {C S : ℝ} (h : C * C + S * S = 1) : |C * S| ≤ 1 ∧ |C * C - S * S| ≤ 1 := by
  constructor
  · rw [abs_le]; constructor <;> linarith [mul_self_nonneg (C - S), mul_self_nonneg (C + S)]
  · rw [abs_le]; constructor <;> linarith [mul_self_nonneg C, mul_self_nonneg S]

theorem size_err {p0 p1 ρ P s u : ℝ} (hu : u ≤ 12 / 10 ^ 17) (e0 : |p0| ≤ ρ + 2860 * u) (eP : |p1 - P| ≤ 12000 * u)
    (m0 : 1 / 10 ^ 8 ≤ |p0|) (m1 : 1 / 10 ^ 8 ≤ |p1|) (hρ : 0 < ρ) (hs : 0 ≤ s)
    (h : ρ ^ 2 * P ^ 4 ≤ 2985 / 10000 * s) : p0 ^ 2 * p1 ^ 4 ≤ 3 / 10 * s := by
  have k0 : (1 - 2 / 10 ^ 4) * |p0| ≤ ρ := by linarith
  have k1 : (1 - 2 / 10 ^ 4) * |p1| ≤ |P| := by
    have := abs_sub_abs_le_abs_sub p1 P
    linarith
  have k2 := mul_le_mul (pow_le_pow_left₀ (by positivity) k0 2) (pow_le_pow_left₀ (by positivity) k1 4)
    (by positivity) (by positivity)
  rw [mul_pow, mul_pow, sq_abs, Even.pow_abs (by decide), Even.pow_abs (by decide)] at k2
  have k3 := k2.trans h
  have k4 : 0 ≤ p0 ^ 2 * p1 ^ 4 := by positivity
  have k6 : (998 / 1000) * (p0 ^ 2 * p1 ^ 4) ≤ (1 - 2 / 10 ^ 4) ^ 2 * p0 ^ 2 * ((1 - 2 / 10 ^ 4) ^ 4 * p1 ^ 4) := by
    calc _ ≤ ((1 - 2 / 10 ^ 4) ^ 6) * (p0 ^ 2 * p1 ^ 4) := mul_le_mul_of_nonneg_right (by norm_num) k4
      _ = _ := by ring
  linarith

theorem rotO_near (hF : Fine r) {g : Givens R} {C S : ℝ} (h : RotNear fl g C S) {a b o : R} (ha : fl.isFinite a)
    (hb : fl.isFinite b) (ho : fl.isFinite o) (hA : |fl.val a| ≤ 17) (hB : |fl.val b| ≤ 4) (hO : |fl.val o| ≤ 5) :
    Near fl 1 31 1200 (rotO g a b o) (C * S * (fl.val a - fl.val b) + fl.val o * (C * C - S * S)) := by
  have cc := hF.mul 1 31 h.c h.c
  have ss := hF.mul 1 31 h.s h.s
  have cs := hF.mul 1 31 h.c h.s
  exact hF.add 31 1200 (hF.mul 21 720 cs (hF.sub 21 21 (Near.exact1 ha hA) (Near.exact1 hb hB)))
    (hF.mul 10 350 (Near.exact1 ho hO) (hF.sub 2 65 cc ss))

/-- In each QR step `off₀² off₁⁴` shrinks by a constant factor. -/
theorem sweep_contracts (q : RoundingQr fl) (k : RoundingMore fl) (v : RoundingSvd fl) (hF : Fine r) {t : State R}
    (B : Bounds (fl.val (t.diag 0)) (fl.val (t.diag 1)) (fl.val (t.diag 2)) (fl.val (t.off 0)) (fl.val (t.off 1)) 0)
    (fd : ∀ i, i < 3 → fl.isFinite (t.diag i)) (fo : ∀ i, i < 2 → fl.isFinite (t.off i))
    (l0 : 1 / 10 ^ 8 ≤ |fl.val (t.off 0)|) (l1 : 1 / 10 ^ 8 ≤ |fl.val (t.off 1)|) {t1 : State R}
    (ht : t1 = sweep 0 2 2 0 (t.diag 0 - wilkinsonShift (t.diag 1) (t.diag 2) (t.off 1)) (t.off 0) t)
    (m0 : 1 / 10 ^ 8 ≤ |fl.val (t1.off 0)|) (m1 : 1 / 10 ^ 8 ≤ |fl.val (t1.off 1)|) :
    fl.val (t1.off 0) ^ 2 * fl.val (t1.off 1) ^ 4 ≤ 3 / 10 * (fl.val (t.off 0) ^ 2 * fl.val (t.off 1) ^ 4) := by
  have hu := hF.hu
  have hu' := hF.u_le
  have hu0 := fl.u_nonneg
  have fd0 := fd 0 (by norm_num)
  have fd1 := fd 1 (by norm_num)
  have fd2 := fd 2 (by norm_num)
  have fo0 := fo 0 (by norm_num)
  have fo1 := fo 1 (by norm_num)
  -- the shift
  obtain ⟨w1, w2, A, σ, hA, hσ, hXy, hbX⟩ := shift_near q k v hF fd1 fd2 fo1 B.d1 B.d2 B.o1 (le_trans (by norm_num) l1)
  have nx := hF.sub (196 / 10) 20 (Near.exact1 fd0
    (show |fl.val (t.diag 0)| ≤ 35 / 10 by linarith [B.high01, abs_nonneg (fl.val (t.diag 1))])) (Near.exact1 w1 w2)
  set x := t.diag 0 - wilkinsonShift (t.diag 1) (t.diag 2) (t.off 1) with hx
  have hX : |fl.val x| ≤ 20 := by
    have := nx.abs_val hu zero_le_one (by norm_num)
    linarith
  have ex := nx.err1
  -- the first rotation
  obtain ⟨g1, n1, C1, S1, N1, e1, r1, hN1, hz1, hS1, -, hN30, hs1⟩ := cancelY_near q k v hF nx.fin fo0 hX
    (B.o0.trans (by norm_num)) (le_trans (by norm_num) l0)
  have ez : fl.val x = C1 * N1 := by linear_combination (-fl.val x) * r1.one + C1 * hN1 + S1 * hz1
  have eo : fl.val (t.off 0) = -S1 * N1 := by
    linear_combination (-fl.val (t.off 0)) * r1.one - S1 * hN1 + C1 * hz1
  obtain ⟨I1, J1, O1⟩ := rot_near hF r1 fd0 fd1 fo0 B.d0 B.d1 B.o0
  have no1 := Near.exact1 fo1 B.o1
  have bulge := hF.mul 4 62 (r1.s.neg r) no1
  have off1 := hF.mul 4 62 no1 r1.c
  have first := first_near hF r1 hs1 fd0 fd1 fo0 fo1 B.d0 B.d1 eo hN30 B.o1 l0
  have hS1' : |S1| ≤ 1 := abs_le_one_iff_mul_self_le_one.2 (by have := r1.one; linarith [mul_self_nonneg C1])
  have lb : 1 / 10 ^ 20 ≤ |fl.val (-g1.s * t.off 1)| := by
    have e2 : 1 / 10 ^ 18 * (1 / 10) ≤ |-S1 * fl.val (t.off 1)| := by
      rw [abs_mul, abs_neg]
      have : 3 / 10 ^ 10 ≤ |S1| := by linarith
      exact le_trans (by norm_num) (mul_le_mul this l1 (by norm_num) (abs_nonneg _))
    have e3 : |fl.val (-g1.s * t.off 1) - -S1 * fl.val (t.off 1)| ≤ 1 / 10 ^ 3 * |-S1 * fl.val (t.off 1)| := by
      have := (le_add_of_nonneg_left (abs_nonneg _)).trans first
      refine this.trans ?_
      rw [abs_mul, abs_neg]
      have e4 : 2530 * fl.u ≤ 1 / 10 ^ 3 * |fl.val (t.off 1)| := by linarith
      calc 2530 * (fl.u * |S1|) = 2530 * fl.u * |S1| := by ring
        _ ≤ 1 / 10 ^ 3 * |fl.val (t.off 1)| * |S1| := mul_le_mul_of_nonneg_right e4 (abs_nonneg _)
        _ = _ := by ring
    have e5 := abs_sub_abs_le_abs_sub (-S1 * fl.val (t.off 1)) (fl.val (-g1.s * t.off 1))
    rw [abs_sub_comm] at e5
    linarith
  -- the second rotation
  have hO1 : |fl.val (rotO g1 (t.diag 0) (t.diag 1) (t.off 0))| ≤ 20 := by
    have := O1.abs_val hu zero_le_one (by norm_num)
    linarith
  have hb1 : |fl.val (-g1.s * t.off 1)| ≤ 20 := by
    have := bulge.abs_val hu zero_le_one (by norm_num)
    linarith
  obtain ⟨g2, n2, C2, S2, N2, e2, r2, hN2, hz2, -, hn2, -⟩ := cancelY_near q k v hF O1.fin bulge.fin hO1 hb1 lb
  have O2 := rotO_near hF r2 J1.fin fd2 off1.fin (by
    have := J1.abs_val hu zero_le_one (by norm_num)
    linarith) B.d2 (by
    have := off1.abs_val hu zero_le_one (by norm_num)
    linarith)
  obtain ⟨-, -, -, s4, s5, -⟩ := sweep_eq e1 e2
  rw [← ht] at s4 s5
  -- the exact step
  obtain ⟨ρ, ρ0, hρ, hDS, hsize⟩ := step_real (z := fl.val x) (o0 := fl.val (t.off 0)) (o1 := fl.val (t.off 1))
    (d0 := fl.val (t.diag 0)) (d1 := fl.val (t.diag 1)) (d2 := fl.val (t.diag 2)) (X := A - σ)
    (y := fl.val (t.diag 2) - σ) (e1 := fl.val (t.diag 1) - (fl.val (t.diag 0) - fl.val x) - (A - σ))
    (e2 := fl.val (t.diag 2) - (fl.val (t.diag 0) - fl.val x) - (fl.val (t.diag 2) - σ)) (ε := 300 * fl.u)
    (by linarith) r1.one ez eo (by ring) (by ring) hXy hbX
    (by rw [abs_le] at hA hσ ex ⊢; constructor <;> linarith)
    (by rw [abs_le] at hA hσ ex ⊢; constructor <;> linarith) l0 l1 rfl rfl rfl rfl
  have oneO := O1.err1
  set α := C1 * S1 * (fl.val (t.diag 0) - fl.val (t.diag 1)) + fl.val (t.off 0) * (C1 * C1 - S1 * S1) with hα
  set β := -S1 * fl.val (t.off 1) with hβ
  set D := S1 * S1 * fl.val (t.diag 0) + C1 * C1 * fl.val (t.diag 1) + C1 * S1 * 2 * fl.val (t.off 0) -
    fl.val (t.diag 2) with hD
  set o := fl.val (t.off 1) * C1 with ho
  obtain ⟨t1', t2⟩ := turn_near (D := D) (o := o) r2.one hN2 hz2 first ρ0 hρ
  set P := (-(α * β * D) + o * (α ^ 2 - β ^ 2)) / ρ ^ 2 with hP
  have t2' : |C2 * S2 * D + o * (C2 * C2 - S2 * S2) - P| ≤ 10146 * fl.u := by
    refine t2.trans ?_
    rw [div_le_iff₀ ρ0]
    have := mul_le_mul_of_nonneg_left hDS (show 0 ≤ 2530 * fl.u by positivity)
    have : 0 ≤ fl.u * ρ := by positivity
    linarith
  obtain ⟨C2S2, CC2⟩ := unit_le r2.one
  have eP : |fl.val (t1.off 1) - P| ≤ 12000 * fl.u := by
    rw [s5]
    have a1 := O2.err1
    have a2 := J1.err1
    have a3 := off1.err1
    set J := fl.val (rotJ g1 (t.diag 0) (t.diag 1) (t.off 0))
    set w := fl.val (t.off 1 * g1.c)
    have b1 : |C2 * S2 * ((J - fl.val (t.diag 2)) - D)| ≤ 570 * fl.u := by
      rw [abs_mul]
      refine le_trans (mul_le_of_le_one_left (abs_nonneg _) C2S2) (le_of_eq_of_le ?_ a2)
      congr 1; rw [hD]; ring
    have b2 : |(w - o) * (C2 * C2 - S2 * S2)| ≤ 62 * fl.u := by
      rw [abs_mul]
      exact le_trans (mul_le_of_le_one_right (abs_nonneg _) CC2) a3
    rw [abs_le] at a1 b1 b2 t2' ⊢
    constructor <;> linarith
  have e0 : |fl.val (t1.off 0)| ≤ ρ + 2860 * fl.u := by
    rw [s4]
    have a1 := hn2.err1
    have a2 := abs_sub_abs_le_abs_sub (fl.val n2) N2
    have a3 : fl.u * |S1| ≤ fl.u := mul_le_of_le_one_right hu0 hS1'
    linarith
  exact size_err hu' e0 eP m0 m1 ρ0 (by positivity) hsize

theorem loop_step {eps : R} {k : ℕ} {t : State R} {s e : ℕ} (hse : e ≠ s) :
    loop eps (k + 2) (t, s, e) = loop eps (k + 1) (delimit eps (body eps t s e).1 (body eps t s e).2) := by
  rw [loop]
  simp only [if_neg hse, Nat.add_eq_zero_iff, one_ne_zero, and_false, if_false]

/-- The iteration ends if the first two rows are left. -/
theorem loop_from_one (eps : R) (n : ℕ) (t : State R) : loop eps (n + 2) (delimit eps t 1) ≠ none := by
  have h0 : ∀ x : State R, delimit eps x 0 = (x, 0, 0) := fun x => by simp [delimit, delimitEnd]
  have h : delimit eps t 1 = (t, 0, 1) ∨ delimit eps t 1 = (t, 0, 0) := by
    by_cases hc : Scalar.lt (eps * (Scalar.abs (t.diag 1) + Scalar.abs (t.diag 0))) (Scalar.abs (t.off 0)) = true
    · left; simp [delimit, delimitEnd, delimitStart, hc]
    · right; simp [delimit, delimitEnd, hc]
  rcases h with h | h <;> rw [h]
  · rw [loop_step (by norm_num)]
    have hb2 : (body eps t 0 1).2 = 0 := by simp [body]
    rw [hb2, h0, loop_done]
    exact Option.some_ne_none _
  · rw [loop_done]
    exact Option.some_ne_none _

/-- The iteration ends if the last two rows are left. -/
theorem loop_from_last (eps : R) (n : ℕ) (t : State R) : loop eps (n + 3) (t, 1, 2) ≠ none := by
  rw [loop_step (by norm_num)]
  have hb2 : (body eps t 1 2).2 = 1 := by simp [body]
  rw [hb2]
  exact loop_from_one eps n _

/-- The iteration ends. -/
theorem loop_converges_near (q : RoundingQr fl) (k : RoundingMore fl) (v : RoundingSvd fl) (hF : Fine r)
    {S : Matrix (Fin 3) (Fin 3) ℝ} (g : GramNear S) {eps : R} (he : EpsNear fl eps) (n : ℕ) :
    ∀ {ε : ℝ} {t : State R}, ε + n * (10260 * fl.u) ≤ 1 / 10 ^ 9 → Holds fl S ε t →
      (3 / 10 ^ 8 ≤ |fl.val (t.off 0)| → 3 / 10 ^ 8 ≤ |fl.val (t.off 1)| →
        fl.val (t.off 0) ^ 2 * fl.val (t.off 1) ^ 4 * (3 / 10) ^ n < (3 / 10 ^ 8) ^ 6) →
      loop eps (n + 3) (delimit eps t 2) ≠ none := by
  have hu0 := fl.u_nonneg
  induction n with
  | zero =>
    intro ε t hε h hs
    have hε' : ε ≤ 1 / 10 ^ 9 := by simpa using hε
    obtain ⟨B, a1, a2, a3, a4, b1, b2, b3, b4, -⟩ := h.facts q hF g hε' he
    have fo := h.2.2
    rcases delimit_two q k v (fo 0 (by norm_num)) (fo 1 (by norm_num)) a1 (le_trans (by norm_num) a2) b1 with
      ⟨hd, hc1, hc0⟩ | ⟨hd, hc1, hc0⟩ | ⟨hd, hc1⟩
    · have l0 := a2.trans hc0.le
      have l1 := b2.trans hc1.le
      have h1 := hs l0 l1
      have h2 := mul_le_mul (pow_le_pow_left₀ (by norm_num) l0 2) (pow_le_pow_left₀ (by norm_num) l1 4)
        (by positivity) (by positivity)
      rw [sq_abs, Even.pow_abs (by decide)] at h2
      rw [pow_zero, mul_one] at h1
      have h3 : ((3 : ℝ) / 10 ^ 8) ^ 2 * (3 / 10 ^ 8) ^ 4 = (3 / 10 ^ 8) ^ 6 := by ring
      linarith
    · rw [hd]; exact loop_from_last eps 0 _
    · rw [hd]; exact loop_from_one eps 1 _
  | succ n ih =>
    intro ε t hε h hs
    have hn0 : (0 : ℝ) ≤ n * (10260 * fl.u) := by positivity
    push_cast at hε
    have hε' : ε ≤ 1 / 10 ^ 9 := by linarith
    obtain ⟨B, a1, a2, a3, a4, b1, b2, b3, b4, -⟩ := h.facts q hF g hε' he
    have fo := h.2.2
    have fd := h.2.1
    rcases delimit_two q k v (fo 0 (by norm_num)) (fo 1 (by norm_num)) a1 (le_trans (by norm_num) a2) b1 with
      ⟨hd, hc1, hc0⟩ | ⟨hd, hc1, hc0⟩ | ⟨hd, hc1⟩
    · have m0 := a2.trans hc0.le
      have m1 := b2.trans hc1.le
      have l0 : 1 / 10 ^ 8 ≤ |fl.val (t.off 0)| := le_trans (by norm_num) m0
      have l1 : 1 / 10 ^ 8 ≤ |fl.val (t.off 1)| := le_trans (by norm_num) m1
      have hsz := hs m0 m1
      rw [hd, show n + 1 + 3 = n + 2 + 2 from rfl, loop_step (by norm_num)]
      obtain ⟨⟨u₁, u₂, u₃, hsh⟩, -, -⟩ := h
      obtain ⟨w1, w2, -⟩ := shift_near q k v hF (fd 1 (by norm_num)) (fd 2 (by norm_num)) (fo 1 (by norm_num)) B.d1
        B.d2 B.o1 (le_trans (by norm_num) l1)
      have nx := hF.sub (196 / 10) 20 (Near.exact1 (fd 0 (by norm_num))
        (show |fl.val (t.diag 0)| ≤ 35 / 10 by linarith [B.high01, abs_nonneg (fl.val (t.diag 1))])) (Near.exact1 w1 w2)
      have hX : |fl.val (t.diag 0 - wilkinsonShift (t.diag 1) (t.diag 2) (t.off 1))| ≤ 20 := by
        have := nx.abs_val hF.hu zero_le_one (by norm_num)
        linarith
      obtain ⟨v₁, v₂, v₃, hs', fd', fo'⟩ := sweep_near q k v hF g (by linarith) hsh fd fo nx.fin hX l0 l1
      have hH : Holds fl S (ε + 10260 * fl.u) (sweep 0 2 2 0 (t.diag 0 - wilkinsonShift (t.diag 1) (t.diag 2) (t.off 1))
        (t.off 0) t) := ⟨⟨v₁, v₂, v₃, hs'⟩, fd', fo'⟩
      have hb : body eps t 0 2 = (sweep 0 2 2 0 (t.diag 0 - wilkinsonShift (t.diag 1) (t.diag 2) (t.off 1)) (t.off 0) t,
          if Scalar.le (Scalar.abs ((sweep 0 2 2 0 (t.diag 0 - wilkinsonShift (t.diag 1) (t.diag 2) (t.off 1))
              (t.off 0) t).off 1)) (eps * (Scalar.abs ((sweep 0 2 2 0
              (t.diag 0 - wilkinsonShift (t.diag 1) (t.diag 2) (t.off 1)) (t.off 0) t).diag 1) +
              Scalar.abs ((sweep 0 2 2 0
              (t.diag 0 - wilkinsonShift (t.diag 1) (t.diag 2) (t.off 1)) (t.off 0) t).diag 2))) then 1 else 2) := by
        simp only [body]
        norm_num
        split <;> rfl
      have hC := fun m0 m1 => sweep_contracts q k v hF B fd fo l0 l1 rfl m0 m1
      set t1 := sweep 0 2 2 0 (t.diag 0 - wilkinsonShift (t.diag 1) (t.diag 2) (t.off 1)) (t.off 0) t
      rw [hb]
      split
      · exact loop_from_one eps (n + 1) _
      · refine ih (by linarith) hH fun c0 c1 => ?_
        have h1 := hC (le_trans (by norm_num) c0) (le_trans (by norm_num) c1)
        have h2 := mul_le_mul_of_nonneg_right h1 (show (0 : ℝ) ≤ (3 / 10) ^ n by positivity)
        refine lt_of_le_of_lt h2 (lt_of_eq_of_lt ?_ hsz)
        ring
    · rw [hd]; exact loop_from_last eps (n + 1) _
    · rw [hd]; exact loop_from_one eps (n + 2) _

end SvdNear
end CamGeom
