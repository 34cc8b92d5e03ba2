import Verif.Spec.Rounding
import Mathlib.Tactic.Linarith
import Mathlib.Tactic.Positivity
import Mathlib.Tactic.Ring
import Mathlib.Tactic.GCongr
import Mathlib.Tactic.FieldSimp
import Mathlib.Algebra.Order.Field.Basic
import Mathlib.Algebra.Order.AbsoluteValue.Basic
import Mathlib.Algebra.Order.GroupWithZero.Basic

/-!
# Error calculus

`fl.Approx k B x X`: the computed `x` has gone through at most `k` roundings of a quantity of magnitude
`B` whose exact value is `X`.
-/

namespace CamGeom
namespace Rounding

variable {R : Type} [Scalar R] (fl : Rounding R)

/-- `x` computes `X` with error at most `((1+u)^k - 1) * B`. -/
def Approx (k : ℕ) (B : ℝ) (x : R) (X : ℝ) : Prop :=
  |X| ≤ B ∧ |fl.val x - X| ≤ ((1 + fl.u) ^ k - 1) * B

variable {fl} {k k' l : ℕ} {B B' C : ℝ} {x y : R} {X Y : ℝ}

theorem one_le_pow (fl : Rounding R) (k : ℕ) : 1 ≤ (1 + fl.u) ^ k :=
  one_le_pow₀ (by linarith [fl.u_nonneg])

theorem Approx.nonneg (h : fl.Approx k B x X) : 0 ≤ B := (abs_nonneg _).trans h.1

theorem Approx.exact (fl : Rounding R) (x : R) : fl.Approx 0 |fl.val x| x (fl.val x) := by
  simp [Approx]

theorem Approx.of_val (fl : Rounding R) {x : R} (h : fl.val x = X) : fl.Approx 0 |X| x X := by
  simp [Approx, h]

theorem Approx.mono (h : fl.Approx k B x X) (hk : k ≤ k') (hB : B ≤ B') : fl.Approx k' B' x X := by
  have h0 := h.nonneg
  have h1 := one_le_pow fl k
  refine ⟨h.1.trans hB, h.2.trans ?_⟩
  have h2 : (1 + fl.u) ^ k ≤ (1 + fl.u) ^ k' :=
    pow_le_pow_right₀ (by linarith [fl.u_nonneg]) hk
  apply mul_le_mul (by linarith) hB h0 (by linarith)

theorem Approx.abs_val (h : fl.Approx k B x X) : |fl.val x| ≤ (1 + fl.u) ^ k * B := by
  have := abs_add_le (fl.val x - X) X
  rw [sub_add_cancel] at this
  nlinarith [h.1, h.2]

theorem Approx.congr (h : fl.Approx k B x X) (e : X = Y) : fl.Approx k B x Y := e ▸ h

theorem Approx.of_eq (h : fl.Approx k B x X) (e : fl.val y = fl.val x) : fl.Approx k B y X := by
  unfold Approx at *
  rwa [e]

/-- One more rounding. -/
theorem Approx.round {z : R} {w : ℝ} (h1 : |X| ≤ B) (h2 : |w - X| ≤ ((1 + fl.u) ^ k - 1) * B)
    {e : ℝ} (he : 0 ≤ e) (h3 : |fl.val z - w| ≤ fl.u * (|w| + e)) : fl.Approx (k + 1) (B + e) z X := by
  have hu := fl.u_nonneg
  have hp := one_le_pow fl k
  have hB : 0 ≤ B := (abs_nonneg _).trans h1
  have hw : |w| ≤ (1 + fl.u) ^ k * B := by
    have := abs_add_le (w - X) X
    rw [sub_add_cancel] at this
    nlinarith
  refine ⟨by linarith, ?_⟩
  have h4 : |fl.val z - X| ≤ |fl.val z - w| + |w - X| := by
    have := abs_add_le (fl.val z - w) (w - X)
    rwa [sub_add_sub_cancel] at this
  have h5 : fl.u * (|w| + e) ≤ fl.u * ((1 + fl.u) ^ k * B + e) := by gcongr
  have h6 : fl.u * e ≤ ((1 + fl.u) ^ (k + 1) - 1) * e := by
    have : fl.u ≤ (1 + fl.u) ^ (k + 1) - 1 := by rw [pow_succ]; nlinarith
    gcongr
  rw [pow_succ] at *
  nlinarith

theorem Approx.add (hf : fl.isFinite (x + y)) (hx : fl.Approx k B x X) (hy : fl.Approx k C y Y) :
    fl.Approx (k + 1) (B + C) (x + y) (X + Y) := by
  have h : fl.Approx (k + 1) (B + C + 0) (x + y) (X + Y) := by
    refine Approx.round (w := fl.val x + fl.val y) ?_ ?_ le_rfl ?_
    · exact (abs_add_le _ _).trans (add_le_add hx.1 hy.1)
    · have := abs_add_le (fl.val x - X) (fl.val y - Y)
      rw [show fl.val x + fl.val y - (X + Y) = fl.val x - X + (fl.val y - Y) by ring, mul_add]
      linarith [hx.2, hy.2]
    · simpa using (fl.add hf).2.2
  simpa using h

theorem Approx.sub (hf : fl.isFinite (x - y)) (hx : fl.Approx k B x X) (hy : fl.Approx k C y Y) :
    fl.Approx (k + 1) (B + C) (x - y) (X - Y) := by
  have h : fl.Approx (k + 1) (B + C + 0) (x - y) (X - Y) := by
    refine Approx.round (w := fl.val x - fl.val y) ?_ ?_ le_rfl ?_
    · exact (abs_sub _ _).trans (add_le_add hx.1 hy.1)
    · have := abs_sub (fl.val x - X) (fl.val y - Y)
      rw [show fl.val x - fl.val y - (X - Y) = fl.val x - X - (fl.val y - Y) by ring, mul_add]
      linarith [hx.2, hy.2]
    · simpa using (fl.sub hf).2.2
  simpa using h

theorem Approx.neg (hf : fl.isFinite (-x)) (hx : fl.Approx k B x X) : fl.Approx k B (-x) (-X) := by
  refine ⟨by simpa using hx.1, ?_⟩
  rw [(fl.neg hf).2, show -fl.val x - -X = -(fl.val x - X) by ring, abs_neg]
  exact hx.2

theorem Approx.mul (hf : fl.isFinite (x * y)) (hx : fl.Approx k B x X) (hy : fl.Approx l C y Y) :
    fl.Approx (k + l + 1) (B * C + fl.ω) (x * y) (X * Y) := by
  refine Approx.round (w := fl.val x * fl.val y) ?_ ?_ fl.ω_nonneg (fl.mul hf).2.2
  · rw [abs_mul]
    exact mul_le_mul hx.1 hy.1 (abs_nonneg _) hx.nonneg
  · rw [show fl.val x * fl.val y - X * Y =
      (fl.val x - X) * fl.val y + X * (fl.val y - Y) by ring, pow_add]
    refine (abs_add_le _ _).trans ?_
    rw [abs_mul, abs_mul]
    have h1 : |fl.val x - X| * |fl.val y| ≤ (((1 + fl.u) ^ k - 1) * B) * ((1 + fl.u) ^ l * C) :=
      mul_le_mul hx.2 hy.abs_val (abs_nonneg _) ((abs_nonneg _).trans hx.2)
    have h2 : |X| * |fl.val y - Y| ≤ B * (((1 + fl.u) ^ l - 1) * C) :=
      mul_le_mul hx.1 hy.2 (abs_nonneg _) hx.nonneg
    linarith

/-- Division by an exactly known number. -/
theorem Approx.div (hf : fl.isFinite (x / y)) (hfy : fl.isFinite y) (hx : fl.Approx k B x X) :
    fl.Approx (k + 1) (B / |fl.val y| + fl.ω) (x / y) (X / fl.val y) := by
  obtain ⟨hy0, hd⟩ := (fl.div hf).2 hfy
  have hpos : 0 < |fl.val y| := abs_pos.2 hy0
  refine Approx.round (w := fl.val x / fl.val y) ?_ ?_ fl.ω_nonneg hd
  · rw [abs_div]
    gcongr
    exact hx.1
  · rw [← sub_div, abs_div, ← mul_div_assoc]
    gcongr
    exact hx.2

/-- `x`, if finite, computes `X` with error at most `((1+u)^k - 1) * B`. -/
def Comp (fl : Rounding R) (k : ℕ) (B : ℝ) (x : R) (X : ℝ) : Prop := fl.isFinite x → fl.Approx k B x X

theorem Comp.exact (fl : Rounding R) (x : R) : fl.Comp 0 |fl.val x| x (fl.val x) :=
  fun _ => Approx.exact fl x

theorem Comp.of_le {x : R} (h : |fl.val x| ≤ B) : fl.Comp 0 B x (fl.val x) :=
  fun _ => (Approx.exact fl x).mono le_rfl h

theorem Comp.mono (h : fl.Comp k B x X) (hk : k ≤ k') (hB : B ≤ B') : fl.Comp k' B' x X :=
  fun hf => (h hf).mono hk hB

theorem Comp.congr (h : fl.Comp k B x X) (e : X = Y) : fl.Comp k B x Y := e ▸ h

theorem Comp.add (hx : fl.Comp k B x X) (hy : fl.Comp k C y Y) :
    fl.Comp (k + 1) (B + C) (x + y) (X + Y) :=
  fun hf => Approx.add hf (hx (fl.add hf).1) (hy (fl.add hf).2.1)

theorem Comp.sub (hx : fl.Comp k B x X) (hy : fl.Comp k C y Y) :
    fl.Comp (k + 1) (B + C) (x - y) (X - Y) :=
  fun hf => Approx.sub hf (hx (fl.sub hf).1) (hy (fl.sub hf).2.1)

theorem Comp.neg (hx : fl.Comp k B x X) : fl.Comp k B (-x) (-X) :=
  fun hf => Approx.neg hf (hx (fl.neg hf).1)

theorem Comp.mul (hx : fl.Comp k B x X) (hy : fl.Comp l C y Y) :
    fl.Comp (k + l + 1) (B * C + fl.ω) (x * y) (X * Y) :=
  fun hf => Approx.mul hf (hx (fl.mul hf).1) (hy (fl.mul hf).2.1)

theorem Comp.two (fl : Rounding R) : fl.Comp 0 2 (Scalar.lit 2 : R) 2 := fun _ => by
  have := Approx.of_val fl fl.lit_two.2
  rwa [abs_two] at this

end Rounding
end CamGeom
