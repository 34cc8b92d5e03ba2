import Verif.Spec.Rounding
import Mathlib.Data.Int.Log
import Mathlib.Algebra.Order.Round
import Mathlib.Algebra.Order.Archimedean.Real.Basic
import Mathlib.Analysis.SpecialFunctions.Trigonometric.Basic
import Mathlib.Analysis.Real.Sqrt
import Mathlib.Tactic.Linarith
import Mathlib.Tactic.NormNum
import Mathlib.Tactic.Positivity
import Mathlib.Tactic.FieldSimp

/-!
# A model of the rounding laws: 53-bit arithmetic with overflow

Witnesses that `Rounding` is satisfiable with a nonzero unit roundoff.  Results are rounded to a 53-bit
significand (round to nearest); results of magnitude at least `2^1024` are not finite.
-/

namespace CamGeom

/-- A finite number, or `none` for infinities and NaN (witness, not part of `/repo`). -/
inductive Fp64
  | some (r : ℝ)
  | none

namespace Fp64

/-- Spacing of 53-bit numbers around `x`. -/
noncomputable def ulp (x : ℝ) : ℝ := 2 ^ (Int.log 2 |x| - 52)

/-- Round to nearest 53-bit number. -/
noncomputable def rnd (x : ℝ) : ℝ := round (x / ulp x) * ulp x

theorem ulp_pos (x : ℝ) : 0 < ulp x := by unfold ulp; positivity

theorem rnd_err (x : ℝ) : |rnd x - x| ≤ 2⁻¹ ^ 53 * |x| := by
  by_cases hx : x = 0
  · simp [rnd, hx]
  have hu := ulp_pos x
  have h1 : rnd x - x = -((x / ulp x - round (x / ulp x)) * ulp x) := by
    unfold rnd
    field_simp
    ring
  rw [h1, abs_neg, abs_mul, abs_of_pos hu]
  have h2 := abs_sub_round (x / ulp x)
  have h3 : (2 : ℝ) ^ Int.log 2 |x| ≤ |x| := Int.zpow_log_le_self (by norm_num) (abs_pos.2 hx)
  have h4 : ulp x = 2 ^ Int.log 2 |x| * 2⁻¹ ^ 52 := by
    unfold ulp
    rw [zpow_sub₀ (by norm_num)]
    norm_num [div_eq_mul_inv]
  calc |x / ulp x - round (x / ulp x)| * ulp x ≤ 1 / 2 * ulp x := by gcongr
    _ = 2⁻¹ ^ 53 * 2 ^ Int.log 2 |x| := by rw [h4]; ring
    _ ≤ _ := by gcongr

open Classical in
/-- Round, and overflow. -/
noncomputable def fl (x : ℝ) : Fp64 := if |rnd x| < 2 ^ 1024 then some (rnd x) else none

/-- Real value. -/
noncomputable def val : Fp64 → ℝ
  | some x => x
  | none => 0

/-- Finite. -/
def Finite' : Fp64 → Prop
  | some _ => True
  | none => False

/-- Apply a partial operation to finite arguments. -/
def lift2 (f : ℝ → ℝ → Fp64) : Fp64 → Fp64 → Fp64
  | some x, some y => f x y
  | _, _ => none

open Classical in
noncomputable instance : Scalar Fp64 where
  add := lift2 fun x y => if y = 0 then some x else if x = 0 then some y else fl (x + y)
  sub := lift2 fun x y => fl (x - y)
  mul := lift2 fun x y => if x = 0 ∨ y = 0 then some 0 else
    if x = 1 then some y else if y = 1 then some x else fl (x * y)
  div := lift2 fun x y => if y = 0 then none else if y = 1 then some x else fl (x / y)
  neg := fun x => match x with | some r => some (-r) | none => none
  zero := some 0
  one := some 1
  lit q := some q
  pi := fl Real.pi
  sqrt x := match x with | some x => if x < 0 then none else fl (Real.sqrt x) | none => none
  sin x := match x with | some x => fl (Real.sin x) | none => none
  cos x := match x with | some x => fl (Real.cos x) | none => none
  powi x n := match x with | some x => fl (x ^ n) | none => none
  abs x := match x with | some r => some |r| | none => none
  lt x y := match x, y with | some x, some y => decide (x < y) | _, _ => false
  le x y := match x, y with | some x, some y => decide (x ≤ y) | _, _ => false
  beq x y := match x, y with | some x, some y => decide (x = y) | _, _ => false
  isInf x := match x with | some _ => false | none => true

open Classical in
theorem add_some (x y : ℝ) : (some x : Fp64) + (some y : Fp64) =
    if y = 0 then some x else if x = 0 then some y else fl (x + y) := rfl
theorem sub_some (x y : ℝ) : (some x : Fp64) - (some y : Fp64) = fl (x - y) := rfl
open Classical in
theorem mul_some (x y : ℝ) : (some x : Fp64) * (some y : Fp64) =
    if x = 0 ∨ y = 0 then some 0 else
    if x = 1 then some y else if y = 1 then some x else fl (x * y) := rfl
open Classical in
theorem div_some (x y : ℝ) : (some x : Fp64) / (some y : Fp64) =
    if y = 0 then none else if y = 1 then some x else fl (x / y) := rfl

theorem fl_err {x : ℝ} (h : Finite' (fl x)) : |val (fl x) - x| ≤ 2⁻¹ ^ 53 * |x| := by
  unfold fl at *
  split_ifs at h ⊢
  · exact rnd_err x
  · exact False.elim h

theorem rnd_abs (x : ℝ) : |rnd x| ≤ 2 * |x| := by
  have h := rnd_err x
  have h2 := abs_add_le (rnd x - x) x
  rw [sub_add_cancel] at h2
  have h3 : (2⁻¹ : ℝ) ^ 53 * |x| ≤ 1 * |x| := by
    gcongr
    norm_num
  linarith

/-- Small numbers do not overflow. -/
theorem fl_finite {x : ℝ} (h : |x| ≤ 100) : fl x = some (rnd x) := by
  unfold fl
  rw [if_pos]
  have := rnd_abs x
  calc |rnd x| < 2 ^ 8 := by norm_num; linarith
    _ ≤ 2 ^ 1024 := pow_le_pow_right₀ (by norm_num) (by norm_num)

@[simp] theorem rnd_zero : rnd 0 = 0 := by simp [rnd]

@[simp] theorem rnd_one : rnd 1 = 1 := by
  unfold rnd ulp
  rw [abs_one, Int.log_one_right]
  norm_num

@[simp] theorem fl_zero : fl 0 = some 0 := by rw [fl_finite (by norm_num), rnd_zero]
@[simp] theorem fl_one : fl 1 = some 1 := by rw [fl_finite (by norm_num), rnd_one]

theorem exact_err (x e : ℝ) (he : 0 ≤ e) : |val (some x) - x| ≤ 2⁻¹ ^ 53 * e := by
  simp only [val, sub_self, abs_zero]
  positivity

@[simp] theorem finite_some (x : ℝ) : Finite' (some x) := trivial

/-- Round a small number and add a small number: no overflow. -/
theorem add_finite {x y : ℝ} (hx : |x| ≤ 40) (hy : |y| ≤ 40) :
    Finite' ((some x : Fp64) + (some y : Fp64)) := by
  rw [add_some]
  split_ifs
  · trivial
  · trivial
  · rw [fl_finite]
    · trivial
    · have := abs_add_le x y
      linarith

theorem none_add (y : Fp64) : (none : Fp64) + y = none := by cases y <;> rfl
theorem add_none (y : Fp64) : y + (none : Fp64) = none := by cases y <;> rfl
theorem none_sub (y : Fp64) : (none : Fp64) - y = none := by cases y <;> rfl
theorem sub_none (y : Fp64) : y - (none : Fp64) = none := by cases y <;> rfl
theorem none_mul (y : Fp64) : (none : Fp64) * y = none := by cases y <;> rfl
theorem mul_none (y : Fp64) : y * (none : Fp64) = none := by cases y <;> rfl
theorem none_div (y : Fp64) : (none : Fp64) / y = none := by cases y <;> rfl

/-- The rounding laws hold. -/
noncomputable def rounding : Rounding Fp64 where
  val := val
  isFinite := Finite'
  u := 2⁻¹ ^ 53
  ω := 0
  u_nonneg := by positivity
  ω_nonneg := le_rfl
  lit_zero := ⟨trivial, by simp [Scalar.lit, val]⟩
  lit_one := ⟨trivial, by simp [Scalar.lit, val]⟩
  lit_two := ⟨trivial, by simp [Scalar.lit, val]⟩
  zero := ⟨trivial, rfl⟩
  one := ⟨trivial, rfl⟩
  neg := by
    rintro (x | _) h
    · exact ⟨trivial, rfl⟩
    · exact h.elim
  add := by
    rintro (x | _) (y | _) h
    · refine ⟨trivial, trivial, ?_⟩
      change Finite' ((some x : Fp64) + (some y : Fp64)) at h
      change |val ((some x : Fp64) + (some y : Fp64)) - (x + y)| ≤ 2⁻¹ ^ 53 * |x + y|
      rw [add_some] at *
      split_ifs at h ⊢ with h1 h2
      · simpa [h1] using exact_err x |x| (abs_nonneg _)
      · simpa [h2] using exact_err y |y| (abs_nonneg _)
      · exact fl_err h
    · exact h.elim
    · exact h.elim
    · exact h.elim
  sub := by
    rintro (x | _) (y | _) h
    · exact ⟨trivial, trivial, fl_err h⟩
    · exact h.elim
    · exact h.elim
    · exact h.elim
  mul := by
    rintro (x | _) (y | _) h
    · refine ⟨trivial, trivial, ?_⟩
      change Finite' ((some x : Fp64) * (some y : Fp64)) at h
      change |val ((some x : Fp64) * (some y : Fp64)) - (x * y)| ≤ 2⁻¹ ^ 53 * (|x * y| + 0)
      rw [mul_some] at *
      rw [_root_.add_zero]
      split_ifs at h ⊢ with h1 h2 h3
      · have : x * y = 0 := by simpa using h1
        rw [this]
        exact exact_err 0 |0| (abs_nonneg _)
      · simpa [h2] using exact_err y |y| (abs_nonneg _)
      · simpa [h3] using exact_err x |x| (abs_nonneg _)
      · exact fl_err h
    · exact h.elim
    · exact h.elim
    · exact h.elim
  div := by
    rintro (x | _) (y | _) h
    · change Finite' ((some x : Fp64) / (some y : Fp64)) at h
      change _ ∧ (_ → y ≠ 0 ∧ |val ((some x : Fp64) / (some y : Fp64)) - (x / y)| ≤
        2⁻¹ ^ 53 * (|x / y| + 0))
      refine ⟨trivial, fun _ => ?_⟩
      rw [div_some] at *
      rw [_root_.add_zero]
      split_ifs at h ⊢ with h1 h2
      · exact h.elim
      · exact ⟨h1, by simpa [h2] using exact_err x |x| (abs_nonneg _)⟩
      · exact ⟨h1, fl_err h⟩
    · exact h.elim
    · exact h.elim
    · exact h.elim
  add_zero := by
    rintro (x | _) (y | _) hx hy h
    · have h0 : y = 0 := h
      change Finite' ((some x : Fp64) + (some y : Fp64)) ∧ val ((some x : Fp64) + (some y : Fp64)) = x
      rw [add_some, if_pos h0]
      exact ⟨trivial, rfl⟩
    all_goals first | exact hx.elim | exact hy.elim
  zero_add := by
    rintro (x | _) (y | _) hx hy h
    · have h0 : x = 0 := h
      change Finite' ((some x : Fp64) + (some y : Fp64)) ∧ val ((some x : Fp64) + (some y : Fp64)) = y
      rw [add_some, if_pos h0]
      split_ifs with h1
      · rw [h0, h1]; exact ⟨trivial, rfl⟩
      · exact ⟨trivial, rfl⟩
    all_goals first | exact hx.elim | exact hy.elim
  zero_mul := by
    rintro (x | _) (y | _) hx hy h
    · have h0 : x = 0 := h
      change Finite' ((some x : Fp64) * (some y : Fp64)) ∧ val ((some x : Fp64) * (some y : Fp64)) = 0
      rw [mul_some, if_pos (Or.inl h0)]
      exact ⟨trivial, rfl⟩
    all_goals first | exact hx.elim | exact hy.elim
  mul_zero := by
    rintro (x | _) (y | _) hx hy h
    · have h0 : y = 0 := h
      change Finite' ((some x : Fp64) * (some y : Fp64)) ∧ val ((some x : Fp64) * (some y : Fp64)) = 0
      rw [mul_some, if_pos (Or.inr h0)]
      exact ⟨trivial, rfl⟩
    all_goals first | exact hx.elim | exact hy.elim
  one_mul := by
    rintro (x | _) (y | _) hx hy h
    · have h0 : x = 1 := h
      change Finite' ((some x : Fp64) * (some y : Fp64)) ∧ val ((some x : Fp64) * (some y : Fp64)) = y
      rw [mul_some, if_pos h0]
      split_ifs with h1
      · have : y = 0 := by rcases h1 with h1 | h1 <;> [linarith; exact h1]
        rw [this]; exact ⟨trivial, rfl⟩
      · exact ⟨trivial, rfl⟩
    all_goals first | exact hx.elim | exact hy.elim
  mul_one := by
    rintro (x | _) (y | _) hx hy h
    · have h0 : y = 1 := h
      change Finite' ((some x : Fp64) * (some y : Fp64)) ∧ val ((some x : Fp64) * (some y : Fp64)) = x
      rw [mul_some, if_pos h0]
      split_ifs with h1 h2
      · have : x = 0 := by rcases h1 with h1 | h1 <;> [exact h1; linarith]
        rw [this]; exact ⟨trivial, rfl⟩
      · rw [h0, h2]; exact ⟨trivial, rfl⟩
      · exact ⟨trivial, rfl⟩
    all_goals first | exact hx.elim | exact hy.elim
  div_one := by
    rintro (x | _) (y | _) hx hy h
    · have h0 : y = 1 := h
      change Finite' ((some x : Fp64) / (some y : Fp64)) ∧ val ((some x : Fp64) / (some y : Fp64)) = x
      rw [div_some, if_neg (by rw [h0]; norm_num), if_pos h0]
      exact ⟨trivial, rfl⟩
    all_goals first | exact hx.elim | exact hy.elim
  mul_congr := by
    rintro (x | _) (x' | _) (y | _) (y' | _) h hx hy ex ey
    all_goals first | exact hx.elim | exact hy.elim | skip
    · have e1 : x = x' := ex
      have e2 : y = y' := ey
      rw [e1, e2]
    all_goals exact h.elim

end Fp64
end CamGeom
