import Verif.Spec.RoundingRange
import Verif.Lemmas.Rounding
import Mathlib.Tactic.Positivity

/-!
# Magnitudes of computed numbers
-/

namespace CamGeom

variable {R : Type} [Scalar R] {fl : Rounding R} {x y : R} {j k l : ℕ}

namespace InRange

theorem mono (h : InRange fl j x) (hjk : j ≤ k) : InRange fl k x :=
  ⟨h.1, h.2.trans (pow_le_pow_right₀ (by norm_num) hjk)⟩

theorem neg (r : RoundingRange fl) (h : InRange fl k x) : InRange fl k (-x) := by
  have h1 := r.neg h.1
  refine ⟨h1, ?_⟩
  rw [(fl.neg h1).2, abs_neg]
  exact h.2

theorem add (r : RoundingRange fl) (hx : InRange fl k x) (hy : InRange fl k y) (hk : k + 1 ≤ r.top) :
    InRange fl (k + 1) (x + y) :=
  r.add hx.1 hy.1 hk ((abs_add_le _ _).trans (by rw [pow_succ]; linarith [hx.2, hy.2]))

theorem sub (r : RoundingRange fl) (hx : InRange fl k x) (hy : InRange fl k y) (hk : k + 1 ≤ r.top) :
    InRange fl (k + 1) (x - y) :=
  r.sub hx.1 hy.1 hk ((abs_sub _ _).trans (by rw [pow_succ]; linarith [hx.2, hy.2]))

theorem mul (r : RoundingRange fl) (hx : InRange fl j x) (hy : InRange fl k y) (hk : j + k ≤ r.top) :
    InRange fl (j + k) (x * y) :=
  r.mul hx.1 hy.1 hk (by
    rw [abs_mul, pow_add]
    exact mul_le_mul hx.2 hy.2 (abs_nonneg _) (by positivity))

/-- Division by a number of magnitude at least `2^-l`. -/
theorem div (r : RoundingRange fl) (hx : InRange fl j x) (hy : fl.isFinite y)
    (h : 1 / 2 ^ l ≤ |fl.val y|) (hk : j + l ≤ r.top) : InRange fl (j + l) (x / y) := by
  have hy0 : 0 < |fl.val y| := lt_of_lt_of_le (by positivity) h
  refine r.div hx.1 hy (abs_pos.1 hy0) hk ?_
  rw [abs_div, div_le_iff₀ hy0, pow_add]
  have h1 : (1 : ℝ) ≤ 2 ^ l * |fl.val y| := by
    rw [div_le_iff₀ (by positivity)] at h
    linarith
  calc |fl.val x| ≤ 2 ^ j * 1 := by linarith [hx.2]
    _ ≤ 2 ^ j * (2 ^ l * |fl.val y|) := by gcongr
    _ = _ := by ring

theorem lit_zero (fl : Rounding R) : InRange fl k (Scalar.lit 0) :=
  ⟨fl.lit_zero.1, by rw [fl.lit_zero.2, abs_zero]; positivity⟩

theorem lit_one (fl : Rounding R) : InRange fl 0 (Scalar.lit 1) :=
  ⟨fl.lit_one.1, by rw [fl.lit_one.2]; norm_num⟩

theorem lit_two (fl : Rounding R) : InRange fl 1 (Scalar.lit 2) :=
  ⟨fl.lit_two.1, by rw [fl.lit_two.2]; norm_num⟩

theorem zero (fl : Rounding R) : InRange fl k (0 : R) :=
  ⟨fl.zero.1, by rw [fl.zero.2, abs_zero]; positivity⟩

theorem one (fl : Rounding R) : InRange fl 0 (1 : R) :=
  ⟨fl.one.1, by rw [fl.one.2]; norm_num⟩

end InRange

end CamGeom
