import Verif.Lemmas.FloatRound
import Verif.Spec.Ieee
import Verif.Spec.Rounding
import Verif.Spec.RoundingRays

/-!
# The floating-point formats satisfy the laws

`Flt f`, with exact operations followed by rounding, satisfies the special-value laws `Ieee` and the
rounding laws `Rounding`.
-/

namespace CamGeom

namespace Flt

variable {f g : Format} {z : Bool} {x : ℝ}

theorem ofReal_finite : (ofReal f z x).isFinite ↔ f.rnd |x| < 2 ^ f.emax := by
  rw [← Format.rnd_mag (abs_nonneg x)]
  unfold ofReal
  by_cases h : f.Mag (f.rnd |x|)
  · simp [h, isFinite]
  · simp [h, isFinite]

theorem ofReal_val (h : (ofReal f z x).isFinite) :
    (ofReal f z x).val = if x < 0 then -f.rnd |x| else f.rnd |x| := by
  have h' := (Format.rnd_mag (abs_nonneg x)).2 (ofReal_finite.1 h)
  unfold ofReal
  simp only [h', dite_true, val]
  by_cases h0 : x = 0
  · subst h0
    simp [Format.rnd_zero]
  · by_cases h1 : x < 0 <;> simp [h0, h1]

theorem ofReal_err (h : (ofReal f z x).isFinite) :
    |(ofReal f z x).val - x| = |f.rnd (|x|) - (|x|)| := by
  rw [ofReal_val h]
  split_ifs with h0
  · rw [abs_of_neg h0, ← abs_neg]
    congr 1
    ring
  · rw [abs_of_nonneg (not_lt.1 h0)]

theorem ofReal_ne_nan : ofReal f z x ≠ nan := by
  unfold ofReal
  by_cases h : f.Mag (f.rnd |x|) <;> simp [h]

/-- Numbers of the format are represented exactly. -/
theorem ofReal_exact (h : f.Mag |x|) : (ofReal f z x).isFinite ∧ (ofReal f z x).val = x := by
  have h1 : f.rnd |x| = |x| := Format.rnd_of_rep h.rep
  have h2 : (ofReal f z x).isFinite := ofReal_finite.2 (by rw [h1]; exact h.1)
  refine ⟨h2, ?_⟩
  rw [ofReal_val h2, h1]
  split_ifs with h0
  · rw [abs_of_neg h0, neg_neg]
  · exact abs_of_nonneg (not_lt.1 h0)

theorem abs_val (s : Bool) (h : f.Mag x) : |val (num s x h)| = x := by
  have := h.nonneg
  cases s <;> simp [val, abs_of_nonneg this]

theorem mag_val : ∀ a : Flt f, f.Mag |a.val|
  | num s x h => by rw [abs_val]; exact h
  | inf _ => ⟨by simp only [val, abs_zero]; positivity, 0, f.emin, by positivity, le_rfl, by simp [val]⟩
  | nan => ⟨by simp only [val, abs_zero]; positivity, 0, f.emin, by positivity, le_rfl, by simp [val]⟩

theorem val_eq_zero {s : Bool} {h : f.Mag x} : val (num s x h) = 0 ↔ x = 0 := by
  cases s <;> simp [val]

theorem mag_zero : f.Mag 0 := by
  have := mag_val (f := f) nan
  simpa [val] using this

theorem ofReal_zero : ofReal f z 0 = num z 0 mag_zero := by
  have h1 : f.rnd |0| = 0 := by rw [abs_zero, Format.rnd_zero]
  have h2 : f.Mag (f.rnd |0|) := by rw [h1]; exact mag_zero
  unfold ofReal
  simp only [h2, dite_true]
  congr 1

/-- A number of the format, rounded, is itself. -/
theorem ofReal_val_self (s : Bool) (h : f.Mag x) (hz : x ≠ 0 ∨ z = s) :
    ofReal f z (val (num s x h)) = num s x h := by
  by_cases hx : x = 0
  · subst hx
    rcases hz with hz | rfl
    · exact absurd rfl hz
    · have : val (num z 0 h) = 0 := val_eq_zero.2 rfl
      rw [this, ofReal_zero]
  · have h1 : f.rnd |val (num s x h)| = x := by rw [abs_val, Format.rnd_of_rep h.rep]
    have h2 : f.Mag (f.rnd |val (num s x h)|) := by rw [h1]; exact h
    have h3 : val (num s x h) ≠ 0 := fun k => hx (val_eq_zero.1 k)
    unfold ofReal
    simp only [h2, dite_true, if_neg h3]
    congr 1
    have := lt_of_le_of_ne h.nonneg (Ne.symm hx)
    cases s
    · simp [val, this.le]
    · simp [val, this]

theorem ofReal_lt (h : |x| ≤ 2 ^ (f.emax - 1)) : (ofReal f z x).isFinite :=
  ofReal_finite.2 (Format.rnd_lt (abs_nonneg x) h)

theorem ofReal_err_le (h : (ofReal f z x).isFinite) :
    |(ofReal f z x).val - x| ≤ f.u * (|x| + f.ω) := by
  rw [ofReal_err h]
  exact Format.rnd_err (abs_nonneg x)

/-- Numbers of the format are multiples of the least positive number. -/
theorem val_multiple (a : Flt f) : ∃ n : ℤ, a.val = n * 2 ^ f.emin := by
  obtain ⟨-, m, e, -, h1, h2⟩ := mag_val a
  have h3 : |a.val| = ((m * 2 ^ (e - f.emin).toNat : ℤ) : ℝ) * 2 ^ f.emin := by
    rw [h2, ← Format.int_scale m h1]
    have : (2 : ℝ) ^ f.emin ≠ 0 := by positivity
    field_simp
  rcases abs_choice a.val with h | h
  · exact ⟨_, h ▸ h3⟩
  · refine ⟨-(m * 2 ^ (e - f.emin).toNat : ℤ), ?_⟩
    rw [Int.cast_neg, neg_mul, ← h3, h, neg_neg]

/-- Sums have relative error `u` only: a subnormal sum is exact. -/
theorem ofReal_sum_err {a b : Flt f} (h : (ofReal f z (a.val + b.val)).isFinite) :
    |(ofReal f z (a.val + b.val)).val - (a.val + b.val)| ≤ f.u * |a.val + b.val| := by
  rw [ofReal_err h]
  obtain ⟨n, hn⟩ := val_multiple a
  obtain ⟨m, hm⟩ := val_multiple b
  refine Format.rnd_err_multiple (abs_nonneg _) (n := (n + m).natAbs) ?_
  rw [hn, hm, ← add_mul, abs_mul, abs_of_pos (show (0 : ℝ) < 2 ^ f.emin by positivity),
    ← Int.cast_add, ← Int.cast_abs, Int.abs_eq_natAbs]
  rfl

theorem neg_val (a : Flt f) : (neg a).val = -a.val := by
  rcases a with ⟨s, x, h⟩ | s | _
  · cases s <;> simp [neg, val]
  · simp [neg, val]
  · simp [neg, val]

theorem neg_finite (a : Flt f) : (neg a).isFinite ↔ a.isFinite := by
  cases a <;> simp [neg, isFinite]

theorem add_finite {a b : Flt f} (h : (add a b).isFinite) : a.isFinite ∧ b.isFinite := by
  rcases a with ⟨s, x, _⟩ | s | _ <;> rcases b with ⟨t, y, _⟩ | t | _ <;>
    simp only [add, isFinite, and_self] at h ⊢
  split_ifs at h <;> exact h.elim

theorem add_eq {a b : Flt f} (ha : a.isFinite) (hb : b.isFinite) :
    add a b = ofReal f (a.neg? && b.neg?) (a.val + b.val) := by
  rcases a with ⟨s, x, _⟩ | s | _ <;> rcases b with ⟨t, y, _⟩ | t | _ <;>
    simp only [add, isFinite, neg?] at ha hb ⊢

theorem mul_finite {a b : Flt f} (h : (mul a b).isFinite) : a.isFinite ∧ b.isFinite := by
  rcases a with ⟨s, x, _⟩ | s | _ <;> rcases b with ⟨t, y, _⟩ | t | _ <;>
    simp only [mul, isFinite, and_self, and_true, true_and] at h ⊢ <;> split_ifs at h <;> exact h.elim

theorem mul_eq {a b : Flt f} (ha : a.isFinite) (hb : b.isFinite) :
    mul a b = ofReal f (xor a.neg? b.neg?) (a.val * b.val) := by
  rcases a with ⟨s, x, _⟩ | s | _ <;> rcases b with ⟨t, y, _⟩ | t | _ <;>
    simp only [mul, isFinite, neg?] at ha hb ⊢

theorem div_finite {a b : Flt f} (h : (div a b).isFinite) :
    a.isFinite ∧ (b.isFinite → b.val ≠ 0) := by
  rcases a with ⟨s, x, hx⟩ | s | _ <;> rcases b with ⟨t, y, hy⟩ | t | _ <;>
    simp only [div, isFinite, true_and, false_imp_iff, true_imp_iff, and_true] at h ⊢
  intro h0
  rw [val_eq_zero] at h0
  rw [if_pos h0] at h
  split_ifs at h <;> exact h

theorem div_eq {a b : Flt f} (ha : a.isFinite) (hb : b.isFinite) (h0 : b.val ≠ 0) :
    div a b = ofReal f (xor a.neg? b.neg?) (a.val / b.val) := by
  rcases a with ⟨s, x, _⟩ | s | _ <;> rcases b with ⟨t, y, _⟩ | t | _ <;>
    simp only [div, isFinite, neg?] at ha hb ⊢
  rw [if_neg (fun k => h0 (val_eq_zero.2 k))]

theorem powLoop_nan : ∀ (k n : ℕ) (r : Flt f), n ≠ 0 → n < 2 ^ k → powLoop k n nan r = nan
  | 0, n, r, h0, h => by simp at h; exact absurd h h0
  | k + 1, n, r, h0, h => by
    have hm : ∀ r : Flt f, mul r nan = nan := fun r => by cases r <;> rfl
    unfold powLoop
    by_cases h1 : n / 2 = 0
    · have : n % 2 = 1 := by omega
      simp [h1, this, hm]
    · simp only [h1, if_false, hm]
      exact powLoop_nan k (n / 2) _ h1 (by rw [pow_succ] at h; omega)

theorem powi_nan {n : ℤ} (h : n ≠ 0) : powi (nan : Flt f) n = nan := by
  unfold powi
  rw [powLoop_nan _ _ _ (by omega) (by
    have := Nat.lt_two_pow_self (n := n.natAbs)
    rw [pow_succ]
    omega)]
  split_ifs
  · unfold div
    cases ofReal f false 1 <;> rfl
  · rfl

theorem mag_nat {n : ℕ} (h : n < 2 ^ f.p) : f.Mag n := by
  refine ⟨?_, Format.rep_nat h⟩
  have h1 : (n : ℝ) < 2 ^ (f.p : ℤ) := by
    rw [zpow_natCast]
    exact_mod_cast h
  exact h1.trans_le (zpow_le_zpow_right₀ (by norm_num) f.le_emax)

theorem small_lt {n : ℕ} (h : n < 8) : n < 2 ^ f.p :=
  h.trans_le ((Nat.pow_le_pow_right (by norm_num) f.three_le_p : 2 ^ 3 ≤ 2 ^ f.p))

theorem mag_one : f.Mag |1| := by simpa using mag_nat (f := f) (small_lt (n := 1) (by norm_num))

/-- Literals representable in both formats are exact. -/
theorem ofF64_exact (h : Format.b64.Mag |x|) (h' : f.Mag |x|) :
    (ofF64 f x).isFinite ∧ (ofF64 f x).val = x := by
  obtain ⟨h1, h2⟩ := ofReal_exact (z := false) h
  unfold ofF64
  revert h1 h2
  rcases ofReal Format.b64 false x with ⟨s, y, hy⟩ | s | _ <;> intro h1 h2 <;>
    simp only [isFinite] at h1
  simp only [cast]
  rw [h2]
  exact ofReal_exact h'

theorem ofF64_nat {n : ℕ} (h : n < 8) : (ofF64 f n).isFinite ∧ (ofF64 f n).val = n :=
  ofF64_exact (by simpa using mag_nat (small_lt h)) (by simpa using mag_nat (small_lt h))

theorem ofF64_neg_one : (ofF64 f (-1)).isFinite ∧ (ofF64 f (-1)).val = -1 :=
  ofF64_exact (by simpa using mag_one) (by simpa using mag_one)

theorem mag_quarter : f.Mag |1 / 4| := by
  have h1 : f.Rep (2 ^ (-2 : ℤ)) := Format.rep_pow (by
    have := f.three_le_p
    have := f.emin_le
    omega)
  have h2 : (|1 / 4| : ℝ) = 2 ^ (-2 : ℤ) := by rw [abs_of_pos (by norm_num)]; norm_num
  rw [h2]
  refine ⟨zpow_lt_zpow_right₀ (by norm_num) ?_, h1⟩
  have := f.three_le_p
  have := f.le_emax
  omega

/-- Finite numbers other than zeros are determined by their value. -/
theorem ext_val {a b : Flt f} (ha : a.isFinite) (hb : b.isFinite) (h : a.val = b.val) (h0 : a.val ≠ 0) :
    a = b := by
  rcases a with ⟨s, x, hx⟩ | s | _ <;> rcases b with ⟨t, y, hy⟩ | t | _ <;>
    simp only [isFinite] at ha hb
  have h1 := ofReal_val_self (z := false) s hx (.inl fun k => h0 (val_eq_zero.2 k))
  have h2 := ofReal_val_self (z := false) t hy (.inl fun k => h0 (h ▸ val_eq_zero.2 k))
  rw [← h1, ← h2, h]

end Flt

open Flt

variable {f : Format} {lib : Libm f}

/-- The special-value laws of IEEE 754 hold for the floating-point types. -/
noncomputable def RustFloat.ieee (f : Format) (lib : Libm f) : Ieee (RustFloat f lib) where
  isZero a := Flt.isFinite (f := f) a ∧ Flt.val (f := f) a = 0
  isFinite a := Flt.isFinite (f := f) a
  isNan a := (a : Flt f) = Flt.nan
  zero_finite h := h.1
  nan_not_finite h := by rw [h]; exact id
  lit_zero := by
    have := ofF64_nat (f := f) (n := 0) (by norm_num)
    show Flt.isFinite (ofF64 f ((0 : ℚ) : ℝ)) ∧ Flt.val (ofF64 f ((0 : ℚ) : ℝ)) = 0
    simpa using this
  zero_zero := by
    show Flt.isFinite (ofReal f false 0) ∧ Flt.val (ofReal f false 0) = 0
    rw [ofReal_zero]
    exact ⟨trivial, by simp [val]⟩
  lit_one_finite := by
    have := (ofF64_nat (f := f) (n := 1) (by norm_num)).1
    show Flt.isFinite (ofF64 f ((1 : ℚ) : ℝ))
    simpa using this
  one_finite := (ofReal_exact mag_one).1
  zero_neg h := ⟨(Flt.neg_finite _).2 h.1, (Flt.neg_val _).trans (by rw [h.2, neg_zero])⟩
  zero_add {a b} ha hb := by
    show Flt.isFinite (Flt.add a b) ∧ Flt.val (Flt.add a b) = 0
    rw [add_eq ha.1 hb.1, ha.2, hb.2, add_zero, ofReal_zero]
    exact ⟨trivial, by simp [val]⟩
  zero_mul {a b} ha hb := by
    show Flt.isFinite (Flt.mul a b) ∧ Flt.val (Flt.mul a b) = 0
    rw [mul_eq ha.1 hb, ha.2, zero_mul, ofReal_zero]
    exact ⟨trivial, by simp [val]⟩
  mul_zero {a b} ha hb := by
    show Flt.isFinite (Flt.mul a b) ∧ Flt.val (Flt.mul a b) = 0
    rw [mul_eq ha hb.1, hb.2, mul_zero, ofReal_zero]
    exact ⟨trivial, by simp [val]⟩
  zero_div_zero {a b} ha hb := by
    show Flt.div a b = Flt.nan
    obtain ⟨ha, ha0⟩ := ha
    obtain ⟨hb, hb0⟩ := hb
    rcases a with ⟨s, x, hx⟩ | s | _ <;> rcases b with ⟨t, y, hy⟩ | t | _ <;>
      simp only [isFinite] at ha hb
    rw [val_eq_zero] at ha0 hb0
    simp [div, ha0, hb0]
  div_zero {a b} hb h := (div_finite h).2 hb.1 hb.2
  zero_mul_inf {a b} ha hb := by
    show Flt.mul a b = Flt.nan
    obtain ⟨ha, ha0⟩ := ha
    rcases a with ⟨s, x, hx⟩ | s | _ <;> rcases b with ⟨t, y, hy⟩ | t | _ <;>
      simp only [isFinite, not_true, not_false_iff] at ha hb
    · rw [val_eq_zero] at ha0
      simp [mul, ha0]
    · rfl
  neg_inf h k := h ((Flt.neg_finite _).1 k)
  add_inf_left h k := h (add_finite k).1
  add_inf_right h k := h (add_finite k).2
  sub_inf_left h k := h (add_finite k).1
  sub_inf_right h k := h ((Flt.neg_finite _).1 (add_finite k).2)
  mul_inf_left h k := h (mul_finite k).1
  mul_inf_right h k := h (mul_finite k).2
  div_inf_left h k := h (div_finite k).1
  inf_div_inf {a b} ha hb := by
    show Flt.div a b = Flt.nan
    rcases a with ⟨s, x, hx⟩ | s | _ <;> rcases b with ⟨t, y, hy⟩ | t | _ <;>
      simp only [isFinite, not_true, not_false_iff] at ha hb <;> rfl
  neg_nan h := by rw [h]; rfl
  add_nan_left h := by rw [h]; rfl
  add_nan_right {a b} h := by rw [h]; show Flt.add a nan = nan; cases (a : Flt f) <;> rfl
  mul_nan_left h := by rw [h]; rfl
  mul_nan_right {a b} h := by rw [h]; show Flt.mul a nan = nan; cases (a : Flt f) <;> rfl
  div_nan_left h := by rw [h]; rfl
  div_nan_right {a b} h := by rw [h]; show Flt.div a nan = nan; cases (a : Flt f) <;> rfl
  powi_nan hn h := by rw [h]; exact Flt.powi_nan hn
  sqrt_zero {a} ha := by
    show Flt.isFinite (Flt.sqrt a) ∧ Flt.val (Flt.sqrt a) = 0
    obtain ⟨ha, ha0⟩ := ha
    rcases a with ⟨s, x, hx⟩ | s | _ <;> simp only [isFinite] at ha
    have h1 := val_eq_zero.1 ha0
    subst h1
    simp only [sqrt, ha0, lt_irrefl, if_false, Real.sqrt_zero, ofReal_zero]
    exact ⟨trivial, by simp⟩
  sqrt_inf {a} ha := by
    show ¬ Flt.isFinite (Flt.sqrt a)
    rcases a with ⟨s, x, hx⟩ | s | _ <;> simp only [isFinite, not_true, not_false_iff] at ha
    · cases s <;> simp [sqrt, isFinite]
    · exact id
  one_mul {a} ha := by
    have h1 := ofF64_nat (f := f) (n := 1) (by norm_num)
    have h2 : Flt.neg? (ofF64 f ((1 : ℕ) : ℝ)) = false := by
      rcases h : ofF64 f ((1 : ℕ) : ℝ) with ⟨s, y, hy⟩ | s | _
      · rw [h] at h1
        cases s
        · rfl
        · have := hy.nonneg
          have h3 := h1.2
          simp only [val, if_true, Nat.cast_one] at h3
          linarith
      all_goals rw [h] at h1; exact h1.1.elim
    simp only [Nat.cast_one] at h1 h2
    show Flt.mul (ofF64 f ((1 : ℚ) : ℝ)) a = a
    rw [Rat.cast_one, mul_eq h1.1 ha, h1.2, h2, one_mul]
    rcases a with ⟨s, x, hx⟩ | s | _ <;> simp only [isFinite] at ha
    exact ofReal_val_self s hx (.inr (by simp [neg?]))
  zero_add_eq {a b} ha hb hb0 := by
    show Flt.add a b = b
    have h0 : Flt.val (f := f) b ≠ 0 := fun h => hb0 ⟨hb, h⟩
    rw [add_eq ha.1 hb, ha.2, zero_add]
    rcases b with ⟨s, x, hx⟩ | s | _ <;> simp only [isFinite] at hb
    exact ofReal_val_self s hx (.inl fun h => h0 (val_eq_zero.2 h))
  div_self {a} ha ha0 := by
    have h0 : Flt.val (f := f) a ≠ 0 := fun h => ha0 ⟨ha, h⟩
    have h1 := ofF64_nat (f := f) (n := 1) (by norm_num)
    simp only [Nat.cast_one] at h1
    show Flt.div a a = ofF64 f ((1 : ℚ) : ℝ)
    rw [div_eq ha ha h0, div_self h0, Rat.cast_one]
    have h2 := ofReal_exact (z := xor (neg? (f := f) a) (neg? (f := f) a)) (mag_one (f := f))
    exact ext_val h2.1 h1.1 (h2.2.trans h1.2.symm) (by rw [h2.2]; norm_num)
  neg_finite h := (Flt.neg_finite _).2 h
  neg_not_zero {a} h k := h ⟨(Flt.neg_finite _).1 k.1, by
    have := k.2
    rw [show Flt.val (f := f) (-a) = _ from Flt.neg_val _] at this
    linarith⟩

theorem RustFloat.nanUnequal (f : Format) (lib : Libm f) : (RustFloat.ieee f lib).NanUnequal := by
  intro a b h
  show Flt.beq a b = false
  rcases h with h | h
  · rw [show (a : Flt f) = nan from h]; rfl
  · rw [show (b : Flt f) = nan from h]
    cases (a : Flt f) <;> rfl

theorem Flt.zero_sub {a b : Flt f} (ha : a.isFinite) (hb : b.isFinite) (h : a.val = b.val) :
    (Flt.add a (Flt.neg b)).isFinite ∧ (Flt.add a (Flt.neg b)).val = 0 := by
  rw [add_eq ha ((Flt.neg_finite _).2 hb), Flt.neg_val, h, add_neg_cancel, ofReal_zero]
  exact ⟨trivial, by simp [val]⟩

theorem Flt.zero_div {a b : Flt f} (ha : a.isFinite) (h : a.val = 0 ∨ ¬ b.isFinite)
    (hb : ¬ (b.isFinite ∧ b.val = 0)) (hn : b ≠ nan) :
    (Flt.div a b).isFinite ∧ (Flt.div a b).val = 0 := by
  rcases b with ⟨t, y, hy⟩ | t | _
  · have hb' : Flt.val (num t y hy) ≠ 0 := fun k => hb ⟨trivial, k⟩
    rcases h with h | h
    · rw [div_eq ha (b := num t y hy) trivial hb', h, _root_.zero_div, ofReal_zero]
      exact ⟨trivial, by simp [val]⟩
    · exact absurd trivial h
  · rcases a with ⟨s, x, hx⟩ | s | _ <;> simp only [isFinite] at ha
    simp only [div, ofReal_zero]
    exact ⟨trivial, by simp [val]⟩
  · exact absurd rfl hn

theorem RustFloat.zeros (f : Format) (lib : Libm f) : (RustFloat.ieee f lib).Zeros where
  zero_sub ha hb := Flt.zero_sub ha.1 hb.1 (ha.2.trans hb.2.symm)
  sub_self ha := Flt.zero_sub ha ha rfl
  zero_div ha hb hn := Flt.zero_div ha.1 (.inl ha.2) hb hn
  div_inf ha hb hn := Flt.zero_div ha (.inr hb) (fun h => hb h.1) hn

end CamGeom
