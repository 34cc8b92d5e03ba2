import Verif.Lemmas.FloatLaws
import Verif.Spec.RoundingPowi
import Verif.Spec.RoundingView
import Verif.Props.InvalidRays

/-!
# The floating-point formats satisfy the rounding laws

With `u = 2^-p` and `ω = 2^(emin + p - 1)`.
-/

namespace CamGeom

namespace Flt

variable {f : Format} {a b : Flt f}

theorem add_law (h : (add a b).isFinite) : a.isFinite ∧ b.isFinite ∧
    |(add a b).val - (a.val + b.val)| ≤ f.u * |a.val + b.val| := by
  obtain ⟨ha, hb⟩ := add_finite h
  refine ⟨ha, hb, ?_⟩
  rw [add_eq ha hb] at h ⊢
  exact ofReal_sum_err h

theorem sub_law (h : (add a (neg b)).isFinite) : a.isFinite ∧ b.isFinite ∧
    |(add a (neg b)).val - (a.val - b.val)| ≤ f.u * |a.val - b.val| := by
  obtain ⟨h1, h2, h3⟩ := add_law h
  rw [neg_val, ← sub_eq_add_neg] at h3
  exact ⟨h1, (neg_finite _).1 h2, h3⟩

theorem mul_law (h : (mul a b).isFinite) : a.isFinite ∧ b.isFinite ∧
    |(mul a b).val - a.val * b.val| ≤ f.u * (|a.val * b.val| + f.ω) := by
  obtain ⟨ha, hb⟩ := mul_finite h
  refine ⟨ha, hb, ?_⟩
  rw [mul_eq ha hb] at h ⊢
  exact ofReal_err_le h

theorem div_law (h : (div a b).isFinite) : a.isFinite ∧ (b.isFinite → b.val ≠ 0 ∧
    |(div a b).val - a.val / b.val| ≤ f.u * (|a.val / b.val| + f.ω)) := by
  obtain ⟨ha, hb⟩ := div_finite h
  refine ⟨ha, fun hb' => ⟨hb hb', ?_⟩⟩
  rw [div_eq ha hb' (hb hb')] at h ⊢
  exact ofReal_err_le h

theorem add_exact (ha : a.isFinite) (hb : b.isFinite) (h : f.Mag |a.val + b.val|) :
    (add a b).isFinite ∧ (add a b).val = a.val + b.val := by
  rw [add_eq ha hb]
  exact ofReal_exact h

theorem mul_exact (ha : a.isFinite) (hb : b.isFinite) (h : f.Mag |a.val * b.val|) :
    (mul a b).isFinite ∧ (mul a b).val = a.val * b.val := by
  rw [mul_eq ha hb]
  exact ofReal_exact h

theorem div_exact (ha : a.isFinite) (hb : b.isFinite) (h0 : b.val ≠ 0) (h : f.Mag |a.val / b.val|) :
    (div a b).isFinite ∧ (div a b).val = a.val / b.val := by
  rw [div_eq ha hb h0]
  exact ofReal_exact h

theorem mul_congr {a' b' : Flt f} (h : (mul a b).isFinite) (ha' : a'.isFinite) (hb' : b'.isFinite)
    (h1 : a.val = a'.val) (h2 : b.val = b'.val) : (mul a b).val = (mul a' b').val := by
  obtain ⟨ha, hb⟩ := mul_finite h
  rw [mul_eq ha hb, h1, h2] at h ⊢
  rw [mul_eq ha' hb']
  have h' : (ofReal f (xor a'.neg? b'.neg?) (a'.val * b'.val)).isFinite := by
    rw [ofReal_finite] at h ⊢
    exact h
  rw [ofReal_val h, ofReal_val h']

/-- Square roots of positive numbers are never subnormal. -/
theorem ω_le_sqrt {x : ℝ} (hx : f.Mag x) (h0 : 0 < x) : f.ω ≤ Real.sqrt x := by
  have h1 : (2 : ℝ) ^ f.emin ≤ x := by
    obtain ⟨-, m, e, -, h2, rfl⟩ := hx
    have hm : 1 ≤ m := by
      by_contra h
      have : m = 0 := by omega
      subst this
      simp at h0
    have h3 : (1 : ℝ) ≤ m := by exact_mod_cast hm
    calc (2 : ℝ) ^ f.emin ≤ 2 ^ e := zpow_le_zpow_right₀ (by norm_num) h2
      _ ≤ m * 2 ^ e := le_mul_of_one_le_left (by positivity) h3
  apply Real.le_sqrt_of_sq_le
  refine le_trans ?_ h1
  unfold Format.ω
  rw [← zpow_natCast, ← zpow_mul]
  apply zpow_le_zpow_right₀ (by norm_num)
  have := f.emin_le
  have := f.three_le_p
  push_cast
  omega

theorem sqrt_law (h : (sqrt a).isFinite) : a.isFinite ∧ 0 ≤ a.val ∧
    |(sqrt a).val - Real.sqrt a.val| ≤ f.u * Real.sqrt a.val := by
  rcases a with ⟨s, x, hx⟩ | s | _
  · refine ⟨trivial, ?_⟩
    simp only [sqrt] at h ⊢
    by_cases h0 : val (num s x hx) < 0
    · rw [if_pos h0] at h
      exact h.elim
    rw [if_neg h0] at h ⊢
    refine ⟨not_lt.1 h0, ?_⟩
    have hv : val (num s x hx) = x := by
      have := abs_val s hx
      rwa [abs_of_nonneg (not_lt.1 h0)] at this
    rw [hv, ofReal_err h, abs_of_nonneg (Real.sqrt_nonneg x)]
    rcases hx.nonneg.eq_or_lt with rfl | hx0
    · simp [Format.rnd_zero]
    · exact Format.rnd_err_normal (ω_le_sqrt hx hx0)
  · cases s <;> simp [sqrt, isFinite] at h
  · exact h.elim

theorem one_mul_eq (a : Flt f) : mul (ofReal f false 1) a = a := by
  have h1 := ofReal_exact (z := false) (mag_one (f := f))
  have h2 : (ofReal f false 1).neg? = false := by
    rcases h : ofReal f false 1 with ⟨s, y, hy⟩ | s | _
    · rw [h] at h1
      cases s
      · rfl
      · have := hy.nonneg
        have h3 := h1.2
        simp only [val, if_true] at h3
        linarith
    all_goals rw [h] at h1; exact h1.1.elim
  rcases a with ⟨s, x, hx⟩ | s | _
  · rw [mul_eq (b := num s x hx) h1.1 trivial, h1.2, one_mul, h2]
    exact ofReal_val_self s hx (.inr (by simp [neg?]))
  · rcases h : ofReal f false 1 with ⟨t, y, hy⟩ | t | _
    · rw [h] at h1 h2
      have h3 : y ≠ 0 := fun k => by
        have h3 := (val_eq_zero (s := t) (h := hy)).2 k
        rw [h1.2] at h3
        norm_num at h3
      simp only [neg?] at h2
      simp [mul, h3, h2]
    all_goals rw [h] at h1; exact h1.1.elim
  · cases ofReal f false 1 <;> rfl

theorem powi_two (a : Flt f) : powi a 2 = mul a a := by
  simp [powi, powLoop, one_mul_eq]

theorem powi_two_law (h : (powi a 2).isFinite) : a.isFinite ∧
    |(powi a 2).val - a.val * a.val| ≤ f.u * (|a.val * a.val| + f.ω) := by
  rw [powi_two] at h ⊢
  exact ⟨(mul_law h).1, (mul_law h).2.2⟩

theorem powi_neg_two (a : Flt f) : powi a (-2) = div (ofReal f false 1) (mul a a) := by
  simp [powi, powLoop, one_mul_eq]

theorem lt_iff (ha : a.isFinite) (hb : b.isFinite) : lt a b = true ↔ a.val < b.val := by
  rcases a with ⟨s, x, hx⟩ | s | _ <;> rcases b with ⟨t, y, hy⟩ | t | _ <;>
    simp only [isFinite] at ha hb
  simp [lt]

end Flt

open Flt

/-- The floating-point types satisfy the rounding laws. -/
noncomputable def RustFloat.rounding (f : Format) (lib : Libm f) : Rounding (RustFloat f lib) where
  val a := Flt.val (f := f) a
  isFinite a := Flt.isFinite (f := f) a
  u := f.u
  ω := f.ω
  u_nonneg := f.u_pos.le
  ω_nonneg := f.ω_pos.le
  lit_zero := by
    show Flt.isFinite (ofF64 f ((0 : ℚ) : ℝ)) ∧ Flt.val (ofF64 f ((0 : ℚ) : ℝ)) = 0
    simpa using ofF64_nat (f := f) (n := 0) (by norm_num)
  lit_one := by
    show Flt.isFinite (ofF64 f ((1 : ℚ) : ℝ)) ∧ Flt.val (ofF64 f ((1 : ℚ) : ℝ)) = 1
    simpa using ofF64_nat (f := f) (n := 1) (by norm_num)
  lit_two := by
    show Flt.isFinite (ofF64 f ((2 : ℚ) : ℝ)) ∧ Flt.val (ofF64 f ((2 : ℚ) : ℝ)) = 2
    simpa using ofF64_nat (f := f) (n := 2) (by norm_num)
  zero := by
    show Flt.isFinite (ofReal f false 0) ∧ Flt.val (ofReal f false 0) = 0
    rw [ofReal_zero]
    exact ⟨trivial, by simp [Flt.val]⟩
  one := ofReal_exact mag_one
  neg h := ⟨(Flt.neg_finite _).1 h, Flt.neg_val _⟩
  add h := add_law h
  sub h := sub_law h
  mul h := mul_law h
  div h := div_law h
  add_zero {a b} ha hb h := by
    have h' : Flt.val (f := f) a + Flt.val (f := f) b = Flt.val (f := f) a := by
      rw [show Flt.val (f := f) b = 0 from h, add_zero]
    have := add_exact (f := f) ha hb (by rw [h']; exact mag_val _)
    rw [h'] at this
    exact this
  zero_add {a b} ha hb h := by
    have h' : Flt.val (f := f) a + Flt.val (f := f) b = Flt.val (f := f) b := by
      rw [show Flt.val (f := f) a = 0 from h, zero_add]
    have := add_exact (f := f) ha hb (by rw [h']; exact mag_val _)
    rw [h'] at this
    exact this
  zero_mul {a b} ha hb h := by
    have h' : Flt.val (f := f) a * Flt.val (f := f) b = 0 := by
      rw [show Flt.val (f := f) a = 0 from h, zero_mul]
    have := mul_exact (f := f) ha hb (by rw [h', abs_zero]; exact mag_zero)
    rw [h'] at this
    exact this
  mul_zero {a b} ha hb h := by
    have h' : Flt.val (f := f) a * Flt.val (f := f) b = 0 := by
      rw [show Flt.val (f := f) b = 0 from h, mul_zero]
    have := mul_exact (f := f) ha hb (by rw [h', abs_zero]; exact mag_zero)
    rw [h'] at this
    exact this
  one_mul {a b} ha hb h := by
    have h' : Flt.val (f := f) a * Flt.val (f := f) b = Flt.val (f := f) b := by
      rw [show Flt.val (f := f) a = 1 from h, one_mul]
    have := mul_exact (f := f) ha hb (by rw [h']; exact mag_val _)
    rw [h'] at this
    exact this
  mul_one {a b} ha hb h := by
    have h' : Flt.val (f := f) a * Flt.val (f := f) b = Flt.val (f := f) a := by
      rw [show Flt.val (f := f) b = 1 from h, mul_one]
    have := mul_exact (f := f) ha hb (by rw [h']; exact mag_val _)
    rw [h'] at this
    exact this
  div_one {a b} ha hb h := by
    have h' : Flt.val (f := f) a / Flt.val (f := f) b = Flt.val (f := f) a := by
      rw [show Flt.val (f := f) b = 1 from h, div_one]
    have := div_exact (f := f) ha hb (by rw [show Flt.val (f := f) b = 1 from h]; norm_num)
      (by rw [h']; exact mag_val _)
    rw [h'] at this
    exact this
  mul_congr h ha hb h1 h2 := Flt.mul_congr h ha hb h1 h2

/-- The literal `1e-7`, rounded to `f64` and then to the format, has relative error at most `u`. -/
def Format.Cutoff (f : Format) : Prop :=
  (ofF64 f (1 / 10000000)).isFinite ∧
    |(ofF64 f (1 / 10000000)).val - 1 / 10000000| ≤ f.u * (1 / 10000000)

noncomputable def RustFloat.roundingMore {f : Format} (lib : Libm f) (hf : f.Cutoff) :
    RoundingMore (RustFloat.rounding f lib) where
  big := 2 ^ (f.emax - 1)
  sqrt h := sqrt_law h
  powi_two h := powi_two_law h
  lit_neg_one := by
    show Flt.isFinite (ofF64 f ((-1 : ℚ) : ℝ)) ∧ Flt.val (ofF64 f ((-1 : ℚ) : ℝ)) = -1
    rw [Rat.cast_neg, Rat.cast_one]
    exact ofF64_neg_one
  lit_cutoff := by
    have e : ((1 / 10000000 : ℚ) : ℝ) = 1 / 10000000 := by norm_num
    show Flt.isFinite (ofF64 f ((1 / 10000000 : ℚ) : ℝ)) ∧
      |Flt.val (ofF64 f ((1 / 10000000 : ℚ) : ℝ)) - 1 / 10000000| ≤ f.u * (1 / 10000000)
    rw [e]
    exact hf
  lt_iff ha hb := Flt.lt_iff ha hb
  add_finite {a b} ha hb h := by
    show Flt.isFinite (Flt.add (f := f) a b)
    rw [add_eq ha hb]
    exact ofReal_lt h

theorem Flt.cast_finite {f g : Format} {a : Flt f} (h : (cast g a).isFinite) : a.isFinite := by
  cases a <;> trivial

theorem Flt.cast_eq {f g : Format} {a : Flt f} (h : a.isFinite) : cast g a = ofReal g a.neg? a.val := by
  cases a <;> first | rfl | exact h.elim

/-- The numbers of the format are `f64` numbers. -/
def Format.Sub64 (f : Format) : Prop := f.p ≤ 53 ∧ f.emax ≤ 1024 ∧ -1074 ≤ f.emin

theorem Format.Sub64.mag {f : Format} (hf : f.Sub64) {x : ℝ} (h : f.Mag x) : Format.b64.Mag x := by
  obtain ⟨h1, m, e, h2, h3, h4⟩ := h
  refine ⟨h1.trans_le (zpow_le_zpow_right₀ (by norm_num) hf.2.1), m, e, ?_, ?_, h4⟩
  · exact h2.trans_le (Nat.pow_le_pow_right (by norm_num) hf.1)
  · have := hf.2.2
    unfold emin b64
    simp only
    omega

theorem Format.sub64_b64 : Format.b64.Sub64 := by
  refine ⟨?_, ?_, ?_⟩ <;> simp [b64, emin]

theorem Format.sub64_b32 : Format.b32.Sub64 := by
  refine ⟨?_, ?_, ?_⟩ <;> simp [b32, emin]

theorem RustFloat.roundingConv {f : Format} (hf : f.Sub64) (lib : Libm f) (lib' : Libm Format.b64) :
    RoundingConv (R := RustFloat f lib) (F := F64 lib') (RustFloat.rounding f lib)
      (RustFloat.rounding Format.b64 lib') where
  toF_finite {a} ha := ⟨_, rfl, by
    show Flt.isFinite (cast (f := f) Format.b64 a)
    rw [cast_eq ha]
    exact (ofReal_exact (hf.mag (mag_val _))).1⟩
  toF {a b} h hb := by
    have h' : cast (f := f) Format.b64 a = b := Option.some.inj h
    subst h'
    have ha := cast_finite hb
    refine ⟨ha, ?_⟩
    show Flt.val (cast (f := f) Format.b64 a) = Flt.val (f := f) a
    rw [cast_eq ha]
    exact (ofReal_exact (hf.mag (mag_val _))).2
  ofF {b} h := by
    have hb : Flt.isFinite (f := Format.b64) b := cast_finite h
    refine ⟨hb, ?_⟩
    have h' : (cast (f := Format.b64) f b).isFinite := h
    show |Flt.val (cast (f := Format.b64) f b) - Flt.val (f := Format.b64) b| ≤ _
    rw [cast_eq hb] at h' ⊢
    exact ofReal_err_le h'

theorem RustFloat.convIeee {f : Format} (lib : Libm f) (lib' : Libm Format.b64) :
    ConvIeee (R := RustFloat f lib) (F := F64 lib') (RustFloat.ieee f lib)
      (RustFloat.ieee Format.b64 lib') where
  toF {a b} h ha hb := by
    have h' : cast (f := f) Format.b64 a = b := Option.some.inj h
    subst h'
    exact ha (cast_finite hb)
  ofF hb h := hb (cast_finite h)

theorem Format.cutoff_normal {f : Format} (h : f.emin + f.p - 1 ≤ -24) : f.ω ≤ 1 / 10000000 := by
  have : f.ω ≤ 2 ^ (-24 : ℤ) := zpow_le_zpow_right₀ (by norm_num) h
  refine this.trans (by norm_num)

/-- Up to here without overflow in any format. -/
theorem Flt.ofReal_le_four {f : Format} {z : Bool} {x : ℝ} (h : |x| ≤ 4) : (ofReal f z x).isFinite := by
  refine ofReal_lt (h.trans ?_)
  have : (2 : ℝ) ^ (2 : ℤ) ≤ 2 ^ (f.emax - 1) := zpow_le_zpow_right₀ (by norm_num) (by
    have := f.three_le_p
    have := f.p_lt
    omega)
  refine le_trans (by norm_num) this

theorem Flt.cutoff64 : (ofReal Format.b64 false (1 / 10000000)).isFinite ∧
    |(ofReal Format.b64 false (1 / 10000000)).val - 1 / 10000000| ≤ Format.b64.u * (1 / 10000000) := by
  have h := ofReal_le_four (f := Format.b64) (z := false) (x := 1 / 10000000) (by norm_num)
  refine ⟨h, ?_⟩
  rw [ofReal_err h, abs_of_nonneg (by norm_num : (0 : ℝ) ≤ 1 / 10000000)]
  exact Format.rnd_err_normal (Format.cutoff_normal (by simp [Format.b64, Format.emin]))

theorem Format.cutoff_b64 : Format.b64.Cutoff := by
  obtain ⟨h1, h2⟩ := cutoff64
  have h3 := ofReal_exact (z := (ofReal Format.b64 false (1 / 10000000)).neg?)
    (mag_val (ofReal Format.b64 false (1 / 10000000)))
  unfold Cutoff ofF64
  rw [cast_eq h1]
  exact ⟨h3.1, by rw [h3.2]; exact h2⟩

theorem Format.cutoff_b32 : Format.b32.Cutoff := by
  obtain ⟨h1, h2⟩ := cutoff64
  unfold Cutoff ofF64
  rw [cast_eq h1]
  set y := (ofReal Format.b64 false (1 / 10000000)).val with hy
  have hu : Format.b64.u = 1 / 9007199254740992 := by norm_num [u, b64]
  have hu' : Format.b32.u = 1 / 16777216 := by norm_num [u, b32]
  rw [hu] at h2
  have h2' := abs_le.1 h2
  have hy0 : 0 ≤ y := by linarith [h2'.1]
  have h3 := ofReal_le_four (f := Format.b32) (z := (ofReal Format.b64 false (1 / 10000000)).neg?)
    (x := y) (by rw [abs_of_nonneg hy0]; linarith [h2'.2])
  refine ⟨h3, ?_⟩
  have h4 := ofReal_err h3
  rw [abs_of_nonneg hy0] at h4
  have h5 : Format.b32.Rep (14073749 * 2 ^ (-47 : ℤ)) :=
    ⟨14073749, -47, by norm_num [b32], by norm_num [b32, emin], by norm_num⟩
  have h6 := rnd_nearest hy0 h5
  have h7 : |(14073749 * 2 ^ (-47 : ℤ) : ℝ) - y| ≤ 1 / 10000000 * (2 / 100000000) := by
    rw [abs_le]
    norm_num
    constructor <;> linarith [h2'.1, h2'.2]
  have h8 := abs_le.1 (h4.le.trans (h6.trans h7))
  rw [hu', abs_le]
  constructor <;> linarith [h8.1, h8.2, h2'.1, h2'.2]

/-- Error of rounding a number less than `2^k`. -/
theorem Flt.ofReal_err_pow {f : Format} {z : Bool} {x : ℝ} {k : ℤ} (hk : f.emin ≤ k - f.p)
    (h0 : x ≠ 0) (h : |x| < 2 ^ k) (hf : (ofReal f z x).isFinite) :
    |(ofReal f z x).val - x| ≤ 2 ^ (k - 1) * f.u := by
  rw [ofReal_err hf]
  refine (Format.rnd_err_lastPlace _).trans ?_
  have h1 : Int.log 2 |x| < k := (Int.lt_zpow_iff_log_lt (by norm_num) (abs_pos.2 h0)).1 (by
    exact_mod_cast h)
  have h2 : f.lastPlace |x| ≤ k - f.p := by
    unfold Format.lastPlace
    omega
  have h3 : (2 : ℝ) ^ f.lastPlace |x| ≤ 2 ^ (k - f.p) := zpow_le_zpow_right₀ (by norm_num) h2
  have h4 : (2 : ℝ) ^ (k - f.p) = 2 * (2 ^ (k - 1) * f.u) := by
    unfold Format.u
    rw [← zpow_add₀ (by norm_num), ← zpow_one_add₀ (by norm_num)]
    congr 1
    ring
  linarith

/-- Sine and cosine are finite and accurate to one unit in the last place of numbers between 1/2 and 1 (on
the interval used by the crate). -/
structure Libm.Accurate {f : Format} (lib : Libm f) : Prop where
  sin_finite : ∀ a, a.isFinite → |a.val| ≤ 2 → (lib.sin a).isFinite
  cos_finite : ∀ a, a.isFinite → |a.val| ≤ 2 → (lib.cos a).isFinite
  sin : ∀ a, a.isFinite → |a.val| ≤ 2 → |(lib.sin a).val - Real.sin a.val| ≤ f.u
  cos : ∀ a, a.isFinite → |a.val| ≤ 2 → |(lib.cos a).val - Real.cos a.val| ≤ f.u

/-- Correctly rounded sine and cosine (a witness; not claimed of any platform). -/
noncomputable def Libm.rounded (f : Format) : Libm f where
  sin a := ofReal f false (Real.sin a.val)
  cos a := ofReal f false (Real.cos a.val)

theorem Flt.ofReal_err_one {f : Format} {z : Bool} {x : ℝ} (h : |x| ≤ 1) :
    |(ofReal f z x).val - x| ≤ f.u := by
  have hf := ofReal_le_four (f := f) (z := z) (h.trans (by norm_num : (1 : ℝ) ≤ 4))
  by_cases h0 : x = 0
  · rw [ofReal_err hf, h0, abs_zero, Format.rnd_zero]
    simp [f.u_pos.le]
  have := ofReal_err_pow (k := 1) (by
    have := f.three_le_p
    have := f.emin_le
    omega) h0 (h.trans_lt (by norm_num)) hf
  simpa using this

theorem Libm.rounded_accurate (f : Format) : (Libm.rounded f).Accurate where
  sin_finite _ _ _ := ofReal_le_four ((Real.abs_sin_le_one _).trans (by norm_num))
  cos_finite _ _ _ := ofReal_le_four ((Real.abs_cos_le_one _).trans (by norm_num))
  sin _ _ _ := ofReal_err_one (Real.abs_sin_le_one _)
  cos _ _ _ := ofReal_err_one (Real.abs_cos_le_one _)

/-- The computed π/2. -/
theorem RustFloat.half_pi {f : Format} (hf : f.Sub64) :
    let h := div (ofF64 f Real.pi) (ofF64 f 2)
    h.isFinite ∧ |h.val - Real.pi / 2| ≤ 3 * f.u := by
  intro h
  have hp := Real.pi_gt_three
  have hp' := Real.pi_lt_d2
  have hk : ∀ g : Format, ∀ k : ℤ, 1 ≤ k → g.emin ≤ k - g.p := fun g k hk => by
    have := g.three_le_p
    have := g.emin_le
    omega
  have hu := f.u_pos
  have hu8 := f.u_le
  have hu64 : Format.b64.u ≤ f.u := by
    unfold Format.u
    apply zpow_le_zpow_right₀ (by norm_num)
    have : (Format.b64.p : ℤ) = 53 := rfl
    have := hf.1
    omega
  have hu0 := Format.b64.u_pos
  have a1 : (ofReal Format.b64 false Real.pi).isFinite :=
    ofReal_le_four (by rw [abs_of_pos Real.pi_pos]; linarith)
  have a2 := ofReal_err_pow (k := 2) (hk _ _ (by norm_num)) Real.pi_ne_zero
    (by rw [abs_of_pos Real.pi_pos]; norm_num; linarith) a1
  norm_num at a2
  set y := (ofReal Format.b64 false Real.pi).val with hy
  have a2' := abs_le.1 a2
  have hy0 : 0 < y := by linarith [a2'.1]
  have b1 : (ofReal f (ofReal Format.b64 false Real.pi).neg? y).isFinite :=
    ofReal_le_four (by rw [abs_of_pos hy0]; linarith [a2'.2])
  have b2 := ofReal_err_pow (k := 2) (hk _ _ (by norm_num)) hy0.ne'
    (by rw [abs_of_pos hy0]; norm_num; linarith [a2'.2]) b1
  norm_num at b2
  have e : ofF64 f Real.pi = ofReal f (ofReal Format.b64 false Real.pi).neg? y := by
    unfold ofF64
    rw [cast_eq a1]
  have b2' := abs_le.1 b2
  obtain ⟨c1, c2⟩ := ofF64_nat (f := f) (n := 2) (by norm_num)
  norm_num at c1 c2
  rw [← e] at b1 b2'
  set w := (ofF64 f Real.pi).val with hw
  have hw0 : 0 < w := by linarith [a2'.1, b2'.1]
  have e2 : h = ofReal f (xor (ofF64 f Real.pi).neg? (ofF64 f 2).neg?) (w / 2) := by
    have := div_eq b1 c1 (by rw [c2]; norm_num)
    rw [c2] at this
    exact this
  rw [e2]
  have hw2 : |w / 2| < 2 := by rw [abs_of_pos (by linarith)]; linarith [a2'.2, b2'.2]
  have d1 : (ofReal f (xor (ofF64 f Real.pi).neg? (ofF64 f 2).neg?) (w / 2)).isFinite :=
    ofReal_le_four (by linarith)
  refine ⟨d1, ?_⟩
  have d2 := ofReal_err_pow (k := 1) (hk _ _ (by norm_num)) (by positivity)
    (by norm_num; linarith) d1
  norm_num at d2
  have d2' := abs_le.1 d2
  rw [abs_le]
  constructor <;> linarith [a2'.1, a2'.2, b2'.1, b2'.2, d2'.1, d2'.2]

theorem RustFloat.quarterExact (f : Format) (lib : Libm f) : (RustFloat.rounding f lib).QuarterExact := by
  have e4 : (((1 / 4 : ℚ) : ℝ)) = 1 / 4 := by norm_num
  show Flt.isFinite (ofF64 f ((1 / 4 : ℚ) : ℝ)) ∧ Flt.val (ofF64 f ((1 / 4 : ℚ) : ℝ)) = 1 / 4
  rw [e4]
  exact ofF64_exact mag_quarter mag_quarter

theorem RustFloat.roundingView {f : Format} (hf : f.Sub64) {lib : Libm f} (hl : lib.Accurate) :
    RoundingView (RustFloat.rounding f lib) := by
  obtain ⟨h1, h2⟩ := RustFloat.half_pi hf
  have e2 : (((2 : ℚ) : ℝ)) = 2 := by norm_num
  have hp : (Scalar.pi / Scalar.lit 2 : RustFloat f lib) = div (ofF64 f Real.pi) (ofF64 f 2) := by
    show div (ofF64 f Real.pi) (ofF64 f ((2 : ℚ) : ℝ)) = _
    rw [e2]
  have hu := f.u_pos
  have hu8 := f.u_le
  set h := div (ofF64 f Real.pi) (ofF64 f 2) with hh
  have h2' := abs_le.1 h2
  have hpi := Real.pi_gt_three
  have hpi' := Real.pi_lt_d2
  have hle : |h.val| ≤ 2 := by
    rw [abs_le]
    constructor <;> linarith
  have hc : |Real.cos h.val| ≤ |h.val - Real.pi / 2| := by
    have : Real.cos h.val = -Real.sin (h.val - Real.pi / 2) := by
      rw [Real.sin_sub_pi_div_two, neg_neg]
    rw [this, abs_neg]
    exact Real.abs_sin_le_abs
  have hs : |Real.sin h.val - 1| ≤ (h.val - Real.pi / 2) ^ 2 / 2 := by
    have e : Real.sin h.val = Real.cos (h.val - Real.pi / 2) := (Real.cos_sub_pi_div_two _).symm
    have := Real.one_sub_sq_div_two_le_cos (x := h.val - Real.pi / 2)
    have h1 := Real.cos_le_one (h.val - Real.pi / 2)
    rw [e, abs_le]
    constructor <;> linarith [sq_nonneg (h.val - Real.pi / 2)]
  have hsq : (h.val - Real.pi / 2) ^ 2 ≤ 3 * f.u * (3 * f.u) := by
    rw [← sq_abs, sq]
    exact mul_le_mul h2 h2 (abs_nonneg _) (by linarith)
  refine ⟨RustFloat.quarterExact f lib, ?_, ?_⟩
  · rw [hp]
    show |(lib.sin h).val - 1| ≤ 4 * f.u
    have := hl.sin h h1 hle
    have h3 := abs_add_le ((lib.sin h).val - Real.sin h.val) (Real.sin h.val - 1)
    rw [sub_add_sub_cancel] at h3
    nlinarith
  · rw [hp]
    show |(lib.cos h).val| ≤ 4 * f.u
    have := hl.cos h h1 hle
    have h3 := abs_add_le ((lib.cos h).val - Real.cos h.val) (Real.cos h.val)
    rw [sub_add_cancel] at h3
    linarith

theorem RustFloat.half_pi_finite {f : Format} (hf : f.Sub64) {lib : Libm f} (hl : lib.Accurate) :
    (RustFloat.rounding f lib).isFinite (Scalar.sin (Scalar.pi / Scalar.lit 2)) ∧
    (RustFloat.rounding f lib).isFinite (Scalar.cos (Scalar.pi / Scalar.lit 2)) := by
  obtain ⟨h1, h2⟩ := RustFloat.half_pi hf
  have e2 : (((2 : ℚ) : ℝ)) = 2 := by norm_num
  have hp : (Scalar.pi / Scalar.lit 2 : RustFloat f lib) = div (ofF64 f Real.pi) (ofF64 f 2) := by
    show div (ofF64 f Real.pi) (ofF64 f ((2 : ℚ) : ℝ)) = _
    rw [e2]
  have hle : |(div (ofF64 f Real.pi) (ofF64 f 2)).val| ≤ 2 := by
    have h2' := abs_le.1 h2
    have hpi := Real.pi_gt_three
    have hpi' := Real.pi_lt_d2
    have hu8 := f.u_le
    rw [abs_le]
    constructor <;> linarith
  rw [hp]
  exact ⟨hl.sin_finite _ h1 hle, hl.cos_finite _ h1 hle⟩

/-- `powi(-2)`, where the square does not overflow. -/
theorem Flt.powi_neg_two_law {f : Format} {a : Flt f} (h0 : a.val ≠ 0) (hq : (mul a a).isFinite)
    (hr : (powi a (-2)).isFinite) :
    |(powi a (-2)).val - 1 / a.val ^ 2| ≤ ((1 + f.u) ^ 8 - 1) * (1 / a.val ^ 2 + f.ω) := by
  obtain ⟨ha, -⟩ := mul_finite hq
  rw [powi_neg_two] at hr ⊢
  have hu := f.u_pos
  have hu8 := f.u_le
  have hω := f.ω_pos
  have h1 := ofReal_exact (z := false) (mag_one (f := f))
  obtain ⟨-, h2⟩ := div_law hr
  obtain ⟨hQ0, h2⟩ := h2 hq
  rw [h1.2] at h2
  have hmag := mag_val (div (ofReal f false 1) (mul a a))
  set r := (div (ofReal f false 1) (mul a a)).val with hrdef
  have hX : 0 < a.val ^ 2 := by positivity
  -- the square, and its error
  have hQX : 0 ≤ (mul a a).val ∧ |(mul a a).val - a.val ^ 2| ≤ f.u * max (a.val ^ 2) f.ω := by
    have hq' := hq
    rw [mul_eq ha ha] at hq' ⊢
    have e : |a.val * a.val| = a.val ^ 2 := by rw [abs_mul_self, sq]
    constructor
    · rw [ofReal_val hq', if_neg (by nlinarith [sq_nonneg a.val])]
      exact Format.rnd_nonneg (abs_nonneg _)
    · rw [show a.val ^ 2 = a.val * a.val from sq _, ofReal_err hq', e, ← sq]
      rcases lt_or_ge (a.val ^ 2) f.ω with h | h
      · refine (Format.rnd_err_subnormal hX.le h).trans ?_
        gcongr
        exact le_max_right _ _
      · refine (Format.rnd_err_normal h).trans ?_
        gcongr
        exact le_max_left _ _
  obtain ⟨hQ1, hQX⟩ := hQX
  set Q := (mul a a).val with hQdef
  set X := a.val ^ 2 with hXdef
  have hQ : 0 < Q := lt_of_le_of_ne hQ1 (Ne.symm hQ0)
  rw [abs_of_pos (by positivity : 0 < 1 / Q)] at h2
  -- the reciprocal does not overflow, so the square is not much smaller than the normal numbers
  have hE : f.ω * 2 ^ f.emax = 4 := by
    unfold Format.ω Format.emin
    rw [← zpow_add₀ (by norm_num)]
    rw [show 3 - f.emax - f.p + f.p - 1 + f.emax = 2 by ring]
    norm_num
  have hE16 : (16 : ℝ) ≤ 2 ^ f.emax := by
    have : (2 : ℝ) ^ (4 : ℤ) ≤ 2 ^ f.emax := zpow_le_zpow_right₀ (by norm_num) (by
      have := f.three_le_p
      have := f.p_lt
      omega)
    refine le_trans (by norm_num) this
  have hω1 : f.ω ≤ 1 / 4 := by nlinarith
  have hr' : r < 2 ^ f.emax := (le_abs_self r).trans_lt hmag.1
  have hi : 1 / Q ≤ 23 / 20 * 2 ^ f.emax := by
    have := (abs_le.1 h2).1
    have h3 : f.u * (1 / Q) ≤ 1 / 8 * (1 / Q) := mul_le_mul_of_nonneg_right hu8 (by positivity)
    have h4 : f.u * f.ω ≤ 1 / 8 * (1 / 4) := mul_le_mul hu8 hω1 hω.le (by norm_num)
    linarith
  have hωQ : f.ω / Q ≤ 23 / 5 := by
    have := mul_le_mul_of_nonneg_left hi hω.le
    have e : f.ω * (23 / 20 * 2 ^ f.emax) = 23 / 20 * (f.ω * 2 ^ f.emax) := by ring
    rw [e, hE] at this
    have e2 : f.ω / Q = f.ω * (1 / Q) := by ring
    rw [e2]
    linarith
  -- error of the reciprocal of the rounded square
  have hd : |1 / Q - 1 / X| ≤ 23 / 5 * f.u * (1 / X) := by
    have e : 1 / Q - 1 / X = -(Q - X) * (1 / Q) * (1 / X) := by
      field_simp
      ring
    rw [e, abs_mul, abs_mul, abs_neg, abs_of_pos (by positivity : 0 < 1 / X),
      abs_of_pos (by positivity : 0 < 1 / Q)]
    refine mul_le_mul_of_nonneg_right ?_ (by positivity)
    refine (mul_le_mul_of_nonneg_right hQX (by positivity)).trans ?_
    rcases le_total f.ω X with h | h
    · rw [max_eq_left h] at hQX ⊢
      have h3 : f.u * X ≤ 1 / 8 * X := mul_le_mul_of_nonneg_right hu8 hX.le
      have h4 : 7 / 8 * X ≤ Q := by linarith [(abs_le.1 hQX).1]
      have h5 : X * (1 / Q) ≤ 23 / 5 := by
        rw [mul_one_div, div_le_iff₀ hQ]
        linarith
      have := mul_le_mul_of_nonneg_left h5 hu.le
      linarith
    · rw [max_eq_right h]
      have := mul_le_mul_of_nonneg_left hωQ hu.le
      have e : f.u * f.ω * (1 / Q) = f.u * (f.ω / Q) := by ring
      rw [e]
      linarith
  have hQX' : 1 / Q ≤ 8 / 5 * (1 / X) := by
    have h3 : 23 / 5 * f.u * (1 / X) ≤ 3 / 5 * (1 / X) :=
      mul_le_mul_of_nonneg_right (by linarith) (by positivity)
    have := (abs_le.1 hd).2
    linarith
  have h3 : f.u * (1 / Q) ≤ f.u * (8 / 5 * (1 / X)) := mul_le_mul_of_nonneg_left hQX' hu.le
  have h4 := abs_add_le (r - 1 / Q) (1 / Q - 1 / X)
  rw [sub_add_sub_cancel] at h4
  have h5 : 8 * f.u ≤ (1 + f.u) ^ 8 - 1 := by
    have := one_add_mul_le_pow (by linarith : (-2 : ℝ) ≤ f.u) 8
    push_cast at this
    linarith
  have h6 : 8 * f.u * (1 / X + f.ω) ≤ ((1 + f.u) ^ 8 - 1) * (1 / X + f.ω) :=
    mul_le_mul_of_nonneg_right h5 (by positivity)
  have h7 : 0 ≤ f.u * (1 / X) := by positivity
  have h8 : 0 ≤ f.u * f.ω := by positivity
  linarith

theorem RustFloat.roundingPowi (f : Format) (lib : Libm f) : RoundingPowi (RustFloat.rounding f lib) where
  powi_neg_two _ h0 hq hr := Flt.powi_neg_two_law h0 hq hr

end CamGeom
