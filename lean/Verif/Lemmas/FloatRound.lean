import Verif.Model.Float
import Mathlib.Tactic.Linarith
import Mathlib.Tactic.NormNum
import Mathlib.Tactic.Positivity
import Mathlib.Tactic.FieldSimp

/-!
# Rounding to a floating-point format

`Format.rnd` gives a nearest number of the format, and how far off it is.
-/

namespace CamGeom

theorem nearestEven_int (n : ℤ) : nearestEven n = n := by
  simp [nearestEven]

theorem nearestEven_cases (y : ℝ) :
    (nearestEven y = ⌊y⌋ ∧ y - ⌊y⌋ ≤ 1 / 2) ∨ (nearestEven y = ⌊y⌋ + 1 ∧ 1 / 2 ≤ y - ⌊y⌋) := by
  unfold nearestEven
  split_ifs with h1 h2 h3
  · exact .inl ⟨rfl, h1.le⟩
  · exact .inr ⟨rfl, h2.le⟩
  · exact .inl ⟨rfl, not_lt.1 h2⟩
  · exact .inr ⟨rfl, not_lt.1 h1⟩

theorem nearestEven_err (y : ℝ) : |(nearestEven y : ℝ) - y| ≤ 1 / 2 := by
  have h1 := Int.floor_le y
  have h2 := Int.lt_floor_add_one y
  rcases nearestEven_cases y with ⟨h, h'⟩ | ⟨h, h'⟩ <;> rw [h, abs_le] <;> push_cast <;>
    constructor <;> linarith

theorem nearestEven_le {y : ℝ} {n : ℤ} (h : y ≤ n) : nearestEven y ≤ n := by
  have h1 : ⌊y⌋ ≤ n := Int.cast_le.1 ((Int.floor_le y).trans h)
  rcases nearestEven_cases y with ⟨e, _⟩ | ⟨e, h'⟩
  · omega
  · rcases h1.lt_or_eq with h2 | h2
    · omega
    · rw [h2] at h'
      linarith

theorem le_nearestEven {y : ℝ} {n : ℤ} (h : n ≤ y) : n ≤ nearestEven y := by
  have h1 : n ≤ ⌊y⌋ := Int.le_floor.2 h
  rcases nearestEven_cases y with ⟨e, _⟩ | ⟨e, _⟩ <;> omega

/-- It is a nearest integer. -/
theorem nearestEven_nearest (y : ℝ) (n : ℤ) : |(nearestEven y : ℝ) - y| ≤ |(n : ℝ) - y| := by
  have h1 := Int.floor_le y
  have h2 := Int.lt_floor_add_one y
  rcases le_or_gt n ⌊y⌋ with h | h
  · have h3 : (n : ℝ) ≤ ⌊y⌋ := by exact_mod_cast h
    have h4 : |(n : ℝ) - y| = y - n := by rw [abs_of_nonpos (by linarith)]; ring
    rw [h4, abs_le]
    rcases nearestEven_cases y with ⟨e, h'⟩ | ⟨e, h'⟩ <;> rw [e] <;> push_cast <;>
      constructor <;> linarith
  · have h3 : (⌊y⌋ : ℝ) + 1 ≤ n := by exact_mod_cast h
    have h4 : |(n : ℝ) - y| = n - y := abs_of_nonneg (by linarith)
    rw [h4, abs_le]
    rcases nearestEven_cases y with ⟨e, h'⟩ | ⟨e, h'⟩ <;> rw [e] <;> push_cast <;>
      constructor <;> linarith

/-- Ties go to the even integer. -/
theorem nearestEven_tie {y : ℝ} (h : y - ⌊y⌋ = 1 / 2) : Even (nearestEven y) := by
  unfold nearestEven
  rw [if_neg (by linarith), if_neg (by linarith)]
  split_ifs with h3
  · exact h3
  · exact (Int.not_even_iff_odd.1 h3).add_one

namespace Format

variable {f : Format}

theorem emin_le (f : Format) : f.emin ≤ 2 - 2 * f.p := by
  have := f.p_lt
  unfold emin
  omega

theorem le_emax (f : Format) : f.p ≤ f.emax := f.p_lt.le

/-- Numbers with `p` significant bits, without upper limit. -/
def Rep (f : Format) (x : ℝ) : Prop := ∃ (m : ℕ) (e : ℤ), m < 2 ^ f.p ∧ f.emin ≤ e ∧ x = m * 2 ^ e

theorem Mag.rep {x : ℝ} (h : f.Mag x) : f.Rep x := h.2

theorem Rep.nonneg {x : ℝ} (h : f.Rep x) : 0 ≤ x := by
  obtain ⟨m, e, _, _, rfl⟩ := h
  positivity

theorem Mag.nonneg {x : ℝ} (h : f.Mag x) : 0 ≤ x := h.rep.nonneg

theorem lt_of_lastPlace (x : ℝ) : x < 2 ^ (f.lastPlace x + f.p) := by
  have h1 : x < 2 ^ (Int.log 2 x + 1) := Int.lt_zpow_succ_log_self (b := 2) (by norm_num) x
  refine h1.trans_le (zpow_le_zpow_right₀ (by norm_num) ?_)
  have : Int.log 2 x - f.p + 1 ≤ f.lastPlace x := le_max_left _ _
  omega

theorem emin_le_lastPlace (x : ℝ) : f.emin ≤ f.lastPlace x := le_max_right _ _

theorem le_of_lastPlace {x : ℝ} (hx : 0 < x) (h : f.emin < f.lastPlace x) :
    2 ^ (f.lastPlace x + f.p - 1) ≤ x := by
  have h1 : (2 : ℝ) ^ Int.log 2 x ≤ x := Int.zpow_log_le_self (by norm_num) hx
  have h2 : f.lastPlace x = Int.log 2 x - f.p + 1 := by
    unfold lastPlace at h ⊢
    omega
  have h3 : f.lastPlace x + f.p - 1 = Int.log 2 x := by omega
  rwa [h3]

theorem scale (x : ℝ) : x / 2 ^ f.lastPlace x * 2 ^ f.lastPlace x = x := by
  have : (2 : ℝ) ^ f.lastPlace x ≠ 0 := by positivity
  field_simp

/-- A multiple of the last place, as a multiple. -/
theorem int_scale (m : ℕ) {e l : ℤ} (h : l ≤ e) :
    (m : ℝ) * 2 ^ e / 2 ^ l = ((m * 2 ^ (e - l).toNat : ℤ) : ℝ) := by
  obtain ⟨k, hk⟩ := Int.le.dest h
  have h1 : (e - l).toNat = k := by omega
  rw [h1, ← hk, zpow_add₀ (by norm_num)]
  have : (2 : ℝ) ^ l ≠ 0 := by positivity
  push_cast
  rw [zpow_natCast]
  field_simp

theorem rnd_zero : f.rnd 0 = 0 := by
  have h := nearestEven_int 0
  simp only [Int.cast_zero] at h
  simp [rnd, h]

theorem rnd_sub (x : ℝ) : f.rnd x - x =
    ((nearestEven (x / 2 ^ f.lastPlace x) : ℝ) - x / 2 ^ f.lastPlace x) * 2 ^ f.lastPlace x := by
  unfold rnd
  rw [sub_mul, scale]

theorem rnd_err_lastPlace (x : ℝ) : |f.rnd x - x| ≤ 1 / 2 * 2 ^ f.lastPlace x := by
  have h0 : (0 : ℝ) < 2 ^ f.lastPlace x := by positivity
  rw [rnd_sub, abs_mul, abs_of_pos h0]
  exact mul_le_mul_of_nonneg_right (nearestEven_err _) h0.le

theorem rnd_nonneg {x : ℝ} (hx : 0 ≤ x) : 0 ≤ f.rnd x := by
  have h : (0 : ℤ) ≤ nearestEven (x / 2 ^ f.lastPlace x) := le_nearestEven (by
    push_cast
    positivity)
  have h' : (0 : ℝ) ≤ nearestEven (x / 2 ^ f.lastPlace x) := by exact_mod_cast h
  unfold rnd
  positivity

/-- The result of rounding is a number of the format. -/
theorem rnd_rep {x : ℝ} (hx : 0 ≤ x) : f.Rep (f.rnd x) := by
  have h0 : (0 : ℝ) < 2 ^ f.lastPlace x := by positivity
  have h1 : (0 : ℤ) ≤ nearestEven (x / 2 ^ f.lastPlace x) := le_nearestEven (by
    push_cast
    positivity)
  have h2 : nearestEven (x / 2 ^ f.lastPlace x) ≤ ((2 ^ f.p : ℕ) : ℤ) := by
    apply nearestEven_le
    rw [div_le_iff₀ h0]
    have := (lt_of_lastPlace (f := f) x).le
    rw [zpow_add₀ (by norm_num), zpow_natCast] at this
    push_cast
    linarith
  have h3 := emin_le_lastPlace (f := f) x
  obtain ⟨m, hm⟩ := Int.eq_ofNat_of_zero_le h1
  unfold rnd
  rw [hm] at h2 ⊢
  rcases lt_or_eq_of_le (Int.ofNat_le.1 h2) with h | h
  · exact ⟨m, _, h, h3, by push_cast; rfl⟩
  · have hp := f.three_le_p
    refine ⟨2 ^ (f.p - 1), f.lastPlace x + 1, ?_, by omega, ?_⟩
    · exact Nat.pow_lt_pow_right (by norm_num) (by omega)
    · rw [h, zpow_add₀ (by norm_num)]
      have : f.p = (f.p - 1) + 1 := by omega
      conv_lhs => rw [this]
      push_cast
      rw [pow_succ, zpow_one]
      ring

theorem rnd_mag {x : ℝ} (hx : 0 ≤ x) : f.Mag (f.rnd x) ↔ f.rnd x < 2 ^ f.emax :=
  ⟨fun h => h.1, fun h => ⟨h, rnd_rep hx⟩⟩

/-- Numbers of the format are multiples of the last place of anything not smaller. -/
theorem Rep.lastPlace_le {M : ℝ} (hM : f.Rep M) :
    ∃ (m : ℕ) (e : ℤ), m < 2 ^ f.p ∧ f.emin ≤ e ∧ M = m * 2 ^ e ∧
      ∀ x, 0 < x → x ≤ M → f.lastPlace x ≤ e := by
  obtain ⟨m, e, h1, h2, rfl⟩ := hM
  refine ⟨m, e, h1, h2, rfl, fun x hx h => ?_⟩
  by_contra hc
  push Not at hc
  have h3 := le_of_lastPlace hx (h2.trans_lt hc)
  have h4 : (m : ℝ) * 2 ^ e < 2 ^ (f.p : ℤ) * 2 ^ e := by
    have : (m : ℝ) < 2 ^ f.p := by exact_mod_cast h1
    rw [zpow_natCast]
    exact mul_lt_mul_of_pos_right this (by positivity)
  rw [← zpow_add₀ (by norm_num)] at h4
  have h5 : (2 : ℝ) ^ ((f.p : ℤ) + e) ≤ 2 ^ (f.lastPlace x + f.p - 1) :=
    zpow_le_zpow_right₀ (by norm_num) (by omega)
  linarith

/-- Rounding does not pass over numbers of the format. -/
theorem rnd_le {x M : ℝ} (hx : 0 ≤ x) (hM : f.Rep M) (h : x ≤ M) : f.rnd x ≤ M := by
  rcases hx.eq_or_lt with rfl | hx
  · rwa [rnd_zero]
  obtain ⟨m, e, -, -, rfl, h1⟩ := hM.lastPlace_le
  have h2 := h1 x hx h
  have h0 : (0 : ℝ) < 2 ^ f.lastPlace x := by positivity
  have h3 : x / 2 ^ f.lastPlace x ≤ ((m * 2 ^ (e - f.lastPlace x).toNat : ℤ) : ℝ) := by
    rw [← int_scale m h2]
    gcongr
  have h4 := nearestEven_le h3
  have h5 : (nearestEven (x / 2 ^ f.lastPlace x) : ℝ) ≤
      ((m * 2 ^ (e - f.lastPlace x).toNat : ℤ) : ℝ) := by exact_mod_cast h4
  rw [← int_scale m h2, le_div_iff₀ h0] at h5
  exact h5

/-- A multiple of the last place between a number of the format and anything not smaller. -/
theorem Rep.multiple {x M : ℝ} (hM : f.Rep M) (hx : 0 < x) (h : M ≤ x) :
    ∃ n : ℤ, M ≤ n * 2 ^ f.lastPlace x ∧ n * 2 ^ f.lastPlace x ≤ x := by
  obtain ⟨m, e, h1, h2, rfl⟩ := hM
  have h0 : (0 : ℝ) < 2 ^ f.lastPlace x := by positivity
  rcases le_or_gt (f.lastPlace x) e with h3 | h3
  · have h4 := int_scale m h3
    rw [div_eq_iff h0.ne'] at h4
    exact ⟨_, h4.le, h4.ge.trans h⟩
  · refine ⟨2 ^ (f.p - 1), ?_, ?_⟩
    · have h4 : (m : ℝ) * 2 ^ e < 2 ^ (f.p : ℤ) * 2 ^ e := by
        have : (m : ℝ) < 2 ^ f.p := by exact_mod_cast h1
        rw [zpow_natCast]
        exact mul_lt_mul_of_pos_right this (by positivity)
      rw [← zpow_add₀ (by norm_num)] at h4
      refine h4.le.trans ?_
      push_cast
      rw [← zpow_natCast, ← zpow_add₀ (by norm_num)]
      apply zpow_le_zpow_right₀ (by norm_num)
      have := f.three_le_p
      omega
    · have h4 := le_of_lastPlace hx (h2.trans_lt h3)
      push_cast
      rw [← zpow_natCast, ← zpow_add₀ (by norm_num)]
      have := f.three_le_p
      have h5 : ((f.p - 1 : ℕ) : ℤ) + f.lastPlace x = f.lastPlace x + f.p - 1 := by omega
      rwa [h5]

theorem le_rnd {x M : ℝ} (hx : 0 ≤ x) (hM : f.Rep M) (h : M ≤ x) : M ≤ f.rnd x := by
  rcases hx.eq_or_lt with rfl | hx
  · rwa [rnd_zero]
  obtain ⟨n, h1, h2⟩ := hM.multiple hx h
  have h0 : (0 : ℝ) < 2 ^ f.lastPlace x := by positivity
  have h3 := le_nearestEven ((le_div_iff₀ h0).2 h2)
  have h4 : (n : ℝ) ≤ nearestEven (x / 2 ^ f.lastPlace x) := by exact_mod_cast h3
  exact h1.trans (mul_le_mul_of_nonneg_right h4 h0.le)

/-- Numbers of the format are not changed. -/
theorem rnd_of_rep {x : ℝ} (h : f.Rep x) : f.rnd x = x :=
  le_antisymm (rnd_le h.nonneg h le_rfl) (le_rnd h.nonneg h le_rfl)

/-- The result is nearest among all numbers of the format (IEEE 754, section 4.3.1). -/
theorem rnd_nearest {x M : ℝ} (hx : 0 ≤ x) (hM : f.Rep M) : |f.rnd x - x| ≤ |M - x| := by
  rcases hx.eq_or_lt with rfl | hx
  · rw [rnd_zero]
    simp
  have h0 : (0 : ℝ) < 2 ^ f.lastPlace x := by positivity
  have key : ∀ n : ℤ, |f.rnd x - x| ≤ |n * 2 ^ f.lastPlace x - x| := by
    intro n
    have h1 : (n : ℝ) * 2 ^ f.lastPlace x - x = (n - x / 2 ^ f.lastPlace x) * 2 ^ f.lastPlace x := by
      rw [sub_mul, scale]
    rw [rnd_sub, h1, abs_mul, abs_mul]
    exact mul_le_mul_of_nonneg_right (nearestEven_nearest _ _) (abs_nonneg _)
  rcases le_total x M with h | h
  · obtain ⟨m, e, -, -, rfl, h1⟩ := hM.lastPlace_le
    have h2 := int_scale m (h1 x hx h)
    rw [div_eq_iff h0.ne'] at h2
    rw [h2]
    exact key _
  · obtain ⟨n, h1, h2⟩ := hM.multiple hx h
    refine (key n).trans ?_
    rw [abs_of_nonpos (by linarith), abs_of_nonpos (by linarith)]
    linarith

theorem rnd_mono {x y : ℝ} (hx : 0 ≤ x) (h : x ≤ y) : f.rnd x ≤ f.rnd y := by
  have hy := hx.trans h
  by_contra hc
  push Not at hc
  have h1 : f.rnd y ≤ x := by
    by_contra h'
    have := rnd_le hx (rnd_rep hy) (not_le.1 h').le
    linarith
  have h2 : y ≤ f.rnd x := by
    by_contra h'
    have := le_rnd hy (rnd_rep hx) (not_le.1 h').le
    linarith
  have h3 := rnd_nearest hx (rnd_rep (f := f) hy)
  have h4 := rnd_nearest hy (rnd_rep (f := f) hx)
  rw [abs_of_nonneg (by linarith), abs_of_nonpos (by linarith)] at h3
  rw [abs_of_nonpos (by linarith), abs_of_nonneg (by linarith)] at h4
  have h5 : x = y := by linarith
  rw [h5] at hc
  exact lt_irrefl _ hc

/-- Unit roundoff, `2^-p`. -/
noncomputable def u (f : Format) : ℝ := 2 ^ (-(f.p : ℤ))

/-- Least positive normal number, `2^(emin + p - 1)`. -/
noncomputable def ω (f : Format) : ℝ := 2 ^ (f.emin + f.p - 1)

theorem u_pos (f : Format) : 0 < f.u := by unfold u; positivity

theorem ω_pos (f : Format) : 0 < f.ω := by unfold ω; positivity

theorem u_le (f : Format) : f.u ≤ 1 / 8 := by
  have h : (2 : ℝ) ^ (-(f.p : ℤ)) ≤ 2 ^ (-3 : ℤ) :=
    zpow_le_zpow_right₀ (by norm_num) (by have := f.three_le_p; omega)
  unfold u
  refine h.trans (by norm_num)

/-- Normal numbers are rounded with relative error `u`. -/
theorem rnd_err_normal {x : ℝ} (hx : f.ω ≤ x) : |f.rnd x - x| ≤ f.u * x := by
  have hx0 : 0 < x := f.ω_pos.trans_le hx
  refine (rnd_err_lastPlace x).trans ?_
  have h1 : (2 : ℝ) ^ Int.log 2 x ≤ x := Int.zpow_log_le_self (by norm_num) hx0
  have h2 : f.emin + f.p - 1 ≤ Int.log 2 x := (Int.zpow_le_iff_le_log (by norm_num) hx0).1 (by
    exact_mod_cast hx)
  have h3 : f.lastPlace x = Int.log 2 x + -(f.p : ℤ) + 1 := by
    unfold lastPlace
    omega
  rw [h3, zpow_add₀ (by norm_num), zpow_add₀ (by norm_num)]
  have := f.u_pos
  unfold u at *
  have := mul_le_mul_of_nonneg_left h1 this.le
  linarith [zpow_one (2 : ℝ)]

/-- Subnormal results have absolute error `u ω`. -/
theorem rnd_err_subnormal {x : ℝ} (hx0 : 0 ≤ x) (hx : x < f.ω) : |f.rnd x - x| ≤ f.u * f.ω := by
  rcases hx0.eq_or_lt with rfl | hx0
  · rw [rnd_zero]
    simp [f.u_pos.le, f.ω_pos.le, mul_nonneg]
  refine (rnd_err_lastPlace x).trans ?_
  have h2 : Int.log 2 x < f.emin + f.p - 1 := (Int.lt_zpow_iff_log_lt (by norm_num) hx0).1 (by
    exact_mod_cast hx)
  have h3 : f.lastPlace x = f.emin := by
    unfold lastPlace
    omega
  have h4 : f.u * f.ω = 2 ^ (f.emin - 1) := by
    unfold u ω
    rw [← zpow_add₀ (by norm_num)]
    congr 1
    ring
  rw [h3, h4, zpow_sub₀ (by norm_num)]
  apply le_of_eq
  ring

theorem rnd_err {x : ℝ} (hx : 0 ≤ x) : |f.rnd x - x| ≤ f.u * (x + f.ω) := by
  have h1 := f.u_pos
  have h2 := f.ω_pos
  rcases lt_or_ge x f.ω with h | h
  · refine (rnd_err_subnormal hx h).trans ?_
    gcongr
    linarith
  · refine (rnd_err_normal h).trans ?_
    gcongr
    linarith

/-- Multiples of the least positive number are rounded with relative error `u` only. -/
theorem rnd_err_multiple {x : ℝ} (hx : 0 ≤ x) {n : ℕ} (h : x = n * 2 ^ f.emin) :
    |f.rnd x - x| ≤ f.u * x := by
  rcases lt_or_ge x f.ω with h' | h'
  · have hr : f.Rep x := by
      refine ⟨n, f.emin, ?_, le_rfl, h⟩
      unfold ω at h'
      rw [h] at h'
      have h3 : (2 : ℝ) ^ (f.emin + f.p - 1) ≤ 2 ^ (f.p : ℤ) * 2 ^ f.emin := by
        rw [← zpow_add₀ (by norm_num)]
        exact zpow_le_zpow_right₀ (by norm_num) (by omega)
      have h4 := lt_of_mul_lt_mul_right (h'.trans_le h3) (by positivity)
      rw [zpow_natCast] at h4
      exact_mod_cast h4
    rw [rnd_of_rep hr, sub_self, abs_zero]
    have := f.u_pos
    positivity
  · exact rnd_err_normal h'

theorem rep_pow {k : ℤ} (h : f.emin ≤ k) : f.Rep (2 ^ k) :=
  ⟨1, k, Nat.one_lt_two_pow (by have := f.three_le_p; omega), h, by simp⟩

theorem rep_nat {n : ℕ} (h : n < 2 ^ f.p) : f.Rep n :=
  ⟨n, 0, h, by have := f.three_le_p; have := f.emin_le; omega, by simp⟩

/-- Magnitudes up to `2^(emax - 1)` do not overflow. -/
theorem rnd_lt {x : ℝ} (hx : 0 ≤ x) (h : x ≤ 2 ^ (f.emax - 1)) : f.rnd x < 2 ^ f.emax := by
  have h1 : f.rnd x ≤ 2 ^ (f.emax - 1) := rnd_le hx (rep_pow (by
    have := f.three_le_p
    have := f.emin_le
    have := f.le_emax
    omega)) h
  exact h1.trans_lt (zpow_lt_zpow_right₀ (by norm_num) (by omega))

end Format

end CamGeom
