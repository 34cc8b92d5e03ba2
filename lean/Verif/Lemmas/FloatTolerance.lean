import Verif.Lemmas.FloatRounding
import Verif.Model.Intrinsics

/-!
# `relative_ne!` against zero and one in floating point

With `epsilon = max_relative = 2^(1-p)`, the distance from one to the next number of the format.
-/

namespace CamGeom

namespace Format

variable {f : Format}

/-- Machine epsilon, `f64::EPSILON` and `f32::EPSILON`. -/
noncomputable def eps (f : Format) : ℝ := 2 ^ (1 - (f.p : ℤ))

theorem eps_pos (f : Format) : 0 < f.eps := by unfold eps; positivity

theorem eps_eq (f : Format) : f.eps = 2 * f.u := by
  unfold eps u
  rw [sub_eq_add_neg, zpow_add₀ (by norm_num), zpow_one]

theorem eps_le (f : Format) : f.eps ≤ 1 / 4 := by
  have := f.u_le
  rw [eps_eq]
  linarith

theorem ω_le_eps (f : Format) : f.ω ≤ f.eps := by
  unfold ω eps
  have := f.emin_le
  exact zpow_le_zpow_right₀ (by norm_num) (by omega)

theorem rep_eps (f : Format) : f.Rep f.eps := rep_pow (by
  have := f.emin_le
  have := f.three_le_p
  omega)

/-- A number of the format between `2^k` and anything is a multiple of `2^(k+1-p)`. -/
theorem Rep.multiple_of_le {x : ℝ} (h : f.Rep x) {k : ℤ} (hk : 2 ^ k ≤ x) :
    ∃ n : ℤ, x = n * 2 ^ (k + 1 - f.p) := by
  obtain ⟨m, e, h1, h2, rfl⟩ := h
  have h3 : (m : ℝ) < 2 ^ (f.p : ℤ) := by
    rw [zpow_natCast]
    exact_mod_cast h1
  have h4 : (2 : ℝ) ^ k < 2 ^ ((f.p : ℤ) + e) := by
    rw [zpow_add₀ (by norm_num)]
    exact hk.trans_lt (mul_lt_mul_of_pos_right h3 (by positivity))
  have h5 := (zpow_lt_zpow_iff_right₀ (by norm_num : (1 : ℝ) < 2)).1 h4
  have h6 := int_scale m (e := e) (l := k + 1 - f.p) (by omega)
  rw [div_eq_iff (by positivity)] at h6
  exact ⟨_, h6⟩

/-- Near one the distance to one is a number of the format. -/
theorem rep_sub_one {x : ℝ} (h : f.Rep x) (h1 : 1 / 2 ≤ x) (h2 : x ≤ 2) : f.Rep |x - 1| := by
  obtain ⟨n, hn⟩ := h.multiple_of_le (k := -1) (by rw [zpow_neg_one]; linarith)
  have e : (2 : ℝ) ^ (-1 + 1 - (f.p : ℤ)) = 2 ^ (-(f.p : ℤ)) := by congr 1; ring
  rw [e] at hn
  have hp : (2 : ℝ) ^ (f.p : ℤ) * 2 ^ (-(f.p : ℤ)) = 1 := by
    rw [← zpow_add₀ (by norm_num)]; simp
  have hx : |x - 1| = ((n - 2 ^ f.p).natAbs : ℕ) * 2 ^ (-(f.p : ℤ)) := by
    rw [Nat.cast_natAbs, Int.cast_abs, ← abs_of_pos (show (0 : ℝ) < 2 ^ (-(f.p : ℤ)) by positivity), ← abs_mul]
    congr 1
    push_cast
    rw [sub_mul, ← hn, ← hp, zpow_natCast]
  have hle : |x - 1| ≤ 1 := by rw [abs_le]; constructor <;> linarith
  rcases hle.lt_or_eq with hlt | heq
  · refine ⟨_, _, ?_, ?_, hx⟩
    · rw [hx, ← hp] at hlt
      have := lt_of_mul_lt_mul_right hlt (by positivity)
      rw [zpow_natCast] at this
      exact_mod_cast this
    · have := f.emin_le
      have := f.three_le_p
      omega
  · rw [heq]
    simpa using rep_nat (f := f) (n := 1) (Nat.one_lt_two_pow (by have := f.three_le_p; omega))

/-- Between one and two the distance to one is a multiple of epsilon. -/
theorem sub_one_multiple {x : ℝ} (h : f.Rep x) (h1 : 1 ≤ x) : ∃ n : ℤ, x - 1 = n * f.eps := by
  obtain ⟨n, hn⟩ := h.multiple_of_le (k := 0) (by simpa using h1)
  refine ⟨n - 2 ^ (f.p - 1), ?_⟩
  have hp : (2 : ℝ) ^ (f.p - 1) * f.eps = 1 := by
    unfold eps
    have : ((f.p - 1 : ℕ) : ℤ) = f.p - 1 := by have := f.three_le_p; omega
    rw [← zpow_natCast, this, ← zpow_add₀ (by norm_num)]
    simp
  push_cast
  rw [sub_mul, hp, hn]
  unfold eps
  rw [zero_add]

/-- Far from one the rounded distance exceeds every rounded tolerance. -/
theorem far_from_one {x M : ℝ} (hM : 1 ≤ M) (h : M / 2 ≤ |x - 1|) : f.rnd (M * f.eps) < f.rnd |x - 1| := by
  have h1 := rnd_err (f := f) (x := M * f.eps) (mul_nonneg (by linarith) f.eps_pos.le)
  have h2 := rnd_err (f := f) (x := |x - 1|) (abs_nonneg _)
  have := f.u_pos
  have hu := f.u_le
  have he := f.eps_le
  have he0 := f.eps_pos
  have hω := f.ω_le_eps
  have hω0 := f.ω_pos
  rw [abs_le] at h1 h2
  have e1 : M * f.eps ≤ M * (1 / 4) := mul_le_mul_of_nonneg_left he (by linarith)
  have e2 : f.u * (M * f.eps + f.ω) ≤ 1 / 8 * (M * (1 / 4) + 1 / 4) :=
    mul_le_mul hu (by linarith) (by positivity) (by norm_num)
  have e3 : f.u * (|x - 1| + f.ω) ≤ 1 / 8 * (|x - 1| + 1 / 4) :=
    mul_le_mul hu (by linarith) (by positivity) (by norm_num)
  linarith [h1.2, h2.1]

/-- The comparison with one accepts exactly the numbers within epsilon. -/
theorem near_one_iff {x : ℝ} (h : f.Rep |x|) :
    (f.rnd |x - 1| ≤ f.eps ∨ f.rnd |x - 1| ≤ f.rnd (max |x| 1 * f.eps)) ↔ |x - 1| ≤ f.eps := by
  constructor
  · intro h1
    have he := f.eps_le
    have he0 := f.eps_pos
    have hone : f.rnd (1 * f.eps) = f.eps := by rw [one_mul, rnd_of_rep f.rep_eps]
    have h2 : f.rnd |x - 1| ≤ f.rnd (max |x| 1 * f.eps) := by
      rcases h1 with h1 | h1
      · refine h1.trans ?_
        refine hone.ge.trans ?_
        exact rnd_mono (by linarith) (mul_le_mul_of_nonneg_right (le_max_right _ _) he0.le)
      · exact h1
    have h3 : |x - 1| < max |x| 1 / 2 := by
      by_contra h3
      exact absurd h2 (not_le.2 (far_from_one (le_max_right _ _) (not_lt.1 h3)))
    have hx1 : 1 / 2 ≤ x := by
      by_contra hx
      have e : |x - 1| = 1 - x := by rw [abs_of_nonpos (by linarith)]; ring
      rw [e] at h3
      rcases max_cases |x| 1 with ⟨e', _⟩ | ⟨e', _⟩ <;> rw [e'] at h3
      · rcases abs_cases x with ⟨e'', _⟩ | ⟨e'', _⟩ <;> linarith
      · linarith
    have habs : |x| = x := abs_of_nonneg (by linarith)
    rw [habs] at h h2 h3
    have hx2 : x ≤ 2 := by
      by_contra hx
      rw [max_eq_left (by linarith), abs_of_nonneg (by linarith)] at h3
      linarith
    rw [rnd_of_rep (rep_sub_one h hx1 hx2)] at h2
    rcases le_total x 1 with hx | hx
    · rwa [max_eq_right hx, hone] at h2
    · rw [max_eq_left hx] at h2
      obtain ⟨n, hn⟩ := sub_one_multiple h hx
      have ha : |x - 1| = n * f.eps := by rw [abs_of_nonneg (by linarith), hn]
      have e1 : x * f.eps ≤ 2 * f.eps := mul_le_mul_of_nonneg_right hx2 he0.le
      have r2 : f.Rep (2 * f.eps) := by
        refine ⟨2, 1 - f.p, ?_, ?_, by unfold eps; norm_num⟩
        · calc 2 < 2 ^ 3 := by norm_num
            _ ≤ 2 ^ f.p := Nat.pow_le_pow_right (by norm_num) f.three_le_p
        · have := f.emin_le
          have := f.three_le_p
          omega
      have r3 : f.Rep (3 / 2 * f.eps) := by
        refine ⟨3, -f.p, ?_, ?_, ?_⟩
        · calc 3 < 2 ^ 3 := by norm_num
            _ ≤ 2 ^ f.p := Nat.pow_le_pow_right (by norm_num) f.three_le_p
        · have := f.emin_le
          have := f.three_le_p
          omega
        · rw [eps_eq]
          unfold u
          push_cast
          ring
      have h4 := h2.trans (rnd_le (by positivity) r2 e1)
      have e2 : x * f.eps ≤ 3 / 2 * f.eps := by
        refine mul_le_mul_of_nonneg_right ?_ he0.le
        rw [abs_of_nonneg (by linarith)] at h4
        linarith
      have h5 := h2.trans (rnd_le (by positivity) r3 e2)
      rw [ha] at h5 ⊢
      have h6 : (n : ℝ) ≤ 3 / 2 := le_of_mul_le_mul_right h5 he0
      have h7 : n ≤ 1 := by
        by_contra hc
        have : (2 : ℝ) ≤ n := by exact_mod_cast (by omega : 2 ≤ n)
        linarith
      have h8 : (n : ℝ) ≤ 1 := by exact_mod_cast h7
      nlinarith
  · intro h1
    exact Or.inl (rnd_le (abs_nonneg _) f.rep_eps h1)

/-- The comparison with zero accepts exactly the numbers up to epsilon. -/
theorem near_zero_iff {x : ℝ} : (|x| ≤ f.eps ∨ |x| ≤ f.rnd (|x| * f.eps)) ↔ |x| ≤ f.eps := by
  constructor
  · rintro (h | h)
    · exact h
    · by_contra hc
      have h1 := rnd_err (f := f) (x := |x| * f.eps) (mul_nonneg (abs_nonneg _) f.eps_pos.le)
      have hu := f.u_le
      have hu0 := f.u_pos
      have he := f.eps_le
      have he0 := f.eps_pos
      have hω := f.ω_le_eps
      have hω0 := f.ω_pos
      rw [abs_le] at h1
      have e1 : |x| * f.eps ≤ |x| * (1 / 4) := mul_le_mul_of_nonneg_left he (abs_nonneg _)
      have e2 : f.u * (|x| * f.eps + f.ω) ≤ 1 / 8 * (|x| * (1 / 4) + |x|) :=
        mul_le_mul hu (by linarith) (by positivity) (by norm_num)
      linarith [h1.2]
  · exact Or.inl

end Format

namespace Flt

variable {f : Format} {a b : Flt f}

theorem beq_iff (ha : a.isFinite) (hb : b.isFinite) : beq a b = true ↔ a.val = b.val := by
  rcases a with ⟨s, x, hx⟩ | s | _ <;> rcases b with ⟨t, y, hy⟩ | t | _ <;>
    simp only [isFinite] at ha hb
  simp [beq]

theorem le_iff (ha : a.isFinite) (hb : b.isFinite) : le a b = true ↔ a.val ≤ b.val := by
  unfold le
  rw [Bool.or_eq_true, lt_iff ha hb, beq_iff ha hb, le_iff_lt_or_eq]

theorem abs_finite : (abs a).isFinite ↔ a.isFinite := by
  cases a <;> rfl

theorem val_abs (ha : a.isFinite) : (abs a).val = |a.val| := by
  rcases a with ⟨s, x, hx⟩ | s | _ <;> simp only [isFinite] at ha
  rw [abs_val s hx]
  simp [abs, val]

theorem isInf_false (ha : a.isFinite) : isInf a = false := by
  rcases a with ⟨s, x, hx⟩ | s | _ <;> simp only [isFinite] at ha
  rfl

end Flt

open Flt

/-- The comparison of two finite numbers by `relative_ne!`. -/
theorem relativeNe_finite {f : Format} {lib : Libm f} {e a b : RustFloat f lib} (he : Flt.isFinite (f := f) e)
    (hv : Flt.val (f := f) e = f.eps) (ha : Flt.isFinite (f := f) a) (hb : Flt.isFinite (f := f) b) :
    relativeNe e a b = false ↔
      (f.rnd |Flt.val (f := f) a - Flt.val (f := f) b| ≤ f.eps ∨
        f.rnd |Flt.val (f := f) a - Flt.val (f := f) b| ≤
          f.rnd (max |Flt.val (f := f) a| |Flt.val (f := f) b| * f.eps)) := by
  change Flt f at e a b
  have hL : ∃ L : Flt f, (if lt (abs a) (abs b) then abs b else abs a) = L ∧ L.isFinite ∧
      L.val = max |a.val| |b.val| := by
    by_cases h : lt (abs a) (abs b) = true
    · refine ⟨_, if_pos h, abs_finite.2 hb, ?_⟩
      rw [lt_iff (abs_finite.2 ha) (abs_finite.2 hb), val_abs ha, val_abs hb] at h
      rw [val_abs hb, max_eq_right h.le]
    · refine ⟨_, if_neg h, abs_finite.2 ha, ?_⟩
      rw [lt_iff (abs_finite.2 ha) (abs_finite.2 hb), val_abs ha, val_abs hb] at h
      rw [val_abs ha, max_eq_left (not_lt.1 h)]
  obtain ⟨L, hL1, hL2, hL3⟩ := hL
  have hL0 : 0 ≤ L.val := by rw [hL3]; exact le_max_of_le_left (abs_nonneg _)
  have hLm := mag_val L
  rw [abs_of_nonneg hL0] at hLm
  have he0 := f.eps_pos
  have he1 := f.eps_le
  have hle : f.rnd (L.val * f.eps) < 2 ^ f.emax :=
    (Format.rnd_le (by positivity) hLm.rep (by nlinarith)).trans_lt hLm.1
  have hT : (mul L e).isFinite ∧ (mul L e).val = f.rnd (L.val * f.eps) := by
    rw [mul_eq hL2 he, hv]
    have hf : (ofReal f (xor L.neg? e.neg?) (L.val * f.eps)).isFinite := by
      rw [ofReal_finite, abs_of_nonneg (by positivity)]
      exact hle
    refine ⟨hf, ?_⟩
    rw [ofReal_val hf, abs_of_nonneg (by positivity)]
    simp [show ¬ L.val * f.eps < 0 from not_lt.2 (by positivity)]
  have hd := add_eq ha ((neg_finite b).2 hb)
  rw [neg_val, ← sub_eq_add_neg] at hd
  have hmain : relativeNe (R := RustFloat f lib) e a b =
      !(if beq a b then true else if isInf a || isInf b then false
        else if le (abs (add a (neg b))) e then true
        else le (abs (add a (neg b))) (mul (if lt (abs a) (abs b) then abs b else abs a) e)) := rfl
  rw [hmain, hL1, isInf_false ha, isInf_false hb, ← hL3]
  simp only [Bool.or_self, Bool.false_eq_true, if_false, Bool.not_eq_false']
  by_cases hbeq : beq a b = true
  · rw [if_pos hbeq]
    rw [beq_iff ha hb] at hbeq
    simp [hbeq, Format.rnd_zero, he0.le]
  · rw [if_neg hbeq]
    by_cases hf : (add a (neg b)).isFinite
    · have hval : (abs (add a (neg b))).val = f.rnd |a.val - b.val| := by
        rw [val_abs hf]
        rw [hd] at hf ⊢
        rw [ofReal_val hf]
        split_ifs <;> simp [abs_of_nonneg (Format.rnd_nonneg (f := f) (abs_nonneg (a.val - b.val)))]
      have h1 := le_iff (abs_finite.2 hf) he
      have h2 := le_iff (abs_finite.2 hf) hT.1
      rw [hval, hv] at h1
      rw [hval, hT.2] at h2
      rw [← h1, ← h2]
      by_cases h : le (abs (add a (neg b))) e = true <;> simp [h]
    · have hover : 2 ^ f.emax ≤ f.rnd |a.val - b.val| := by
        rw [hd, ofReal_finite, not_lt] at hf
        exact hf
      have hinf : ∃ s, add a (neg b) = inf s := by
        rw [hd] at hf ⊢
        have hn := ofReal_ne_nan (f := f) (z := a.neg? && (neg b).neg?) (x := a.val - b.val)
        revert hf hn
        generalize ofReal f (a.neg? && (neg b).neg?) (a.val - b.val) = t
        intro hf hn
        rcases t with ⟨s, x, hx⟩ | s | _
        · exact absurd trivial hf
        · exact ⟨s, rfl⟩
        · exact absurd rfl hn
      obtain ⟨s, hs⟩ := hinf
      have hno : ∀ t : Flt f, t.isFinite → le (abs (inf s)) t = false := by
        rintro (⟨t, y, hy⟩ | t | _) ht <;> simp only [isFinite] at ht
        rfl
      have hbig : f.eps < 2 ^ f.emax :=
        he1.trans_lt ((by norm_num : (1 : ℝ) / 4 < 2 ^ (0 : ℤ)).trans_le
          (zpow_le_zpow_right₀ (by norm_num) (by have := f.le_emax; omega)))
      rw [hs, hno e he, hno _ hT.1]
      constructor
      · intro h
        simp at h
      · rintro (h | h) <;> linarith

/-- Infinities and NaN differ from every finite number. -/
theorem relativeNe_nonfinite {f : Format} {lib : Libm f} {e a b : RustFloat f lib}
    (ha : ¬ Flt.isFinite (f := f) a) (hb : Flt.isFinite (f := f) b) : relativeNe e a b = true := by
  change Flt f at e a b
  have hmain : relativeNe (R := RustFloat f lib) e a b =
      !(if beq a b then true else if isInf a || isInf b then false
        else if le (abs (add a (neg b))) e then true
        else le (abs (add a (neg b))) (mul (if lt (abs a) (abs b) then abs b else abs a) e)) := rfl
  rw [hmain]
  rcases b with ⟨t, y, hy⟩ | t | _ <;> simp only [isFinite] at hb
  rcases a with ⟨s, x, hx⟩ | s | _
  · exact absurd trivial ha
  · rfl
  · rcases e with ⟨t', y', hy'⟩ | t' | _ <;> rfl

/-- The comparison with zero. -/
theorem relativeNe_zero {f : Format} {lib : Libm f} {e a : RustFloat f lib} (he : Flt.isFinite (f := f) e)
    (hv : Flt.val (f := f) e = f.eps) :
    relativeNe e a (Scalar.lit 0) = false ↔ Flt.isFinite (f := f) a ∧ |Flt.val (f := f) a| ≤ f.eps := by
  have hz := ofF64_nat (f := f) (n := 0) (by norm_num)
  have e0 : (Scalar.lit 0 : RustFloat f lib) = ofF64 f (0 : ℕ) := by
    show ofF64 f ((0 : ℚ) : ℝ) = _
    norm_num
  rw [e0]
  by_cases ha : Flt.isFinite (f := f) a
  · rw [relativeNe_finite he hv ha hz.1]
    have hv0 : Flt.val (f := f) (ofF64 f (0 : ℕ)) = 0 := by rw [hz.2]; simp
    simp only [hv0, sub_zero, abs_zero, ha, true_and, max_eq_left (abs_nonneg (Flt.val (f := f) a)),
      Format.rnd_of_rep (mag_val (f := f) a).rep, Format.near_zero_iff]
  · rw [relativeNe_nonfinite ha hz.1]
    simp [ha]

/-- The comparison with one. -/
theorem relativeNe_one {f : Format} {lib : Libm f} {e a : RustFloat f lib} (he : Flt.isFinite (f := f) e)
    (hv : Flt.val (f := f) e = f.eps) :
    relativeNe e a (Scalar.lit 1) = false ↔ Flt.isFinite (f := f) a ∧ |Flt.val (f := f) a - 1| ≤ f.eps := by
  have hz := ofF64_nat (f := f) (n := 1) (by norm_num)
  have e0 : (Scalar.lit 1 : RustFloat f lib) = ofF64 f (1 : ℕ) := by
    show ofF64 f ((1 : ℚ) : ℝ) = _
    norm_num
  rw [e0]
  by_cases ha : Flt.isFinite (f := f) a
  · rw [relativeNe_finite he hv ha hz.1]
    have hv0 : Flt.val (f := f) (ofF64 f (1 : ℕ)) = 1 := by rw [hz.2]; simp
    simp only [hv0, abs_one, ha, true_and, Format.near_one_iff (mag_val (f := f) a).rep]
  · rw [relativeNe_nonfinite ha hz.1]
    simp [ha]

end CamGeom
