import Verif.Lemmas.FloatRounding
import Verif.Spec.RoundingRange

/-!
# Range of the floating-point formats
-/

namespace CamGeom

namespace Flt

variable {f : Format} {z : Bool} {x : ℝ} {k : ℕ}

/-- Rounding does not exceed powers of two of the format. -/
theorem ofReal_within (hk : k ≤ f.emax.toNat - 1) (h : |x| ≤ 2 ^ k) :
    (ofReal f z x).isFinite ∧ |(ofReal f z x).val| ≤ 2 ^ k := by
  have hp := f.three_le_p
  have hm := f.p_lt
  have he := f.emin_le
  have h1 : f.rnd |x| ≤ 2 ^ (k : ℤ) := Format.rnd_le (abs_nonneg _) (Format.rep_pow (by omega))
    (by rw [zpow_natCast]; exact h)
  have h2 : (ofReal f z x).isFinite := ofReal_finite.2 (h1.trans_lt (zpow_lt_zpow_right₀ (by norm_num)
    (by omega)))
  refine ⟨h2, ?_⟩
  rw [zpow_natCast] at h1
  have h3 := Format.rnd_nonneg (f := f) (abs_nonneg x)
  rw [ofReal_val h2]
  split_ifs
  · rwa [abs_neg, abs_of_nonneg h3]
  · rwa [abs_of_nonneg h3]

end Flt

open Flt

/-- The floating-point types do not overflow below `2^(emax - 1)`. -/
noncomputable def RustFloat.range (f : Format) (lib : Libm f) :
    RoundingRange (RustFloat.rounding f lib) where
  top := f.emax.toNat - 1
  neg h := (Flt.neg_finite _).2 h
  add {a b k} ha hb hk h := by
    show Flt.isFinite (Flt.add (f := f) a b) ∧ |Flt.val (Flt.add (f := f) a b)| ≤ 2 ^ k
    rw [add_eq ha hb]
    exact ofReal_within hk h
  sub {a b k} ha hb hk h := by
    show Flt.isFinite (Flt.add (f := f) a (Flt.neg b)) ∧ |Flt.val (Flt.add (f := f) a (Flt.neg b))| ≤ 2 ^ k
    have e := Flt.neg_val (f := f) b
    rw [add_eq ha ((Flt.neg_finite _).2 hb)]
    refine ofReal_within hk ?_
    rw [e, ← sub_eq_add_neg]
    exact h
  mul {a b k} ha hb hk h := by
    show Flt.isFinite (Flt.mul (f := f) a b) ∧ |Flt.val (Flt.mul (f := f) a b)| ≤ 2 ^ k
    rw [mul_eq ha hb]
    exact ofReal_within hk h
  div {a b k} ha hb h0 hk h := by
    show Flt.isFinite (Flt.div (f := f) a b) ∧ |Flt.val (Flt.div (f := f) a b)| ≤ 2 ^ k
    rw [div_eq ha hb h0]
    exact ofReal_within hk h
  sqrt {a k} ha h0 hk h := by
    show Flt.isFinite (Flt.sqrt (f := f) a) ∧ |Flt.val (Flt.sqrt (f := f) a)| ≤ 2 ^ k
    have ha' : Flt.isFinite (f := f) a := ha
    have h0' : 0 ≤ Flt.val (f := f) a := h0
    have h' : Real.sqrt (Flt.val (f := f) a) ≤ 2 ^ k := h
    rcases a with ⟨s, x, hx⟩ | s | _ <;> simp only [isFinite] at ha'
    have e : Flt.val (num s x hx) = x := by
      have := abs_val s hx
      rwa [abs_of_nonneg h0'] at this
    simp only [Flt.sqrt, if_neg (not_lt.2 h0')]
    rw [e] at h'
    exact ofReal_within hk (by rwa [abs_of_nonneg (Real.sqrt_nonneg x)])

end CamGeom
