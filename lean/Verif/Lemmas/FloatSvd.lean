import Verif.Lemmas.FloatQr
import Verif.Spec.RoundingSvd

/-!
# The floating-point formats satisfy the laws used by the singular value decomposition
-/

namespace CamGeom
open Flt

theorem Flt.mag_half {f : Format} : f.Mag |1 / 2| := by
  refine ⟨?_, 1, -1, ?_, ?_, ?_⟩
  · rw [abs_of_pos (by norm_num)]
    have h : (1 : ℤ) ≤ f.emax := by have := f.p_lt; have := f.three_le_p; omega
    calc (1 / 2 : ℝ) < 2 ^ (1 : ℤ) := by norm_num
      _ ≤ 2 ^ f.emax := zpow_le_zpow_right₀ (by norm_num) h
  · exact Nat.one_lt_two_pow (by have := f.three_le_p; omega)
  · have := Format.emin_le f; have := f.three_le_p; omega
  · rw [abs_of_pos (by norm_num)]; norm_num

theorem RustFloat.roundingSvd (f : Format) (lib : Libm f) :
    RoundingSvd (RustFloat.rounding f lib) where
  le_iff {x y} hx hy := by
    have h : (Scalar.le x y = true) ↔ Scalar.lt x y = true ∨ Scalar.beq x y = true := Bool.or_eq_true _ _ ▸ Iff.rfl
    have h1 : Scalar.lt x y = true ↔ (RustFloat.rounding f lib).val x < (RustFloat.rounding f lib).val y :=
      Flt.lt_iff hx hy
    rw [h, h1, (RustFloat.roundingQr f lib).beq_iff hx hy]
    exact le_iff_lt_or_eq.symm
  lit_half := by
    show Flt.isFinite (ofF64 f ((1 / 2 : ℚ) : ℝ)) ∧ Flt.val (ofF64 f ((1 / 2 : ℚ) : ℝ)) = 1 / 2
    have e : (((1 / 2 : ℚ)) : ℝ) = 1 / 2 := by norm_num
    rw [e]
    exact ofF64_exact mag_half mag_half
  least {x} _ h0 := by
    obtain ⟨n, hn⟩ := val_multiple x
    show 2 * (f.u * f.ω) ≤ |Flt.val x|
    have e : 2 * (f.u * f.ω) = 2 ^ f.emin := by
      rw [Format.u, Format.ω, ← zpow_add₀ (by norm_num : (2 : ℝ) ≠ 0), ← zpow_one_add₀ (by norm_num)]
      congr 1; ring
    rw [e, hn, abs_mul, abs_of_pos (by positivity : (0 : ℝ) < 2 ^ f.emin)]
    have : n ≠ 0 := by
      rintro rfl
      apply h0
      show Flt.val x = 0
      rw [hn]; simp
    have : (1 : ℝ) ≤ |(n : ℝ)| := by exact_mod_cast Int.one_le_abs this
    exact le_mul_of_one_le_left (by positivity) this

end CamGeom
