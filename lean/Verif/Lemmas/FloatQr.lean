import Verif.Lemmas.FloatRounding
import Verif.Spec.RoundingQr

/-!
# The floating-point formats satisfy the laws used by the QR decomposition
-/

namespace CamGeom
open Flt

theorem RustFloat.roundingQr (f : Format) (lib : Libm f) :
    RoundingQr (RustFloat.rounding f lib) where
  abs {x} h := by
    rcases x with ⟨s, y, hy⟩ | s | _
    · refine ⟨trivial, ?_⟩
      show Flt.val (Flt.num false y hy) = |Flt.val (Flt.num s y hy)|
      rw [abs_val]; rfl
    · exact h.elim
    · exact h.elim
  beq_iff {x y} hx hy := by
    rcases x with ⟨s, a, ha⟩ | s | _
    · rcases y with ⟨t, b, hb⟩ | t | _
      · exact decide_eq_true_iff
      · exact hy.elim
      · exact hy.elim
    · exact hx.elim
    · exact hx.elim
  lit_neg_two := by
    have e : (((-2 : ℚ) : ℝ)) = -2 := by norm_num
    show Flt.isFinite (ofF64 f ((-2 : ℚ) : ℝ)) ∧ Flt.val (ofF64 f ((-2 : ℚ) : ℝ)) = -2
    rw [e]
    have h : ∀ g : Format, g.Mag |(-2 : ℝ)| := fun g => by
      have := mag_nat (f := g) (small_lt (n := 2) (by norm_num))
      simpa using this
    exact ofF64_exact (h _) (h f)

end CamGeom
