import Verif.Props.PerspectiveMatrix

/-!
# Quaternions that are not normalized

The defect of rotating back and forth.
-/

namespace CamGeom
open Matrix Spec

/-- Squared norm of a quaternion. -/
def quatNormSq (q : Quat ℝ) : ℝ := q.w ^ 2 + q.i ^ 2 + q.j ^ 2 + q.k ^ 2

theorem rotate_inverse_defect (q : Quat ℝ) (v : V3 ℝ) :
    q.rotate (q.inverse.rotate v) =
      v + (4 * (1 - quatNormSq q)) • (q.vector ⨯₃ (q.vector ⨯₃ v)) := by
  rw [rotate_apply q, rotate_apply]
  funext a
  fin_cases a <;> simp [Quat.inverse, quatNormSq, cross_apply, Quat.vector] <;> ring

end CamGeom
