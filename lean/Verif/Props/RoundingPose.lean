import Verif.Lemmas.Rounding
import Verif.Lemmas.Fp64
import Verif.Lemmas.Loops
import Verif.Model.RealScalar
import Verif.Spec.Geometry

/-!
# C47: accuracy of `world_to_camera` and `camera_to_world`

The floating-point run of the transforms compared with the exact-arithmetic run (the same functions at
`ℝ`, which C03 to C05 characterize) on the real numbers the inputs represent.
-/

namespace CamGeom
open Rounding ExtrinsicParameters

variable {R : Type} [Scalar R] {n : ℕ}

/-- The real quaternion represented by a scalar quaternion. -/
noncomputable def Rounding.quat (fl : Rounding R) (q : Quat R) : Quat ℝ :=
  ⟨fl.val q.w, fl.val q.i, fl.val q.j, fl.val q.k⟩

/-- The real vector represented by a scalar vector. -/
noncomputable def Rounding.vec (fl : Rounding R) (v : V3 R) : V3 ℝ := fun i => fl.val (v i)

/-- Components of a quaternion computed with `k` roundings of magnitude `Q`. -/
structure QComp (fl : Rounding R) (k : ℕ) (Q : ℝ) (q : Quat R) (q' : Quat ℝ) : Prop where
  w : fl.Comp k Q q.w q'.w
  i : fl.Comp k Q q.i q'.i
  j : fl.Comp k Q q.j q'.j
  k : fl.Comp k Q q.k q'.k

variable {fl : Rounding R} {k l : ℕ} {Q M α β : ℝ}

theorem Comp.cross {a b : V3 R} {A B : V3 ℝ} (ha : ∀ i, fl.Comp k α (a i) (A i))
    (hb : ∀ i, fl.Comp l β (b i) (B i)) (j : Fin 3) :
    fl.Comp (k + l + 2) (2 * (α * β + fl.ω)) (V3.cross a b j) (V3.cross A B j) := by
  fin_cases j
  · exact (((ha 1).mul (hb 2)).sub ((ha 2).mul (hb 1))).mono le_rfl (by linarith)
  · exact (((ha 2).mul (hb 0)).sub ((ha 0).mul (hb 2))).mono le_rfl (by linarith)
  · exact (((ha 0).mul (hb 1)).sub ((ha 1).mul (hb 0))).mono le_rfl (by linarith)

theorem QComp.vector {q : Quat R} {q' : Quat ℝ} (hq : QComp fl 0 Q q q') (i : Fin 3) :
    fl.Comp 0 Q (q.vector i) (q'.vector i) := by
  fin_cases i
  · exact hq.i
  · exact hq.j
  · exact hq.k

theorem QComp.inverse {q : Quat R} {q' : Quat ℝ} (hq : QComp fl 0 Q q q') :
    QComp fl 0 Q q.inverse q'.inverse :=
  ⟨hq.w, hq.i.neg, hq.j.neg, hq.k.neg⟩

theorem QComp.rotate {q : Quat R} {q' : Quat ℝ} {v : V3 R} {v' : V3 ℝ} (hq : QComp fl 0 Q q q')
    (hv : ∀ i, fl.Comp k M (v i) (v' i)) (j : Fin 3) :
    fl.Comp (k + 7) (12 * Q ^ 2 * M + M + fl.ω * (15 * Q + 3)) (q.rotate v j) (q'.rotate v' j) := by
  have hc := Comp.cross hq.vector hv
  have ht : ∀ i, fl.Comp (k + 3) (4 * Q * M + 5 * fl.ω)
      (V3.scale (V3.cross q.vector v) (Scalar.lit 2) i)
      (V3.scale (V3.cross q'.vector v') (Scalar.lit 2) i) := fun i =>
    (((hc i).mul (Comp.two fl)).congr (by simp [V3.scale])).mono (by omega) (by linarith)
  have hcc := Comp.cross hq.vector ht
  have h1 := (ht j).mul hq.w
  have h2 := (h1.mono (k' := k + 5) (by omega) le_rfl).add ((hcc j).mono (by omega) le_rfl)
  have h3 := h2.add ((hv j).mono (k' := k + 6) (by omega) le_rfl)
  exact h3.mono le_rfl (by ring_nf; exact le_rfl)

theorem QComp.rotationMatrix {q : Quat R} {q' : Quat ℝ} (hq : QComp fl 0 Q q q') (a b : Fin 3) :
    fl.Comp 4 (4 * Q ^ 2 + 6 * fl.ω) (q.toRotationMatrix a b) (q'.toRotationMatrix a b) := by
  have two : fl.Comp 0 2 (Scalar.lit 2 : R) (Scalar.lit 2 : ℝ) := (Comp.two fl).congr (by simp)
  have hω := fl.ω_nonneg
  have diag : Q * Q + fl.ω + (Q * Q + fl.ω) + (Q * Q + fl.ω) + (Q * Q + fl.ω) ≤
      4 * Q ^ 2 + 6 * fl.ω := by linarith
  have off : (Q * Q + fl.ω) * 2 + fl.ω + ((Q * Q + fl.ω) * 2 + fl.ω) ≤
      4 * Q ^ 2 + 6 * fl.ω := by linarith
  have ww := hq.w.mul hq.w
  have ii := hq.i.mul hq.i
  have jj := hq.j.mul hq.j
  have kk := hq.k.mul hq.k
  have ij := (hq.i.mul hq.j).mul two
  have wk := (hq.w.mul hq.k).mul two
  have wj := (hq.w.mul hq.j).mul two
  have ik := (hq.i.mul hq.k).mul two
  have jk := (hq.j.mul hq.k).mul two
  have wi := (hq.w.mul hq.i).mul two
  have up : ∀ {x : R} {X B : ℝ} {k : ℕ}, fl.Comp k B x X → ∀ m, fl.Comp (k + m) B x X :=
    fun h m => h.mono (Nat.le_add_right _ _) le_rfl
  fin_cases a <;> fin_cases b
  · exact (((ww.add ii).sub (up jj 1)).sub (up kk 2)).mono le_rfl diag
  · exact (ij.sub wk).mono (by norm_num) off
  · exact (wj.add ik).mono (by norm_num) off
  · exact (wk.add ij).mono (by norm_num) off
  · exact (((ww.sub ii).add (up jj 1)).sub (up kk 2)).mono le_rfl diag
  · exact (jk.sub wi).mono (by norm_num) off
  · exact (ik.sub wj).mono (by norm_num) off
  · exact (wi.add jk).mono (by norm_num) off
  · exact (((ww.sub ii).sub (up jj 1)).add (up kk 2)).mono le_rfl diag

/-- The cached translation `-R c`. -/
theorem QComp.translation {q : Quat R} {q' : Quat ℝ} {c : V3 R} {c' : V3 ℝ}
    (hq : QComp fl 0 Q q q') (hc : ∀ i, fl.Comp 0 M (c i) (c' i)) (a : Fin 3) :
    fl.Comp 7 (12 * Q ^ 2 * M + fl.ω * (18 * M + 3))
      ((fromRotationAndCamcenter q c).translation a)
      ((fromRotationAndCamcenter q' c').translation a) := by
  have h : ∀ b, fl.Comp 5 ((4 * Q ^ 2 + 6 * fl.ω) * M + fl.ω) (q.toRotationMatrix a b * c b)
    (q'.toRotationMatrix a b * c' b) := fun b => (hq.rotationMatrix a b).mul (hc b)
  exact (((h 0).add (h 1)).add ((h 2).mono (k' := 6) (by norm_num) le_rfl)).neg.mono le_rfl
    (by linarith)

theorem QComp.of_val (fl : Rounding R) {q : Quat R} (hw : |fl.val q.w| ≤ Q) (hi : |fl.val q.i| ≤ Q)
    (hj : |fl.val q.j| ≤ Q) (hk : |fl.val q.k| ≤ Q) : QComp fl 0 Q q (fl.quat q) :=
  ⟨Comp.of_le hw, Comp.of_le hi, Comp.of_le hj, Comp.of_le hk⟩

/-- C47: every finite coordinate computed by `world_to_camera` differs from the exact result by at most
eight roundings of a quantity proportional to the size of the coordinates. -/
theorem c47_world_to_camera (fl : Rounding R) (q : Quat R) (c : V3 R) (Q M : ℝ)
    (hw : |fl.val q.w| ≤ Q) (hi : |fl.val q.i| ≤ Q) (hj : |fl.val q.j| ≤ Q) (hk : |fl.val q.k| ≤ Q)
    (hc : ∀ a, |fl.val (c a)| ≤ M) (w : Points WorldFrame R n) (i : Fin n)
    (hx : ∀ a, |fl.val (w.data i a)| ≤ M) (a : Fin 3)
    (hf : fl.isFinite (((fromRotationAndCamcenter q c).worldToCamera w).data i a)) :
    |fl.val (((fromRotationAndCamcenter q c).worldToCamera w).data i a) -
        ((fromRotationAndCamcenter (fl.quat q) (fl.vec c)).worldToCamera
          ⟨fun i => fl.vec (w.data i)⟩).data i a| ≤
      ((1 + fl.u) ^ 8 - 1) * ((24 * Q ^ 2 + 1) * M + fl.ω * (18 * M + 15 * Q + 6)) := by
  have hq := QComp.of_val fl hw hi hj hk
  have h1 := hq.rotate (v := w.data i) (v' := fl.vec (w.data i)) (fun b => Comp.of_le (hx b)) a
  have h2 := hq.translation (c := c) (c' := fl.vec c) (fun b => Comp.of_le (hc b)) a
  rw [worldToCamera_data] at hf ⊢
  rw [worldToCamera_data]
  have h3 := (h1.add h2) hf
  exact h3.2.trans (le_of_eq (by ring))

/-- C47: every finite coordinate computed by `camera_to_world` differs from the exact result by at most
fifteen roundings of a quantity proportional to the size of the coordinates. -/
theorem c47_camera_to_world (fl : Rounding R) (q : Quat R) (c : V3 R) (Q M : ℝ)
    (hw : |fl.val q.w| ≤ Q) (hi : |fl.val q.i| ≤ Q) (hj : |fl.val q.j| ≤ Q) (hk : |fl.val q.k| ≤ Q)
    (hc : ∀ a, |fl.val (c a)| ≤ M) (w : Points CameraFrame R n) (i : Fin n)
    (hx : ∀ a, |fl.val (w.data i a)| ≤ M) (a : Fin 3)
    (hf : fl.isFinite (((fromRotationAndCamcenter q c).cameraToWorld w).data i a)) :
    |fl.val (((fromRotationAndCamcenter q c).cameraToWorld w).data i a) -
        ((fromRotationAndCamcenter (fl.quat q) (fl.vec c)).cameraToWorld
          ⟨fun i => fl.vec (w.data i)⟩).data i a| ≤
      ((1 + fl.u) ^ 15 - 1) *
        ((12 * Q ^ 2 + 1) * (12 * Q ^ 2 * M + M + fl.ω * (18 * M + 3)) + fl.ω * (30 * Q + 6)) := by
  have hq := QComp.of_val fl hw hi hj hk
  have h1 := hq.inverse.rotate (v := w.data i) (v' := fl.vec (w.data i))
    (fun b => Comp.of_le (hx b)) a
  have h2 := hq.inverse.rotate (v := V3.neg (fromRotationAndCamcenter q c).translation)
    (v' := V3.neg (fromRotationAndCamcenter (fl.quat q) (fl.vec c)).translation)
    (fun b => (hq.translation (c := c) (c' := fl.vec c) (fun b => Comp.of_le (hc b)) b).neg) a
  rw [cameraToWorld_data] at hf ⊢
  rw [cameraToWorld_data]
  have h3 := ((h1.mono (k' := 14) (by norm_num) le_rfl).add h2) hf
  exact h3.2.trans (le_of_eq (by ring))

/-- Non-vacuity of C47: identity rotation, camera at the origin, point (0, 0, 1). -/
example (a : Fin 3) : Fp64.rounding.isFinite (((fromRotationAndCamcenter
    (⟨.some 1, .some 0, .some 0, .some 0⟩ : Quat Fp64) (fun _ => .some 0)).worldToCamera
      (⟨fun _ => ![.some 0, .some 0, .some 1]⟩ : Points WorldFrame Fp64 1)).data 0 a) := by
  have l2 : (Scalar.lit 2 : Fp64) = .some 2 := by simp [Scalar.lit]
  have hn : ∀ x : ℝ, -(Fp64.some x) = Fp64.some (-x) := fun _ => rfl
  rw [worldToCamera_data]
  fin_cases a <;>
    simp [fromRotationAndCamcenter, Isometry.transformPoint, Quat.rotate, V3.add, V3.scale, V3.cross,
      V3.neg, Mat.mulVec3, Quat.vector, Quat.toRotationMatrix, Fp64.mul_some, Fp64.add_some,
      Fp64.sub_some, Fp64.rounding, l2, hn]

end CamGeom
