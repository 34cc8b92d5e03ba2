import Verif.Props.CameraMatrix
import Mathlib.Analysis.Calculus.FDeriv.Mul
import Mathlib.Analysis.Calculus.FDeriv.Pi
import Mathlib.Analysis.Calculus.Deriv.Inv
import Mathlib.Topology.Algebra.Module.FiniteDimension

/-!
# C27 and C28: the Jacobian
-/

namespace CamGeom
open Spec Matrix ExtrinsicParameters

/-- Rows of the linearization: quotient rule for the homogeneous projection. -/
theorem linearizeAt_apply (c : JacobianPerspectiveCache ℝ) (x : Vec) (a : Fin 2) (b : Fin 3) :
    c.linearizeAt (.single x) a b =
      c.m a.castSucc b.castSucc / homImage c.m x 2 -
        homImage c.m x a.castSucc * c.m 2 b.castSucc / homImage c.m x 2 ^ 2 := by
  have hd : c.m 2 0 * x 0 + c.m 2 1 * x 1 + c.m 2 2 * x 2 + c.m 2 3 = homImage c.m x 2 := by
    simp [homImage, Matrix.mulVec, dotProduct, Fin.sum_univ_four]
  have h0 : c.m 0 0 * x 0 + c.m 0 1 * x 1 + c.m 0 2 * x 2 + c.m 0 3 = homImage c.m x 0 := by
    simp [homImage, Matrix.mulVec, dotProduct, Fin.sum_univ_four]
  have h1 : c.m 1 0 * x 0 + c.m 1 1 * x 1 + c.m 1 2 * x 2 + c.m 1 3 = homImage c.m x 1 := by
    simp [homImage, Matrix.mulVec, dotProduct, Fin.sum_univ_four]
  have hz : ∀ d : ℝ, d ^ (-2 : ℤ) = (d ^ 2)⁻¹ := fun d => by
    rw [zpow_neg]; rfl
  simp only [JacobianPerspectiveCache.linearizeAt, Points.single, powi_real, hd, h0, h1, hz]
  fin_cases a <;> fin_cases b <;> simp [div_eq_mul_inv] <;> ring

/-- Derivative of the homogeneous image. -/
theorem hasFDerivAt_homImage (P : Mat 3 4 ℝ) (x : Vec) (a : Fin 3) :
    HasFDerivAt (fun y : Vec => homImage P y a)
      (∑ b : Fin 3, P a b.castSucc • (ContinuousLinearMap.proj b : Vec →L[ℝ] ℝ)) x := by
  have : (fun y : Vec => homImage P y a) = fun y => P a 3 +
      (∑ b : Fin 3, P a b.castSucc • (ContinuousLinearMap.proj b : Vec →L[ℝ] ℝ)) y := by
    funext y
    simp [homImage, Matrix.mulVec, dotProduct, Fin.sum_univ_four, Fin.sum_univ_three]
    ring
  rw [this]
  exact (ContinuousLinearMap.hasFDerivAt _).const_add _

/-- C27: `linearize_at` is the Fréchet derivative of `world_to_pixel`. -/
theorem c27_derivative (p : PerspectiveParams ℝ) {e : ExtrinsicParameters ℝ}
    (he : ValidExtrinsics e) (h0 : (e.worldToCamera (.single 0)).data 0 2 ≠ 0) (x : Vec)
    (hz : (e.worldToCamera (.single x)).data 0 2 ≠ 0) :
    let c := Camera.mk (IntrinsicParametersPerspective.ofParams p) e
    HasFDerivAt (fun y : Vec => (c.worldToPixel (.single y)).data 0)
      (LinearMap.toContinuousLinearMap
        (Matrix.toLin' (Matrix.of ((JacobianPerspectiveCache.new c).linearizeAt (.single x))))) x := by
  intro c
  have hm := jacobianCache_m c
  have hden : homImage c.asCameraMatrix x 2 ≠ 0 := by
    have := (c21_depth p he h0 (.single x) 0).2
    simp only [Points.single] at this
    rw [this]
    exact div_ne_zero hz h0
  have hev : (fun y : Vec => (c.worldToPixel (.single y)).data 0) =ᶠ[nhds x]
      fun y => homProject c.asCameraMatrix y := by
    have hcont : ContinuousAt (fun y : Vec => homImage c.asCameraMatrix y 2) x :=
      (hasFDerivAt_homImage _ x 2).continuousAt
    filter_upwards [hcont.eventually_ne hden] with y hy
    have h1 := (c21_depth p he h0 (.single y) 0).2
    have h2 := c21_projects_alike p he h0 (.single y) 0 (by
      intro hy0
      rw [hy0, zero_div] at h1
      exact hy h1)
    exact h2.symm
  refine HasFDerivAt.congr_of_eventuallyEq ?_ hev
  rw [hasFDerivAt_pi']
  intro a
  have hfun : (fun y : Vec => homProject c.asCameraMatrix y a) =
      fun y => homImage c.asCameraMatrix y a.castSucc * (homImage c.asCameraMatrix y 2)⁻¹ := by
    funext y; fin_cases a <;> simp [homProject, div_eq_mul_inv]
  rw [hfun]
  have hinv := (hasDerivAt_inv hden).comp_hasFDerivAt x (hasFDerivAt_homImage c.asCameraMatrix x 2)
  have hmul := (hasFDerivAt_homImage c.asCameraMatrix x a.castSucc).mul hinv
  refine hmul.congr_fderiv ?_
  ext b
  simp only [_root_.add_apply, _root_.smul_apply,
    _root_.sum_apply, ContinuousLinearMap.proj_apply, smul_eq_mul,
    ContinuousLinearMap.comp_apply, LinearMap.coe_toContinuousLinearMap', Matrix.toLin'_apply,
    Matrix.mulVec, dotProduct, Matrix.of_apply, Function.comp]
  simp only [Fin.sum_univ_three, linearizeAt_apply, hm]
  field_simp
  ring

theorem kmul_injective {p : PerspectiveParams ℝ} (hx : p.fx ≠ 0) (hy : p.fy ≠ 0) {v w : V3 ℝ}
    (h : kmul p v = kmul p w) : v = w := by
  have h0 := congrFun h 0
  have h1 := congrFun h 1
  have h2 := congrFun h 2
  simp only [kmul, Matrix.cons_val] at h0 h1 h2
  rw [h2] at h0 h1
  have e1 : v 1 = w 1 := mul_left_cancel₀ hy (by linarith)
  rw [e1] at h0
  have e0 : v 0 = w 0 := mul_left_cancel₀ hx (by linarith)
  funext a; fin_cases a <;> assumption

theorem kmul_smul (p : PerspectiveParams ℝ) (t : ℝ) (v : V3 ℝ) : kmul p (t • v) = t • kmul p v := by
  funext a; fin_cases a <;> simp [kmul] <;> ring

theorem kmul_sub (p : PerspectiveParams ℝ) (v w : V3 ℝ) : kmul p (v - w) = kmul p v - kmul p w := by
  funext a; fin_cases a <;> simp [kmul] <;> ring

/-- Linear part of the camera matrix. -/
theorem linImage_asCameraMatrix (p : PerspectiveParams ℝ) {q : Quat ℝ} (hq : UnitQuat q) (c o : V3 ℝ)
    (a : Fin 3) :
    let m := (Camera.mk (IntrinsicParametersPerspective.ofParams p)
        (fromRotationAndCamcenter q c)).asCameraMatrix
    m a 0 * o 0 + m a 1 * o 1 + m a 2 * o 2 = (q.rotate (0 - c) 2)⁻¹ * kmul p (q.rotate o) a := by
  intro m
  have h1 := congrFun (homImage_asCameraMatrix p hq c o) a
  have h2 := congrFun (homImage_asCameraMatrix p hq c 0) a
  have h3 : kmul p (q.rotate o) = kmul p (q.rotate (o - c)) - kmul p (q.rotate (0 - c)) := by
    rw [← kmul_sub, ← rotate_sub]; congr 2; abel
  simp only [homImage, Matrix.mulVec, dotProduct, Fin.sum_univ_four, Matrix.of_apply,
    Pi.smul_apply, smul_eq_mul, Matrix.cons_val, Pi.zero_apply] at h1 h2
  rw [h3, Pi.sub_apply, mul_sub, ← h1, ← h2]
  ring

/-- C28: the Jacobian kills exactly the offsets along the viewing ray. -/
theorem c28_kernel (p : PerspectiveParams ℝ) (hx : p.fx ≠ 0) (hy : p.fy ≠ 0)
    {e : ExtrinsicParameters ℝ} (he : ValidExtrinsics e)
    (h0 : (e.worldToCamera (.single 0)).data 0 2 ≠ 0) (x : Vec)
    (hz : (e.worldToCamera (.single x)).data 0 2 ≠ 0) (o : Vec) :
    let c := Camera.mk (IntrinsicParametersPerspective.ofParams p) e
    (Matrix.of ((JacobianPerspectiveCache.new c).linearizeAt (.single x))).mulVec o = 0 ↔
      ∃ t : ℝ, o = t • (x - e.camcenter) := by
  obtain ⟨q, cc, hq, rfl⟩ := he
  intro c
  rw [worldToCamera_row hq] at h0 hz
  rw [c04_camcenter]
  have h0' : q.rotate (0 - cc) 2 ≠ 0 := h0
  have hz' : q.rotate (x - cc) 2 ≠ 0 := hz
  clear h0 hz
  have hm := jacobianCache_m c
  have hh := homImage_asCameraMatrix p hq cc x
  have hl := linImage_asCameraMatrix p hq cc o
  have hJ : ∀ a : Fin 2,
      (Matrix.of ((JacobianPerspectiveCache.new c).linearizeAt (.single x))).mulVec o a =
        (kmul p (q.rotate o) a.castSucc * q.rotate (x - cc) 2 -
          kmul p (q.rotate (x - cc)) a.castSucc * q.rotate o 2) / q.rotate (x - cc) 2 ^ 2 := by
    intro a
    have e1 : (Matrix.of ((JacobianPerspectiveCache.new c).linearizeAt (.single x))).mulVec o a =
        (c.asCameraMatrix a.castSucc 0 * o 0 + c.asCameraMatrix a.castSucc 1 * o 1 +
          c.asCameraMatrix a.castSucc 2 * o 2) / homImage c.asCameraMatrix x 2 -
        homImage c.asCameraMatrix x a.castSucc * (c.asCameraMatrix 2 0 * o 0 +
          c.asCameraMatrix 2 1 * o 1 + c.asCameraMatrix 2 2 * o 2) /
            homImage c.asCameraMatrix x 2 ^ 2 := by
      simp only [Matrix.mulVec, dotProduct, Matrix.of_apply, linearizeAt_apply, Fin.sum_univ_three, hm]
      simp only [Fin.castSucc_zero, Fin.castSucc_one, show Fin.castSucc (2 : Fin 3) = 2 from rfl]
      ring
    rw [e1]
    simp only [c]
    rw [hl, hl, hh]
    simp only [Pi.smul_apply, smul_eq_mul]
    have hk : ∀ v, kmul p v 2 = v 2 := fun v => rfl
    simp only [hk]
    field_simp
  constructor
  · intro h
    refine ⟨q.rotate o 2 / q.rotate (x - cc) 2, ?_⟩
    apply rotate_injective hq
    rw [rotate_smul]
    apply kmul_injective hx hy
    rw [kmul_smul]
    have hj : ∀ a : Fin 2, kmul p (q.rotate o) a.castSucc =
        q.rotate o 2 / q.rotate (x - cc) 2 * kmul p (q.rotate (x - cc)) a.castSucc := by
      intro a
      have h1 := congrFun h a
      rw [hJ, Pi.zero_apply, div_eq_zero_iff, or_iff_left (pow_ne_zero 2 hz')] at h1
      field_simp
      linarith
    funext a
    fin_cases a
    · exact hj 0
    · exact hj 1
    · simp [kmul]; field_simp
  · rintro ⟨t, rfl⟩
    funext a
    rw [hJ, rotate_smul, kmul_smul]
    simp only [Pi.smul_apply, smul_eq_mul, Pi.zero_apply]
    rw [div_eq_zero_iff]; left; ring

/-- Non-vacuity of C27/C28: a camera with the world origin at depth -2, and a point at depth 1. -/
example : ValidExtrinsics (fromRotationAndCamcenter exQuat ![1, 2, 3]) ∧
    ((fromRotationAndCamcenter exQuat ![1, 2, 3]).worldToCamera (.single 0)).data 0 2 ≠ 0 ∧
    ((fromRotationAndCamcenter exQuat ![1, 2, 3]).worldToCamera (.single ![1, 3, 3])).data 0 2 ≠ 0 := by
  refine ⟨ex_valid, ?_, ?_⟩ <;> rw [worldToCamera_row exQuat_unit, rotate_apply] <;>
    simp [Points.single, exQuat] <;> norm_num

end CamGeom
