import Verif.Props.Projective
import Verif.Props.PerspectiveMatrix
import Mathlib.Topology.Separation.Basic

/-!
# C55–C57: finite offsets, the camera matrix in closed form, identifiability

Exact real arithmetic.
-/

namespace CamGeom
open Spec Matrix ExtrinsicParameters

theorem homImage_add (P : Mat 3 4 ℝ) (x o : Vec) (a : Fin 3) :
    homImage P (x + o) a = homImage P x a + (P a 0 * o 0 + P a 1 * o 1 + P a 2 * o 2) := by
  simp [homImage, Matrix.mulVec, dotProduct, Fin.sum_univ_four]
  ring

/-- C55: for every offset `o`, however large, the true pixel displacement is the linearized one times
depth(x) / depth(x + o). -/
theorem c55_exact_remainder (p : PerspectiveParams ℝ) {e : ExtrinsicParameters ℝ}
    (he : ValidExtrinsics e) (h0 : (e.worldToCamera (.single 0)).data 0 2 ≠ 0) (x o : Vec)
    (hz : (e.worldToCamera (.single x)).data 0 2 ≠ 0)
    (hz' : (e.worldToCamera (.single (x + o))).data 0 2 ≠ 0) :
    let c := Camera.mk (IntrinsicParametersPerspective.ofParams p) e
    (c.worldToPixel (.single (x + o))).data 0 - (c.worldToPixel (.single x)).data 0 =
      ((e.worldToCamera (.single x)).data 0 2 / (e.worldToCamera (.single (x + o))).data 0 2) •
        (Matrix.of ((JacobianPerspectiveCache.new c).linearizeAt (.single x)) *ᵥ o) := by
  intro c
  have hm := jacobianCache_m c
  have d1 : homImage c.asCameraMatrix x 2 = _ := (c21_depth p he h0 (.single x) 0).2
  have d2 : homImage c.asCameraMatrix (x + o) 2 = _ := (c21_depth p he h0 (.single (x + o)) 0).2
  have e1 : homProject c.asCameraMatrix x = (c.worldToPixel (.single x)).data 0 :=
    c21_projects_alike p he h0 (.single x) 0 hz
  have e2 : homProject c.asCameraMatrix (x + o) = (c.worldToPixel (.single (x + o))).data 0 :=
    c21_projects_alike p he h0 (.single (x + o)) 0 hz'
  have hr : (e.worldToCamera (.single x)).data 0 2 / (e.worldToCamera (.single (x + o))).data 0 2 =
      homImage c.asCameraMatrix x 2 / homImage c.asCameraMatrix (x + o) 2 := by
    rw [d1, d2, div_div_div_cancel_right₀ h0]
  have n1 : homImage c.asCameraMatrix x 2 ≠ 0 := by rw [d1]; exact div_ne_zero hz h0
  have n2 : homImage c.asCameraMatrix (x + o) 2 ≠ 0 := by rw [d2]; exact div_ne_zero hz' h0
  rw [hr, ← e1, ← e2]
  clear d1 d2 e1 e2 hr
  generalize c.asCameraMatrix = P at *
  have n2' := n2
  rw [homImage_add] at n2'
  funext a
  have lin : (Matrix.of ((JacobianPerspectiveCache.new c).linearizeAt (.single x)) *ᵥ o) a =
      (P a.castSucc 0 * o 0 + P a.castSucc 1 * o 1 + P a.castSucc 2 * o 2) / homImage P x 2 -
        homImage P x a.castSucc * (P 2 0 * o 0 + P 2 1 * o 1 + P 2 2 * o 2) / homImage P x 2 ^ 2 := by
    simp only [Matrix.mulVec, dotProduct, Matrix.of_apply, linearizeAt_apply, Fin.sum_univ_three, hm]
    simp only [Fin.castSucc_zero, Fin.castSucc_one, show Fin.castSucc (2 : Fin 3) = 2 from rfl]
    ring
  have proj : ∀ y, homProject P y a = homImage P y a.castSucc / homImage P y 2 := by
    intro y; fin_cases a <;> rfl
  simp only [Pi.sub_apply, Pi.smul_apply, smul_eq_mul]
  rw [proj, proj, lin, homImage_add, homImage_add]
  generalize P 2 0 * o 0 + P 2 1 * o 1 + P 2 2 * o 2 = b at *
  generalize P a.castSucc 0 * o 0 + P a.castSucc 1 * o 1 + P a.castSucc 2 * o 2 = b' at *
  generalize homImage P x 2 = z at *
  field_simp
  ring

/-- C55: to first order in the depth change the linearization is exact: if the offset keeps the depth,
the linearized displacement is the true one. -/
theorem c55_same_depth (p : PerspectiveParams ℝ) {e : ExtrinsicParameters ℝ}
    (he : ValidExtrinsics e) (h0 : (e.worldToCamera (.single 0)).data 0 2 ≠ 0) (x o : Vec)
    (hz : (e.worldToCamera (.single x)).data 0 2 ≠ 0)
    (hz' : (e.worldToCamera (.single (x + o))).data 0 2 = (e.worldToCamera (.single x)).data 0 2) :
    let c := Camera.mk (IntrinsicParametersPerspective.ofParams p) e
    (c.worldToPixel (.single (x + o))).data 0 = (c.worldToPixel (.single x)).data 0 +
        (Matrix.of ((JacobianPerspectiveCache.new c).linearizeAt (.single x)) *ᵥ o) := by
  intro c
  have h := c55_exact_remainder p he h0 x o hz (by rw [hz']; exact hz)
  simp only at h
  rw [hz', div_self hz, one_smul, sub_eq_iff_eq_add'] at h
  exact h

/-- Non-vacuity of C55: depths -2 (origin), 1 (point) and 4 (moved point) for one camera. -/
example : ((fromRotationAndCamcenter exQuat ![1, 2, 3]).worldToCamera (.single 0)).data 0 2 = -2 ∧
    ((fromRotationAndCamcenter exQuat ![1, 2, 3]).worldToCamera (.single ![1, 3, 3])).data 0 2 = 1 ∧
    ((fromRotationAndCamcenter exQuat ![1, 2, 3]).worldToCamera
      (.single (![1, 3, 3] + ![0, 3, 1]))).data 0 2 = 4 := by
  refine ⟨?_, ?_, ?_⟩ <;> rw [worldToCamera_row exQuat_unit, rotate_apply] <;>
    simp [Points.single, exQuat] <;> norm_num

/-- C56: `as_camera_matrix` is the product of the intrinsic matrix and `matrix()`, divided by the third
component of `translation()`; the sign test in the code has no effect. -/
theorem c56_closed_form (c : Camera ℝ (IntrinsicParametersPerspective ℝ))
    (p : PerspectiveParams ℝ) (hp : c.intrinsics = .ofParams p) (he : ValidExtrinsics c.extrinsics)
    (a : Fin 3) (b : Fin 4) :
    c.asCameraMatrix a b =
      ((!![p.fx, p.skew, p.cx; 0, p.fy, p.cy; 0, 0, 1] : Matrix (Fin 3) (Fin 3) ℝ) *
        Matrix.of c.extrinsics.matrix) a b / c.extrinsics.translation 2 := by
  obtain ⟨q, cc, hq, h⟩ := he
  rw [asCameraMatrix_apply, hp, h]
  congr 1
  · fin_cases a <;> simp [Mat.mul3, Matrix.mul_apply, Fin.sum_univ_three,
      IntrinsicParametersPerspective.asIntrinsicsMatrix, IntrinsicParametersPerspective.ofParams,
      ExtrinsicParameters.matrix]
  · simp [Mat.mul3, IntrinsicParametersPerspective.asIntrinsicsMatrix,
      IntrinsicParametersPerspective.ofParams, fromRotationAndCamcenter,
      ExtrinsicParameters.translation]

/-- C56: the linearization cache holds the same matrix (so `JacobianPerspectiveCache::new` may be fed
any camera `as_camera_matrix` accepts). -/
theorem c56_jacobian_cache (c : Camera ℝ (IntrinsicParametersPerspective ℝ)) :
    (JacobianPerspectiveCache.new c).m = c.asCameraMatrix := jacobianCache_m c

/-- A continuous function vanishing wherever two nonconstant affine functions do not vanish at 0. -/
theorem eq_zero_of_generic {h : ℝ → Vec} (hc : Continuous h) {f0 f1 g0 g1 : ℝ} (hf : f1 ≠ 0)
    (hg : g1 ≠ 0) (H : ∀ t, f0 + t * f1 ≠ 0 → g0 + t * g1 ≠ 0 → h t = 0) (t : ℝ) : h t = 0 := by
  have hd : Dense ({-f0 / f1, -g0 / g1} : Set ℝ)ᶜ :=
    (by rw [Set.compl_eq_univ_sdiff]; exact dense_univ.sdiff_finite (Set.toFinite _))
  have he : Set.EqOn h (fun _ => 0) ({-f0 / f1, -g0 / g1} : Set ℝ)ᶜ := by
    intro s hs
    simp only [Set.mem_compl_iff, Set.mem_insert_iff, Set.mem_singleton_iff, not_or] at hs
    refine H s (fun h0 => hs.1 ?_) (fun h0 => hs.2 ?_)
    · rw [eq_div_iff hf]; linarith
    · rw [eq_div_iff hg]; linarith
  exact congrFun (hc.ext_on hd continuous_const he) t

/-- A linear map under which every vector stays parallel to itself is a multiple of the identity. -/
theorem scalar_of_cross {B : Matrix (Fin 3) (Fin 3) ℝ} (h : ∀ w : Vec, w ⨯₃ (B *ᵥ w) = 0) :
    B = B 0 0 • (1 : Matrix (Fin 3) (Fin 3) ℝ) := by
  have key : ∀ x y z : ℝ, ∀ a, ((![x, y, z] : Vec) ⨯₃ (B *ᵥ ![x, y, z])) a = 0 := by
    intro x y z a; rw [h]; rfl
  have e := fun x y z => (⟨key x y z 0, key x y z 1, key x y z 2⟩ : _ ∧ _ ∧ _)
  simp only [cross_apply, Matrix.mulVec, dotProduct, Fin.sum_univ_three, Matrix.cons_val] at e
  have e1 := e 1 0 0
  have e2 := e 0 1 0
  have e3 := e 0 0 1
  have e4 := e 1 1 0
  have e5 := e 1 0 1
  simp at e1 e2 e3 e4 e5
  ext a b
  fin_cases a <;> fin_cases b <;> simp <;> linarith

/-- Two invertible affine maps of space with everywhere parallel values. -/
theorem parallel_maps {A A' : Matrix (Fin 3) (Fin 3) ℝ} (hA : IsUnit A) (hA' : IsUnit A')
    {c c' : Vec} (h : ∀ x : Vec, (A *ᵥ (x - c)) ⨯₃ (A' *ᵥ (x - c')) = 0) :
    c = c' ∧ ∃ s : ℝ, s ≠ 0 ∧ A' = s • A := by
  set b := A' *ᵥ (c - c') with hb
  have h1 : ∀ v : Vec, (A *ᵥ v) ⨯₃ (A' *ᵥ v) + (A *ᵥ v) ⨯₃ b = 0 := by
    intro v
    have := h (c + v)
    rwa [add_sub_cancel_left, show c + v - c' = v + (c - c') by abel, mulVec_add, ← hb,
      map_add] at this
  have h2 : ∀ v : Vec, (A *ᵥ v) ⨯₃ b = 0 := by
    intro v
    have e1 := h1 v
    have e2 := h1 (-v)
    simp only [mulVec_neg, map_neg, LinearMap.neg_apply, neg_neg] at e2
    have : (2 : ℝ) • ((A *ᵥ v) ⨯₃ b) = 0 := by
      have e3 : (2 : ℝ) • ((A *ᵥ v) ⨯₃ b) = ((A *ᵥ v) ⨯₃ (A' *ᵥ v) + (A *ᵥ v) ⨯₃ b) -
          ((A *ᵥ v) ⨯₃ (A' *ᵥ v) + -((A *ᵥ v) ⨯₃ b)) := by module
      rw [e3, e1, e2, sub_zero]
    exact (smul_eq_zero.1 this).resolve_left two_ne_zero
  have h3 : ∀ v : Vec, (A *ᵥ v) ⨯₃ (A' *ᵥ v) = 0 := by
    intro v; have := h1 v; rwa [h2, add_zero] at this
  have hdet := (Matrix.isUnit_iff_isUnit_det A).1 hA
  have surj : ∀ w : Vec, A *ᵥ (A⁻¹ *ᵥ w) = w := by
    intro w; rw [mulVec_mulVec, Matrix.mul_nonsing_inv _ hdet, one_mulVec]
  have hb0 : b = 0 := by
    have k0 := h2 (A⁻¹ *ᵥ ![1, 0, 0])
    have k1 := h2 (A⁻¹ *ᵥ ![0, 1, 0])
    rw [surj, cross_apply] at k0 k1
    have a1 := congrFun k0 1
    have a2 := congrFun k0 2
    have a3 := congrFun k1 2
    simp at a1 a2 a3
    funext a; fin_cases a <;> simp <;> linarith
  have hinj' := (Matrix.mulVec_injective_iff_isUnit (A := A')).2 hA'
  refine ⟨sub_eq_zero.1 (hinj' (by rw [← hb, hb0, mulVec_zero])), ?_⟩
  have hB := scalar_of_cross (B := A' * A⁻¹) (fun w => by
    have := h3 (A⁻¹ *ᵥ w)
    rwa [surj, mulVec_mulVec] at this)
  set s := (A' * A⁻¹) 0 0 with hs
  have hA's : A' = s • A := by
    have : A' = A' * A⁻¹ * A := by rw [mul_assoc, Matrix.nonsing_inv_mul _ hdet, mul_one]
    rw [this, hB, smul_mul_assoc, one_mul]
  refine ⟨s, ?_, hA's⟩
  intro h0
  rw [h0, zero_smul] at hA's
  rw [hA's] at hA'
  exact not_isUnit_zero hA'

/-- A direction not orthogonal to either of two nonzero vectors. -/
theorem generic_direction {a b : Vec} (ha : a ≠ 0) (hb : b ≠ 0) : ∃ v : Vec, a ⬝ᵥ v ≠ 0 ∧ b ⬝ᵥ v ≠ 0 := by
  have h1 : 0 < a ⬝ᵥ a := lt_of_le_of_ne (dot_self_nonneg a) (fun h => ha (dot_self_eq_zero.1 h.symm))
  have h2 : 0 < b ⬝ᵥ b := lt_of_le_of_ne (dot_self_nonneg b) (fun h => hb (dot_self_eq_zero.1 h.symm))
  by_cases h : 0 ≤ a ⬝ᵥ b
  · refine ⟨a + b, ?_, ?_⟩ <;> simp only [dotProduct_add, dotProduct_comm b a] <;> positivity
  · push Not at h
    refine ⟨a - b, ?_, ?_⟩ <;> simp only [dotProduct_sub, dotProduct_comm b a] <;> linarith

/-- The intrinsic matrix. -/
def kMat (p : PerspectiveParams ℝ) : Mat 3 3 ℝ :=
  ![![p.fx, p.skew, p.cx], ![0, p.fy, p.cy], ![0, 0, 1]]

theorem kMat_mulVec (p : PerspectiveParams ℝ) (v : V3 ℝ) : Matrix.of (kMat p) *ᵥ v = kmul p v := by
  funext a
  fin_cases a <;> simp [kMat, kmul, Matrix.mulVec, dotProduct, Fin.sum_univ_three]

theorem kMat_upper (p : PerspectiveParams ℝ) : Upper (kMat p) := by
  intro i j h; fin_cases i <;> fin_cases j <;> simp_all [kMat]

theorem kMat_isUnit {p : PerspectiveParams ℝ} (hx : p.fx ≠ 0) (hy : p.fy ≠ 0) :
    IsUnit (Matrix.of (kMat p)) := by
  rw [Matrix.isUnit_iff_isUnit_det, Matrix.det_fin_three]
  simp [kMat, hx, hy]

theorem isRotation_isUnit {M : Mat 3 3 ℝ} (h : IsRotation M) : IsUnit (Matrix.of M) := by
  rw [Matrix.isUnit_iff_isUnit_det, h.2]; exact isUnit_one

/-- C57: the images of all points determine a perspective camera with positive focal lengths:
intrinsic parameters, camera centre and rotation. -/
theorem c57_perspective {p p' : PerspectiveParams ℝ} (hx : 0 < p.fx) (hy : 0 < p.fy)
    (hx' : 0 < p'.fx) (hy' : 0 < p'.fy) {e e' : ExtrinsicParameters ℝ} (he : ValidExtrinsics e)
    (he' : ValidExtrinsics e')
    (H : ∀ x : Vec, (e.worldToCamera (.single x)).data 0 2 ≠ 0 →
      (e'.worldToCamera (.single x)).data 0 2 ≠ 0 →
      ((Camera.mk (IntrinsicParametersPerspective.ofParams p) e).worldToPixel (.single x)).data 0 =
        ((Camera.mk (IntrinsicParametersPerspective.ofParams p') e').worldToPixel (.single x)).data 0) :
    p = p' ∧ e.camcenter = e'.camcenter ∧ e.rotation = e'.rotation := by
  have hR := (c05_translation_rotation he).2
  have hR' := (c05_translation_rotation he').2
  set R := Matrix.of e.rotation with hRd
  set R' := Matrix.of e'.rotation with hRd'
  have hz : ∀ (R : Matrix (Fin 3) (Fin 3) ℝ) (y : Vec) (d : Vec) (t : ℝ),
      (R *ᵥ (y + t • d)) 2 = (R *ᵥ y) 2 + t * (R *ᵥ d) 2 := by
    intro R y d t; rw [mulVec_add, mulVec_smul]; rfl
  have hrow : ∀ (M : Mat 3 3 ℝ), IsRotation M → M 2 ≠ 0 := by
    intro M hM h0
    have h1 : Matrix.of M * (Matrix.of M).transpose = 1 := mul_eq_one_comm.1 hM.1
    have h2 := congrFun (congrFun h1 2) 2
    simp only [Matrix.mul_apply, Matrix.of_apply, Matrix.transpose_apply, h0] at h2
    simp at h2
  obtain ⟨d, hd, hd'⟩ := generic_direction (hrow _ hR) (hrow _ hR')
  have key : ∀ x : Vec, ((Matrix.of (kMat p) * R) *ᵥ (x - e.camcenter)) ⨯₃
      ((Matrix.of (kMat p') * R') *ᵥ (x - e'.camcenter)) = 0 := by
    intro x
    set h : ℝ → Vec := fun t => (kmul p (R *ᵥ (x + t • d - e.camcenter))) ⨯₃
      (kmul p' (R' *ᵥ (x + t • d - e'.camcenter))) with hh
    have hcont : Continuous h := by
      have c1 : ∀ (p : PerspectiveParams ℝ) (M : Matrix (Fin 3) (Fin 3) ℝ) (c : Vec),
          Continuous fun t : ℝ => kmul p (M *ᵥ (x + t • d - c)) := by
        intro p M c
        have : (fun t : ℝ => kmul p (M *ᵥ (x + t • d - c))) =
            fun t : ℝ => (Matrix.of (kMat p) * M) *ᵥ (x + t • d - c) := by
          funext t; rw [← kMat_mulVec, mulVec_mulVec]
        rw [this]
        fun_prop
      simp only [hh, cross_apply]
      have k1 := c1 p R e.camcenter
      have k2 := c1 p' R' e'.camcenter
      have q1 : ∀ a, Continuous fun t : ℝ => kmul p (R *ᵥ (x + t • d - e.camcenter)) a :=
        fun a => (continuous_apply a).comp k1
      have q2 : ∀ a, Continuous fun t : ℝ => kmul p' (R' *ᵥ (x + t • d - e'.camcenter)) a :=
        fun a => (continuous_apply a).comp k2
      refine continuous_pi fun a => ?_
      fin_cases a
      · exact ((q1 1).mul (q2 2)).sub ((q1 2).mul (q2 1))
      · exact ((q1 2).mul (q2 0)).sub ((q1 0).mul (q2 2))
      · exact ((q1 0).mul (q2 1)).sub ((q1 1).mul (q2 0))
    have h0 : h 0 = 0 := by
      refine eq_zero_of_generic hcont (f0 := (R *ᵥ (x - e.camcenter)) 2) (f1 := (R *ᵥ d) 2)
        (g0 := (R' *ᵥ (x - e'.camcenter)) 2) (g1 := (R' *ᵥ d) 2) hd hd' ?_ 0
      intro t n1 n2
      have s1 : x + t • d - e.camcenter = (x - e.camcenter) + t • d := by abel
      have s2 : x + t • d - e'.camcenter = (x - e'.camcenter) + t • d := by abel
      have w1 : (e.worldToCamera (.single (x + t • d))).data 0 = R *ᵥ (x + t • d - e.camcenter) :=
        worldToCamera_rot he _ 0
      have w2 : (e'.worldToCamera (.single (x + t • d))).data 0 =
          R' *ᵥ (x + t • d - e'.camcenter) := worldToCamera_rot he' _ 0
      have m1 : (e.worldToCamera (.single (x + t • d))).data 0 2 ≠ 0 := by
        rw [w1, s1, hz]; exact n1
      have m2 : (e'.worldToCamera (.single (x + t • d))).data 0 2 ≠ 0 := by
        rw [w2, s2, hz]; exact n2
      have E := H (x + t • d) m1 m2
      rw [persp_worldToPixel p _ 0 m1, persp_worldToPixel p' _ 0 m2, w1, w2] at E
      rw [w1] at m1
      rw [w2] at m2
      simp only [hh]
      generalize R *ᵥ (x + t • d - e.camcenter) = y at *
      generalize R' *ᵥ (x + t • d - e'.camcenter) = y' at *
      have E0 := congrFun E 0
      have E1 := congrFun E 1
      simp only [pinhole, Matrix.cons_val] at E0 E1
      have E0' : (kmul p y 0) / y 2 = (kmul p' y' 0) / y' 2 := by
        simp only [kmul, Matrix.cons_val]
        rw [add_div, add_div, add_div, add_div, mul_div_assoc, mul_div_assoc, mul_div_assoc,
          mul_div_assoc, mul_div_assoc, mul_div_assoc, div_self m1, div_self m2, mul_one, mul_one]
        exact E0
      have E1' : (kmul p y 1) / y 2 = (kmul p' y' 1) / y' 2 := by
        simp only [kmul, Matrix.cons_val]
        rw [add_div, add_div, mul_div_assoc, mul_div_assoc, mul_div_assoc,
          mul_div_assoc, div_self m1, div_self m2, mul_one, mul_one]
        exact E1
      rw [div_eq_div_iff m1 m2] at E0' E1'
      have z1 : kmul p y 2 = y 2 := rfl
      have z2 : kmul p' y' 2 = y' 2 := rfl
      rw [cross_apply]
      funext a
      fin_cases a
      · simp [z1, z2]; linarith
      · simp [z1, z2]; linarith
      · simp only [Fin.reduceFinMk, Matrix.cons_val, Pi.zero_apply]
        have f1 : (kmul p y 0 * kmul p' y' 1 - kmul p y 1 * kmul p' y' 0) * (y 2 * y' 2) = 0 := by
          linear_combination kmul p' y' 1 * y 2 * E0' - kmul p' y' 0 * y 2 * E1'
        exact (mul_eq_zero.1 f1).resolve_right (mul_ne_zero m1 m2)
    simpa [hh, ← kMat_mulVec, mulVec_mulVec] using h0
  obtain ⟨hc, s, hs, hK⟩ := parallel_maps ((kMat_isUnit hx.ne' hy.ne').mul (isRotation_isUnit hR))
    ((kMat_isUnit hx'.ne' hy'.ne').mul (isRotation_isUnit hR')) key
  obtain ⟨hRR, hKK⟩ := rq_unique hs (kMat_upper p) (kMat_upper p') hR hR'
    (Or.inl (by intro i; fin_cases i <;> simp [kMat, hx, hy]))
    (Or.inl (by intro i; fin_cases i <;> simp [kMat, hx', hy'])) hK
  have h22 := hKK 2 2
  simp only [kMat, Matrix.cons_val, mul_one] at h22
  refine ⟨?_, hc, hRR.symm⟩
  have h00 := hKK 0 0
  have h01 := hKK 0 1
  have h02 := hKK 0 2
  have h11 := hKK 1 1
  have h12 := hKK 1 2
  simp only [kMat, Matrix.cons_val, ← h22, one_mul] at h00 h01 h02 h11 h12
  ext
  · exact h00.symm
  · exact h11.symm
  · exact h01.symm
  · exact h02.symm
  · exact h12.symm

/-- C57: the second camera of `c57_sign_ambiguity` exists for every camera. -/
theorem c57_second_camera {e : ExtrinsicParameters ℝ} (he : ValidExtrinsics e) :
    ∃ e' : ExtrinsicParameters ℝ, ValidExtrinsics e' ∧ e'.camcenter = e.camcenter ∧
      ∀ b, e'.rotation 0 b = -e.rotation 0 b ∧ e'.rotation 1 b = -e.rotation 1 b ∧
        e'.rotation 2 b = e.rotation 2 b := by
  obtain ⟨q, c, hq, rfl⟩ := he
  have hk : UnitQuat (⟨0, 0, 0, 1⟩ : Quat ℝ) := by norm_num [UnitQuat]
  refine ⟨fromRotationAndCamcenter (Quat.mul ⟨0, 0, 0, 1⟩ q) c, ⟨_, _, unitQuat_mul hk hq, rfl⟩, rfl,
    fun b => ?_⟩
  have e1 : ∀ q c, (fromRotationAndCamcenter q c : ExtrinsicParameters ℝ).rotation =
    q.toRotationMatrix := fun _ _ => rfl
  rw [e1, e1]
  fin_cases b <;> refine ⟨?_, ?_, ?_⟩ <;> simp [Quat.toRotationMatrix, Quat.mul] <;> ring

/-- C57 needs the sign condition: turning the camera by 180 degrees about its axis and negating both
focal lengths and the skew gives the same image. -/
theorem c57_sign_ambiguity (p : PerspectiveParams ℝ) {e e' : ExtrinsicParameters ℝ}
    (he : ValidExtrinsics e) (he' : ValidExtrinsics e') (hc : e'.camcenter = e.camcenter)
    (hr : ∀ b, e'.rotation 0 b = -e.rotation 0 b ∧ e'.rotation 1 b = -e.rotation 1 b ∧
      e'.rotation 2 b = e.rotation 2 b) {n : ℕ} (w : Points WorldFrame ℝ n) (i : Fin n)
    (hz : (e.worldToCamera w).data i 2 ≠ 0) :
    ((Camera.mk (IntrinsicParametersPerspective.ofParams
        ⟨-p.fx, -p.fy, -p.skew, p.cx, p.cy⟩) e').worldToPixel w).data i =
      ((Camera.mk (IntrinsicParametersPerspective.ofParams p) e).worldToPixel w).data i := by
  have h : (e'.worldToCamera w).data i = ![-(e.worldToCamera w).data i 0,
      -(e.worldToCamera w).data i 1, (e.worldToCamera w).data i 2] := by
    rw [worldToCamera_rot he, worldToCamera_rot he', hc]
    funext a
    fin_cases a <;> simp [Matrix.mulVec, dotProduct, Fin.sum_univ_three, hr]
  rw [persp_worldToPixel p w i hz, persp_worldToPixel _ w i (by rw [h]; exact hz), h]
  funext a
  fin_cases a <;> simp [pinhole] <;> ring

theorem right_row {e : ExtrinsicParameters ℝ} (he : ValidExtrinsics e) (x : Vec) :
    (e.worldToCamera (.single x)).data 0 0 = e.rotation 0 ⬝ᵥ (x - e.camcenter) ∧
    (e.worldToCamera (.single x)).data 0 1 = e.rotation 1 ⬝ᵥ (x - e.camcenter) := by
  rw [worldToCamera_rot he]; exact ⟨rfl, rfl⟩

theorem row_len {M : Mat 3 3 ℝ} (hM : IsRotation M) (a : Fin 3) : M a ⬝ᵥ M a = 1 := by
  have h1 : Matrix.of M * (Matrix.of M).transpose = 1 := mul_eq_one_comm.1 hM.1
  have h2 := congrFun (congrFun h1 a) a
  rw [Matrix.one_apply_eq] at h2
  exact h2

/-- The third row of a rotation matrix is the cross product of the first two. -/
theorem row_cross {M : Mat 3 3 ℝ} (hM : IsRotation M) : M 2 = M 0 ⨯₃ M 1 := by
  have h1 : Matrix.of M * (Matrix.of M).transpose = 1 := mul_eq_one_comm.1 hM.1
  have hadj : (Matrix.of M).adjugate = (Matrix.of M).transpose := by
    have h2 := Matrix.mul_adjugate (Matrix.of M)
    rw [hM.2, one_smul] at h2
    calc (Matrix.of M).adjugate = ((Matrix.of M).transpose * Matrix.of M) * (Matrix.of M).adjugate := by
          rw [hM.1, one_mul]
      _ = _ := by rw [mul_assoc, h2, mul_one]
  have e : ∀ a, (Matrix.of M).adjugate a 2 = M 2 a := fun a => by rw [hadj]; rfl
  rw [Matrix.adjugate_fin_three] at e
  have e0 := e 0
  have e1 := e 1
  have e2 := e 2
  simp at e0 e1 e2
  rw [cross_apply]
  funext a
  fin_cases a <;> simp <;> linarith

/-- C57, orthographic: with positive scales, the images of all points agree exactly if the scales and
rotation agree and the image of one point does (the position along the viewing direction, and the
split between camera centre and image centre, are not determined). -/
theorem c57_orthographic {p p' : OrthographicParams ℝ} (hx : 0 < p.sx) (hy : 0 < p.sy)
    (hx' : 0 < p'.sx) (hy' : 0 < p'.sy) {e e' : ExtrinsicParameters ℝ} (he : ValidExtrinsics e)
    (he' : ValidExtrinsics e') (y : Vec) :
    (∀ x : Vec,
      ((Camera.mk (IntrinsicParametersOrthographic.ofParams p) e).worldToPixel (.single x)).data 0 =
        ((Camera.mk (IntrinsicParametersOrthographic.ofParams p') e').worldToPixel
          (.single x)).data 0) ↔
    p.sx = p'.sx ∧ p.sy = p'.sy ∧ e.rotation = e'.rotation ∧
      ((Camera.mk (IntrinsicParametersOrthographic.ofParams p) e).worldToPixel (.single y)).data 0 =
        ((Camera.mk (IntrinsicParametersOrthographic.ofParams p') e').worldToPixel
          (.single y)).data 0 := by
  have hR := (c05_translation_rotation he).2
  have hR' := (c05_translation_rotation he').2
  have form : ∀ x, ((Camera.mk (IntrinsicParametersOrthographic.ofParams p) e).worldToPixel
        (.single x)).data 0 =
      ((Camera.mk (IntrinsicParametersOrthographic.ofParams p') e').worldToPixel (.single x)).data 0 ↔
      p.sx * (e.rotation 0 ⬝ᵥ (x - e.camcenter)) + p.cx =
          p'.sx * (e'.rotation 0 ⬝ᵥ (x - e'.camcenter)) + p'.cx ∧
        p.sy * (e.rotation 1 ⬝ᵥ (x - e.camcenter)) + p.cy =
          p'.sy * (e'.rotation 1 ⬝ᵥ (x - e'.camcenter)) + p'.cy := by
    intro x
    rw [ortho_worldToPixel, ortho_worldToPixel, orthographic, orthographic, (right_row he x).1,
      (right_row he x).2, (right_row he' x).1, (right_row he' x).2]
    constructor
    · intro h; exact ⟨congrFun h 0, congrFun h 1⟩
    · rintro ⟨h1, h2⟩; rw [h1, h2]
  constructor
  · intro H
    have H' := fun x => (form x).1 (H x)
    have vec : ∀ {s s' c c' : ℝ} {r r' o o' : Vec}, 0 < s → 0 < s' → r ⬝ᵥ r = 1 → r' ⬝ᵥ r' = 1 →
        (∀ x, s * (r ⬝ᵥ (x - o)) + c = s' * (r' ⬝ᵥ (x - o')) + c') → s = s' ∧ r = r' := by
      intro s s' c c' r r' o o' hs hs' hr hr' h
      have e1 : ∀ v : Vec, s * (r ⬝ᵥ v) = s' * (r' ⬝ᵥ v) := by
        intro v
        have a := h (0 + v)
        have b := h 0
        rw [add_sub_assoc, add_sub_assoc, dotProduct_add, dotProduct_add] at a
        simp only [dotProduct_zero, zero_add, dotProduct_sub] at a b
        linarith
      have e2 := e1 r
      have e3 := e1 r'
      rw [hr, dotProduct_comm r' r] at e2
      rw [hr'] at e3
      have hss : s = s' := by
        have : s * s = s' * s' := by
          have g1 : s = s' * (r ⬝ᵥ r') := by linarith
          have g2 : s' = s * (r ⬝ᵥ r') := by linarith
          calc s * s = s * (s' * (r ⬝ᵥ r')) := by rw [← g1]
            _ = s' * (s * (r ⬝ᵥ r')) := by ring
            _ = s' * s' := by rw [← g2]
        rcases mul_self_eq_mul_self_iff.1 this with h | h
        · exact h
        · linarith
      refine ⟨hss, ?_⟩
      have e4 : ∀ v : Vec, r ⬝ᵥ v = r' ⬝ᵥ v := by
        intro v; have := e1 v; rw [hss] at this; exact mul_left_cancel₀ hs'.ne' this
      exact dotProduct_eq _ _ e4
    obtain ⟨s1, r1⟩ := vec hx hx' (row_len hR 0) (row_len hR' 0) fun x => (H' x).1
    obtain ⟨s2, r2⟩ := vec hy hy' (row_len hR 1) (row_len hR' 1) fun x => (H' x).2
    refine ⟨s1, s2, ?_, H y⟩
    funext a
    fin_cases a
    · exact r1
    · exact r2
    · show e.rotation 2 = e'.rotation 2
      rw [row_cross hR, row_cross hR', r1, r2]
  · rintro ⟨s1, s2, hr, hy0⟩ x
    rw [form] at hy0 ⊢
    obtain ⟨a1, a2⟩ := hy0
    rw [← hr] at a1 a2 ⊢
    rw [← s1] at a1 ⊢
    rw [← s2] at a2 ⊢
    simp only [dotProduct_sub] at a1 a2 ⊢
    constructor <;> linarith

end CamGeom
