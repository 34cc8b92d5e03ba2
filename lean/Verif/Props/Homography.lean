import Verif.Props.Epipolar

/-!
# C109: a plane, or a purely rotating camera, and two perspective images
-/

namespace CamGeom
open Spec Matrix ExtrinsicParameters

/-- A pixel in homogeneous coordinates. -/
def homogeneous (u : Fin 2 → ℝ) : Vec := ![u 0, u 1, 1]

/-- Camera coordinates to homogeneous pixel coordinates. -/
def calibration (p : PerspectiveParams ℝ) : Matrix (Fin 3) (Fin 3) ℝ := !![p.fx, p.skew, p.cx; 0, p.fy, p.cy; 0, 0, 1]

section
variable {p p' : PerspectiveParams ℝ} {e e' : ExtrinsicParameters ℝ}

theorem calibration_det (p : PerspectiveParams ℝ) : (calibration p).det = p.fx * p.fy := by
  simp [calibration, det_fin_three]

/-- Being shown in a pixel, in homogeneous coordinates. -/
theorem shows_iff_homogeneous (he : ValidExtrinsics e) (x : Vec) (u : Fin 2 → ℝ) :
    Shows p e x u ↔ ∃ z : ℝ, z ≠ 0 ∧ calibration p *ᵥ (Matrix.of e.rotation *ᵥ (x - e.camcenter)) = z • homogeneous u := by
  have hX : (e.worldToCamera (.single x)).data 0 = Matrix.of e.rotation *ᵥ (x - e.camcenter) := worldToCamera_rot he _ _
  unfold Shows
  rw [← hX]
  constructor
  · rintro ⟨hz, rfl⟩
    refine ⟨_, hz, ?_⟩
    rw [persp_worldToPixel p _ 0 hz]
    generalize (e.worldToCamera (.single x)).data 0 = X at hz
    funext a
    fin_cases a <;> simp [calibration, homogeneous, pinhole, mulVec, dotProduct, Fin.sum_univ_three] <;> field_simp
  · rintro ⟨z, hz, h⟩
    have h2 := congrFun h 2
    have hzz : (e.worldToCamera (.single x)).data 0 2 = z := by
      simpa [calibration, homogeneous, mulVec, dotProduct, Fin.sum_univ_three] using h2
    refine ⟨hzz ▸ hz, ?_⟩
    rw [persp_worldToPixel p _ 0 (hzz ▸ hz)]
    have h0 := congrFun h 0
    have h1 := congrFun h 1
    rw [← hzz] at hz h0 h1
    generalize (e.worldToCamera (.single x)).data 0 = X at *
    simp [calibration, homogeneous, mulVec, dotProduct, Fin.sum_univ_three] at h0 h1
    funext a
    fin_cases a <;> simp [pinhole] <;> field_simp <;> linarith

/-- **C109**: two cameras with different centres and the points of a plane `n · x = h` through neither centre: one invertible
3x3 matrix takes the pixel of every such point in the first camera to its pixel in the second. -/
theorem c109_plane (hx : p.fx ≠ 0) (hy : p.fy ≠ 0) (hx' : p'.fx ≠ 0) (hy' : p'.fy ≠ 0) (he : ValidExtrinsics e)
    (he' : ValidExtrinsics e') {n : Vec} {h : ℝ} (hc : n ⬝ᵥ e.camcenter ≠ h) (hc' : n ⬝ᵥ e'.camcenter ≠ h) :
    ∃ H : Matrix (Fin 3) (Fin 3) ℝ, H.det ≠ 0 ∧ ∀ x, n ⬝ᵥ x = h → ∀ u, Shows p e x u → ∀ v,
      (Shows p' e' x v ↔ ∃ k : ℝ, k ≠ 0 ∧ H *ᵥ homogeneous u = k • homogeneous v) := by
  set δ := h - n ⬝ᵥ e.camcenter with hδ
  have hδ0 : δ ≠ 0 := sub_ne_zero.2 (Ne.symm hc)
  set b := e.camcenter - e'.camcenter with hb
  set A := calibration p * Matrix.of e.rotation with hA
  set A' := calibration p' * Matrix.of e'.rotation with hA'
  have rot : ∀ {e : ExtrinsicParameters ℝ}, ValidExtrinsics e → (Matrix.of e.rotation).det = 1 := fun he =>
    (c05_translation_rotation he).2.2
  have dA : A.det = p.fx * p.fy := by rw [hA, det_mul, calibration_det, rot he, mul_one]
  have dA' : A'.det = p'.fx * p'.fy := by rw [hA', det_mul, calibration_det, rot he', mul_one]
  have uA : IsUnit A.det := by rw [dA]; exact (mul_ne_zero hx hy).isUnit
  set B : Matrix (Fin 3) (Fin 3) ℝ := 1 + (1 / δ) • vecMulVec b n with hB
  have dB : B.det ≠ 0 := by
    have : δ * B.det = h - n ⬝ᵥ e'.camcenter := by
      have e1 : B.det = 1 + (b ⬝ᵥ n) / δ := by
        rw [hB, det_fin_three]
        simp [vecMulVec, dotProduct, Fin.sum_univ_three]
        ring
      rw [e1, mul_add, mul_one, mul_div_cancel₀ _ hδ0, hδ, hb, sub_dotProduct, dotProduct_comm e.camcenter,
        dotProduct_comm e'.camcenter]
      ring
    intro h0
    rw [h0, mul_zero] at this
    exact hc' (by linarith)
  refine ⟨A' * B * A⁻¹, ?_, ?_⟩
  · rw [det_mul, det_mul, dA', det_nonsing_inv]
    refine mul_ne_zero (mul_ne_zero (mul_ne_zero hx' hy') dB) ?_
    rw [Ring.inverse_eq_inv', dA]
    exact inv_ne_zero (mul_ne_zero hx hy)
  · intro x hnx u hu v
    obtain ⟨z, hz, hzu⟩ := (shows_iff_homogeneous he x u).1 hu
    rw [mulVec_mulVec, ← hA] at hzu
    have hxB : x - e'.camcenter = B *ᵥ (x - e.camcenter) := by
      have hn : n ⬝ᵥ (x - e.camcenter) = δ := by rw [dotProduct_sub, hnx]
      have hv : vecMulVec b n *ᵥ (x - e.camcenter) = δ • b := by
        rw [← hn]
        funext a
        fin_cases a <;> simp [vecMulVec, mulVec, dotProduct, Fin.sum_univ_three] <;> ring
      rw [hB, add_mulVec, one_mulVec, smul_mulVec, hv, smul_smul, one_div, inv_mul_cancel₀ hδ0, one_smul, hb]
      abel
    have key : A' *ᵥ (x - e'.camcenter) = z • ((A' * B * A⁻¹) *ᵥ homogeneous u) := by
      rw [hxB, ← mulVec_smul, ← hzu, mulVec_mulVec, mulVec_mulVec, Matrix.mul_assoc _ A⁻¹, nonsing_inv_mul A uA,
        Matrix.mul_one]
    rw [shows_iff_homogeneous he' x v, mulVec_mulVec, ← hA', key]
    constructor
    · rintro ⟨w, hw, h1⟩
      refine ⟨w / z, div_ne_zero hw hz, ?_⟩
      have := congrArg (z⁻¹ • ·) h1
      simp only [smul_smul, inv_mul_cancel₀ hz, one_smul] at this
      rw [this, div_eq_inv_mul]
    · rintro ⟨k, hk, h1⟩
      exact ⟨z * k, mul_ne_zero hz hk, by rw [h1, smul_smul]⟩

/-- **C109**: two cameras with the same centre: one invertible 3x3 matrix takes the pixel of every point in the first camera to
its pixel in the second. -/
theorem c109_rotation (hx : p.fx ≠ 0) (hy : p.fy ≠ 0) (hx' : p'.fx ≠ 0) (hy' : p'.fy ≠ 0) (he : ValidExtrinsics e)
    (he' : ValidExtrinsics e') (hc : e.camcenter = e'.camcenter) :
    ∃ H : Matrix (Fin 3) (Fin 3) ℝ, H.det ≠ 0 ∧ ∀ x u, Shows p e x u → ∀ v,
      (Shows p' e' x v ↔ ∃ k : ℝ, k ≠ 0 ∧ H *ᵥ homogeneous u = k • homogeneous v) := by
  set A := calibration p * Matrix.of e.rotation with hA
  set A' := calibration p' * Matrix.of e'.rotation with hA'
  have rot : ∀ {e : ExtrinsicParameters ℝ}, ValidExtrinsics e → (Matrix.of e.rotation).det = 1 := fun he =>
    (c05_translation_rotation he).2.2
  have dA : A.det = p.fx * p.fy := by rw [hA, det_mul, calibration_det, rot he, mul_one]
  have dA' : A'.det = p'.fx * p'.fy := by rw [hA', det_mul, calibration_det, rot he', mul_one]
  have uA : IsUnit A.det := by rw [dA]; exact (mul_ne_zero hx hy).isUnit
  refine ⟨A' * A⁻¹, ?_, ?_⟩
  · rw [det_mul, dA', det_nonsing_inv]
    refine mul_ne_zero (mul_ne_zero hx' hy') ?_
    rw [Ring.inverse_eq_inv', dA]
    exact inv_ne_zero (mul_ne_zero hx hy)
  · intro x u hu v
    obtain ⟨z, hz, hzu⟩ := (shows_iff_homogeneous he x u).1 hu
    rw [mulVec_mulVec, ← hA] at hzu
    have key : A' *ᵥ (x - e'.camcenter) = z • ((A' * A⁻¹) *ᵥ homogeneous u) := by
      rw [← mulVec_smul, ← hzu, mulVec_mulVec, Matrix.mul_assoc, nonsing_inv_mul A uA, Matrix.mul_one, hc]
    rw [shows_iff_homogeneous he' x v, mulVec_mulVec, ← hA', key]
    constructor
    · rintro ⟨w, hw, h1⟩
      refine ⟨w / z, div_ne_zero hw hz, ?_⟩
      have := congrArg (z⁻¹ • ·) h1
      simp only [smul_smul, inv_mul_cancel₀ hz, one_smul] at this
      rw [this, div_eq_inv_mul]
    · rintro ⟨k, hk, h1⟩
      exact ⟨z * k, mul_ne_zero hz hk, by rw [h1, smul_smul]⟩

/-- **C109**, converse: if one 3x3 matrix takes the pixel of every point in the first camera to its pixel in the second, the
cameras have the same centre. -/
theorem c109_rotation_only (hx : p.fx ≠ 0) (hy : p.fy ≠ 0) (hx' : p'.fx ≠ 0) (hy' : p'.fy ≠ 0) (he : ValidExtrinsics e)
    (he' : ValidExtrinsics e') {H : Matrix (Fin 3) (Fin 3) ℝ}
    (h : ∀ x u v, Shows p e x u → Shows p' e' x v → ∃ k : ℝ, k ≠ 0 ∧ H *ᵥ homogeneous u = k • homogeneous v) :
    e.camcenter = e'.camcenter := by
  refine (c103_parallax hx hy hx' hy' he he').1 fun x y u v v' h1 h2 h3 h4 => ?_
  obtain ⟨k, hk, e1⟩ := h x u v h1 h3
  obtain ⟨k', -, e2⟩ := h y u v' h2 h4
  rw [e1] at e2
  have a2 : k = k' := by simpa [homogeneous] using congrFun e2 2
  subst a2
  funext a
  fin_cases a
  · simpa [homogeneous, hk] using congrFun e2 0
  · simpa [homogeneous, hk] using congrFun e2 1

end

/-! ### The theorems apply -/

/-- Cameras at `(0, 0, 0)` and `(1, 0, 1)` and the plane `z = 2`, which contains the point `(0, 0, 2)`, shown in the pixels
`(0, 0)` and `(-1, 0)`. -/
example :
    let e := fromRotationAndCamcenter (⟨1, 0, 0, 0⟩ : Quat ℝ) ![0, 0, 0]
    let e' := fromRotationAndCamcenter (⟨1, 0, 0, 0⟩ : Quat ℝ) ![1, 0, 1]
    let p : PerspectiveParams ℝ := ⟨1, 1, 0, 0, 0⟩
    let n : Vec := ![0, 0, 1]
    ValidExtrinsics e ∧ ValidExtrinsics e' ∧ n ⬝ᵥ e.camcenter ≠ 2 ∧ n ⬝ᵥ e'.camcenter ≠ 2 ∧ n ⬝ᵥ ![0, 0, 2] = 2 ∧
      Shows p e ![0, 0, 2] ![0, 0] ∧ Shows p e' ![0, 0, 2] ![-1, 0] := by
  have hq : UnitQuat ⟨1, 0, 0, 0⟩ := by simp [UnitQuat]
  intro e e' p n
  refine ⟨⟨_, _, hq, rfl⟩, ⟨_, _, hq, rfl⟩, ?_, ?_, ?_, ?_, ?_⟩
  · simp [n, e, c04_camcenter, dotProduct, Fin.sum_univ_three]
  · simp [n, e', c04_camcenter, dotProduct, Fin.sum_univ_three]
  · simp [n, dotProduct, Fin.sum_univ_three]
  · exact plain_shows _ _ (by simp; try norm_num) (by simp; try norm_num) (by simp; try norm_num)
  · exact plain_shows _ _ (by simp; try norm_num) (by simp; try norm_num) (by simp; try norm_num)

/-- Two cameras with the same centre and different orientations. -/
example : ValidExtrinsics (fromRotationAndCamcenter exQuat ![1, 2, 3]) ∧
    (fromRotationAndCamcenter exQuat ![1, 2, 3]).camcenter =
      (fromRotationAndCamcenter (⟨1, 0, 0, 0⟩ : Quat ℝ) ![1, 2, 3]).camcenter ∧ exQuat ≠ ⟨1, 0, 0, 0⟩ := by
  refine ⟨⟨_, _, exQuat_unit, rfl⟩, by rw [c04_camcenter, c04_camcenter], fun h => ?_⟩
  have := congrArg Quat.w h
  simp [exQuat] at this
  try norm_num at this

end CamGeom
