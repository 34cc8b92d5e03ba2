import Verif.Props.Orientation

/-!
# C120: images of balls
-/

namespace CamGeom
open Spec Matrix ExtrinsicParameters

/-- The ball of radius `r` around `x`. -/
def ball3 (x : Vec) (r : ℝ) : Set Vec := {y | (y - x) ⬝ᵥ (y - x) ≤ r ^ 2}

section
variable {p : PerspectiveParams ℝ} {o : OrthographicParams ℝ} {e : ExtrinsicParameters ℝ} {x : Vec} {r : ℝ}

theorem rotated_dot (he : ValidExtrinsics e) (w : Vec) :
    (Matrix.of e.rotation *ᵥ w) ⬝ᵥ (Matrix.of e.rotation *ᵥ w) = w ⬝ᵥ w := by
  rw [dotProduct_mulVec, ← mulVec_transpose, mulVec_mulVec, (rotation_isRotation he).1, one_mulVec]

/-- **C120**: a ball is in front of the camera exactly if the depth of its centre exceeds the radius. -/
theorem c120_in_front (he : ValidExtrinsics e) (hr : 0 ≤ r) : (∀ y ∈ ball3 x r, 0 < depthOf e y) ↔ r < depthOf e x := by
  have hdiff : ∀ y, depthOf e y = depthOf e x + (Matrix.of e.rotation *ᵥ (y - x)) 2 := by
    intro y
    rw [depthOf_eq he, depthOf_eq he, ← Pi.add_apply, ← mulVec_add]
    congr 2
    abel
  constructor
  · intro h
    have hf := rotation_forward he
    have hn : e.forward ⬝ᵥ e.forward = 1 := by
      rw [← rotated_dot he, hf]
      simp
    have hy := h (x + (-r) • e.forward) (by
      rw [ball3, Set.mem_ofPred_eq]
      rw [add_sub_cancel_left, smul_dotProduct, dotProduct_smul, hn]
      simp [sq])
    rw [hdiff, add_sub_cancel_left, mulVec_smul, hf] at hy
    simp at hy
    linarith
  · intro h y hy
    have h1 : (Matrix.of e.rotation *ᵥ (y - x)) 2 ^ 2 ≤ r ^ 2 := by
      have hy' : (y - x) ⬝ᵥ (y - x) ≤ r ^ 2 := hy
      rw [← rotated_dot he] at hy'
      generalize Matrix.of e.rotation *ᵥ (y - x) = w at *
      simp only [dotProduct, Fin.sum_univ_three] at hy'
      nlinarith [sq_nonneg (w 0), sq_nonneg (w 1)]
    have h2 := abs_le_of_sq_le_sq h1 hr
    rw [hdiff]
    linarith [(abs_le.1 h2).1]

/-- **C120**: the image of a ball in front of a perspective camera is the set of all pixels whose rays come as close to the
centre of the ball as its radius. -/
theorem c120_image (hx : p.fx ≠ 0) (hy : p.fy ≠ 0) (he : ValidExtrinsics e) (hr : 0 ≤ r) (hd : r < depthOf e x) :
    centralImage p e '' ball3 x r = {u | ((x - e.camcenter) ⬝ᵥ (x - e.camcenter) - r ^ 2) *
      ((sightRay p e u).direction ⬝ᵥ (sightRay p e u).direction) ≤ ((x - e.camcenter) ⬝ᵥ (sightRay p e u).direction) ^ 2} := by
  have hf := (c120_in_front (x := x) he hr).2 hd
  have expand : ∀ (t : ℝ) (D : Vec), (e.camcenter + t • D - x) ⬝ᵥ (e.camcenter + t • D - x) =
      t ^ 2 * (D ⬝ᵥ D) - 2 * t * ((x - e.camcenter) ⬝ᵥ D) + (x - e.camcenter) ⬝ᵥ (x - e.camcenter) := by
    intro t D
    have : e.camcenter + t • D - x = t • D - (x - e.camcenter) := by abel
    rw [this]
    simp only [sub_dotProduct, dotProduct_sub, smul_dotProduct, dotProduct_smul, smul_eq_mul, dotProduct_comm D]
    ring
  ext u
  constructor
  · rintro ⟨y, hyb, rfl⟩
    have hz := (hf y hyb).ne'
    obtain ⟨t, -, ht⟩ := (c103_shows_iff hx hy he y (centralImage p e y)).1 ⟨hz, rfl⟩
    have hyb' : (y - x) ⬝ᵥ (y - x) ≤ r ^ 2 := hyb
    rw [Set.mem_ofPred_eq]
    generalize (sightRay p e (centralImage p e y)).direction = D at *
    rw [ht, expand] at hyb'
    have hDD : 0 ≤ D ⬝ᵥ D := by
      simp only [dotProduct, Fin.sum_univ_three]
      nlinarith [sq_nonneg (D 0), sq_nonneg (D 1), sq_nonneg (D 2)]
    have := mul_le_mul_of_nonneg_right hyb' hDD
    nlinarith [sq_nonneg ((x - e.camcenter) ⬝ᵥ D - t * (D ⬝ᵥ D))]
  · intro hu
    have hu' : ((x - e.camcenter) ⬝ᵥ (x - e.camcenter) - r ^ 2) * ((sightRay p e u).direction ⬝ᵥ (sightRay p e u).direction) ≤
      ((x - e.camcenter) ⬝ᵥ (sightRay p e u).direction) ^ 2 := hu
    have hD1 : 0 < (sightRay p e u).direction ⬝ᵥ (sightRay p e u).direction := by
      rw [← rotated_dot he, sightRay_direction he]
      have := persp_dir_z (p := p) (.single u) 0
      simp only [dotProduct, Fin.sum_univ_three]
      rw [this]
      nlinarith [sq_nonneg (((IntrinsicParametersPerspective.ofParams p).pixelToCamera (.single u)).data 0 0),
        sq_nonneg (((IntrinsicParametersPerspective.ofParams p).pixelToCamera (.single u)).data 0 1)]
    have key : ∀ t : ℝ, t = ((x - e.camcenter) ⬝ᵥ (sightRay p e u).direction) /
        ((sightRay p e u).direction ⬝ᵥ (sightRay p e u).direction) → e.camcenter + t • (sightRay p e u).direction ∈ ball3 x r := by
      intro t ht
      rw [ball3, Set.mem_ofPred_eq]
      rw [expand]
      generalize (sightRay p e u).direction = D at *
      have h1 : (x - e.camcenter) ⬝ᵥ D = t * (D ⬝ᵥ D) := by rw [ht]; field_simp
      rw [h1] at hu' ⊢
      have h2 : (x - e.camcenter) ⬝ᵥ (x - e.camcenter) - r ^ 2 ≤ t ^ 2 * (D ⬝ᵥ D) := by
        refine le_of_mul_le_mul_right ?_ hD1
        linarith [hu']
      linarith
    have hm := key _ rfl
    refine ⟨_, hm, ?_⟩
    have hz := (hf _ hm).ne'
    refine ((c103_shows_iff hx hy he _ u).2 ⟨_, ?_, rfl⟩).2
    intro h0
    rw [h0, zero_smul, add_zero] at hz
    apply hz
    rw [depthOf_eq he, sub_self, mulVec_zero]
    rfl

/-- **C120**: the image of a ball in an orthographic camera is an ellipse around the pixel of its centre. -/
theorem c120_orthographic (hx : o.sx ≠ 0) (hy : o.sy ≠ 0) (he : ValidExtrinsics e) :
    parallelImage o e '' ball3 x r =
      {u | ((u 0 - parallelImage o e x 0) / o.sx) ^ 2 + ((u 1 - parallelImage o e x 1) / o.sy) ^ 2 ≤ r ^ 2} := by
  have hdiff : ∀ y, parallelImage o e y = ![parallelImage o e x 0 + (Matrix.of e.rotation *ᵥ (y - x)) 0 * o.sx,
      parallelImage o e x 1 + (Matrix.of e.rotation *ᵥ (y - x)) 1 * o.sy] := by
    intro y
    have : Matrix.of e.rotation *ᵥ (y - x) =
        Matrix.of e.rotation *ᵥ (y - e.camcenter) - Matrix.of e.rotation *ᵥ (x - e.camcenter) := by
      rw [← mulVec_sub, sub_sub_sub_cancel_right]
    simp only [parallelImage, ortho_worldToPixel, worldToCamera_rot he, Points.single]
    rw [this]
    generalize Matrix.of e.rotation *ᵥ (y - e.camcenter) = Y
    generalize Matrix.of e.rotation *ᵥ (x - e.camcenter) = X
    funext k
    fin_cases k <;> simp [orthographic] <;> ring
  ext u
  constructor
  · rintro ⟨y, hyb, rfl⟩
    have hyb' : (y - x) ⬝ᵥ (y - x) ≤ r ^ 2 := hyb
    rw [Set.mem_ofPred_eq]
    rw [hdiff y]
    rw [← rotated_dot he] at hyb'
    generalize Matrix.of e.rotation *ᵥ (y - x) = w at *
    simp only [dotProduct, Fin.sum_univ_three] at hyb'
    have e0 : (w 0 * o.sx) / o.sx = w 0 := by field_simp
    have e1 : (w 1 * o.sy) / o.sy = w 1 := by field_simp
    simp only [cons_val_zero, cons_val_one, add_sub_cancel_left, e0, e1]
    nlinarith [sq_nonneg (w 2)]
  · intro hu
    have hu' : ((u 0 - parallelImage o e x 0) / o.sx) ^ 2 + ((u 1 - parallelImage o e x 1) / o.sy) ^ 2 ≤ r ^ 2 := hu
    set w : Vec := ![(u 0 - parallelImage o e x 0) / o.sx, (u 1 - parallelImage o e x 1) / o.sy, 0] with hw
    have o1 : Matrix.of e.rotation * (Matrix.of e.rotation)ᵀ = 1 := mul_eq_one_comm.1 (rotation_isRotation he).1
    have hR : Matrix.of e.rotation *ᵥ (x + (Matrix.of e.rotation)ᵀ *ᵥ w - x) = w := by
      rw [add_sub_cancel_left, mulVec_mulVec, o1, one_mulVec]
    refine ⟨x + (Matrix.of e.rotation)ᵀ *ᵥ w, ?_, ?_⟩
    · rw [ball3, Set.mem_ofPred_eq]
      rw [← rotated_dot he, hR, hw]
      simp only [dotProduct, Fin.sum_univ_three]
      simp
      nlinarith
    · rw [hdiff, hR, hw]
      funext k
      fin_cases k <;> simp <;> field_simp <;> ring

end

/-! ### The theorems apply -/

/-- A camera at the origin looking along +y and the ball of radius 1 around `(1, 3, 0)`: the ball is in front of the camera. -/
example (e : ExtrinsicParameters ℝ) (h : e = fromRotationAndCamcenter exQuat 0) :
    ValidExtrinsics e ∧ (1 : ℝ) < depthOf e ![1, 3, 0] ∧ ![1, 3, 1] ∈ ball3 ![1, 3, 0] 1 ∧ ![1, 3, 2] ∉ ball3 ![1, 3, 0] 1 := by
  have hd : ∀ x, depthOf e x = x 1 := by
    intro x
    rw [h]
    exact (sampleCamera_depth 0 x).trans (by simp)
  refine ⟨by rw [h]; exact ⟨_, _, exQuat_unit, rfl⟩, by rw [hd]; norm_num, ?_, ?_⟩
  · rw [ball3, Set.mem_ofPred_eq]
    simp [dotProduct, Fin.sum_univ_three]
  · rw [ball3, Set.mem_ofPred_eq]
    simp [dotProduct, Fin.sum_univ_three]
    norm_num

end CamGeom
