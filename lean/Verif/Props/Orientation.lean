import Verif.Props.Stereo

/-!
# C116: area and orientation of triangles in images
-/

namespace CamGeom
open Spec Matrix ExtrinsicParameters

/-- Twice the signed area of a triangle of pixels, positive if a turn from `u` (first coordinate) towards `v` (second coordinate)
leads from the first side to the second. -/
def doubleArea (a b c : Fin 2 → ℝ) : ℝ := (b 0 - a 0) * (c 1 - a 1) - (c 0 - a 0) * (b 1 - a 1)

section
variable {p : PerspectiveParams ℝ} {o : OrthographicParams ℝ} {e e' : ExtrinsicParameters ℝ}

theorem rotation_isRotation (he : ValidExtrinsics e) : IsRotation e.rotation := by
  obtain ⟨q, c, hq, rfl⟩ := he
  exact toRotationMatrix_isRotation hq

/-- **C116**: area of the image of a triangle in a perspective camera. -/
theorem c116_area (he : ValidExtrinsics e) {x y z : Vec} (hx : depthOf e x ≠ 0) (hy : depthOf e y ≠ 0) (hz : depthOf e z ≠ 0) :
    doubleArea (centralImage p e x) (centralImage p e y) (centralImage p e z) =
      p.fx * p.fy * ((x - e.camcenter) ⬝ᵥ ((y - x) ⨯₃ (z - x))) / (depthOf e x * depthOf e y * depthOf e z) := by
  have h1 : (x - e.camcenter) ⬝ᵥ ((y - x) ⨯₃ (z - x)) =
      (x - e.camcenter) ⬝ᵥ ((y - e.camcenter) ⨯₃ (z - e.camcenter)) := by
    simp [cross_apply, dotProduct, Fin.sum_univ_three]
    ring
  rw [h1, ← triple_rotation (rotation_isRotation he)]
  rw [centralImage_eq he hx, centralImage_eq he hy, centralImage_eq he hz]
  rw [depthOf_eq he] at *
  rw [depthOf_eq he] at *
  rw [depthOf_eq he] at *
  generalize Matrix.of e.rotation *ᵥ (x - e.camcenter) = X at *
  generalize Matrix.of e.rotation *ᵥ (y - e.camcenter) = Y at *
  generalize Matrix.of e.rotation *ᵥ (z - e.camcenter) = Z at *
  simp [doubleArea, pinhole, cross_apply, dotProduct, Fin.sum_univ_three]
  field_simp
  ring

/-- **C116**: a triangle in front of a perspective camera with focal lengths of the same sign is seen in its positive
orientation exactly if its normal `(y - x) × (z - x)` points away from the camera. -/
theorem c116_orientation (hf : 0 < p.fx * p.fy) (he : ValidExtrinsics e) {x y z : Vec} (hx : 0 < depthOf e x)
    (hy : 0 < depthOf e y) (hz : 0 < depthOf e z) :
    0 < doubleArea (centralImage p e x) (centralImage p e y) (centralImage p e z) ↔
      0 < (x - e.camcenter) ⬝ᵥ ((y - x) ⨯₃ (z - x)) := by
  rw [c116_area he hx.ne' hy.ne' hz.ne', div_pos_iff_of_pos_right (mul_pos (mul_pos hx hy) hz), mul_pos_iff_of_pos_left hf]

/-- **C116**: the image of a triangle degenerates exactly if the camera centre is in the plane of the triangle or the
triangle itself is degenerate. -/
theorem c116_degenerate (hfx : p.fx ≠ 0) (hfy : p.fy ≠ 0) (he : ValidExtrinsics e) {x y z : Vec} (hx : depthOf e x ≠ 0)
    (hy : depthOf e y ≠ 0) (hz : depthOf e z ≠ 0) :
    doubleArea (centralImage p e x) (centralImage p e y) (centralImage p e z) = 0 ↔
      (x - e.camcenter) ⬝ᵥ ((y - x) ⨯₃ (z - x)) = 0 := by
  rw [c116_area he hx hy hz, div_eq_zero_iff, or_iff_left (mul_ne_zero (mul_ne_zero hx hy) hz), mul_eq_zero,
    or_iff_right (mul_ne_zero hfx hfy)]

/-- **C116**: area of the image of a triangle in an orthographic camera; it does not depend on the position of the camera
or of the triangle. -/
theorem c116_orthographic (he : ValidExtrinsics e) (x y z : Vec) :
    doubleArea (parallelImage o e x) (parallelImage o e y) (parallelImage o e z) =
      o.sx * o.sy * (e.forward ⬝ᵥ ((y - x) ⨯₃ (z - x))) := by
  have h2 : ∀ w : Vec, Matrix.of e.rotation *ᵥ (w - e.camcenter) =
      Matrix.of e.rotation *ᵥ (x - e.camcenter) + Matrix.of e.rotation *ᵥ (w - x) := by
    intro w
    rw [← mulVec_add]
    congr 1
    abel
  rw [← triple_rotation (rotation_isRotation he), rotation_forward he]
  simp only [parallelImage, ortho_worldToPixel, worldToCamera_rot he, Points.single]
  rw [h2 y, h2 z]
  generalize Matrix.of e.rotation *ᵥ (x - e.camcenter) = X
  generalize Matrix.of e.rotation *ᵥ (y - x) = Y
  generalize Matrix.of e.rotation *ᵥ (z - x) = Z
  simp [doubleArea, orthographic, cross_apply, dotProduct, Fin.sum_univ_three]
  ring

/-- **C116**: two perspective cameras see a triangle in front of both in the same orientation exactly if their centres are
on the same side of its plane. -/
theorem c116_sides {p' : PerspectiveParams ℝ} (hf : 0 < p.fx * p.fy) (hf' : 0 < p'.fx * p'.fy) (he : ValidExtrinsics e)
    (he' : ValidExtrinsics e') {x y z : Vec} (hx : 0 < depthOf e x) (hy : 0 < depthOf e y) (hz : 0 < depthOf e z)
    (hx' : 0 < depthOf e' x) (hy' : 0 < depthOf e' y) (hz' : 0 < depthOf e' z) :
    0 < doubleArea (centralImage p e x) (centralImage p e y) (centralImage p e z) *
        doubleArea (centralImage p' e' x) (centralImage p' e' y) (centralImage p' e' z) ↔
      0 < (e.camcenter - x) ⬝ᵥ ((y - x) ⨯₃ (z - x)) * ((e'.camcenter - x) ⬝ᵥ ((y - x) ⨯₃ (z - x))) := by
  rw [c116_area he hx.ne' hy.ne' hz.ne', c116_area he' hx'.ne' hy'.ne' hz'.ne', ← neg_sub x e.camcenter, ← neg_sub x e'.camcenter,
    neg_dotProduct, neg_dotProduct, neg_mul_neg]
  have hD := mul_pos (mul_pos hx hy) hz
  have hD' := mul_pos (mul_pos hx' hy') hz'
  generalize (x - e.camcenter) ⬝ᵥ ((y - x) ⨯₃ (z - x)) = a
  generalize (x - e'.camcenter) ⬝ᵥ ((y - x) ⨯₃ (z - x)) = b
  generalize depthOf e x * depthOf e y * depthOf e z = D at *
  generalize depthOf e' x * depthOf e' y * depthOf e' z = D' at *
  rw [div_mul_div_comm, div_pos_iff_of_pos_right (mul_pos hD hD'),
    show p.fx * p.fy * a * (p'.fx * p'.fy * b) = (p.fx * p.fy) * (p'.fx * p'.fy) * (a * b) by ring,
    mul_pos_iff_of_pos_left (mul_pos hf hf')]

end

/-! ### The theorems apply -/

/-- Cameras at `(0, 0, 0)` and `(0, 0, 2)` looking along +y see the triangle `(0, 5, 1)`, `(1, 4, 1)`, `(0, 4, 1)` from below and from above. -/
example (e e' : ExtrinsicParameters ℝ) (h : e = fromRotationAndCamcenter exQuat 0) (h' : e' = fromRotationAndCamcenter exQuat ![0, 0, 2]) :
    ValidExtrinsics e ∧ ValidExtrinsics e' ∧ (∀ x ∈ [![0, 5, 1], ![1, 4, 1], ![0, 4, 1]], 0 < depthOf e x ∧ 0 < depthOf e' x) ∧
      (e.camcenter - ![0, 5, 1]) ⬝ᵥ ((![1, 4, 1] - ![0, 5, 1]) ⨯₃ (![0, 4, 1] - ![0, 5, 1])) = 1 ∧
      (e'.camcenter - ![0, 5, 1]) ⬝ᵥ ((![1, 4, 1] - ![0, 5, 1]) ⨯₃ (![0, 4, 1] - ![0, 5, 1])) = -1 := by
  subst h h'
  have hd : ∀ c x, depthOf (fromRotationAndCamcenter exQuat c) x = x 1 - c 1 := fun c x => sampleCamera_depth c x
  refine ⟨⟨_, _, exQuat_unit, rfl⟩, ⟨_, _, exQuat_unit, rfl⟩, ?_, ?_, ?_⟩
  · intro x hx
    rw [hd, hd]
    simp only [List.mem_cons, List.not_mem_nil, or_false] at hx
    rcases hx with rfl | rfl | rfl <;> simp
  · rw [c04_camcenter]
    simp [cross_apply, dotProduct, Fin.sum_univ_three]
    norm_num
  · rw [c04_camcenter]
    simp [cross_apply, dotProduct, Fin.sum_univ_three]
    try norm_num

end CamGeom
