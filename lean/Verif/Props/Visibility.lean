import Verif.Props.ParallelEpipolar
import Verif.Props.Refinement
import Mathlib.Analysis.Convex.Segment
import Mathlib.Analysis.Convex.Basic

/-!
# C111: segments, convex regions and cross ratios in images
-/

namespace CamGeom
open Spec Matrix ExtrinsicParameters

/-- Depth of a point, its camera coordinate along the optical axis. -/
noncomputable def depthOf (e : ExtrinsicParameters ℝ) (x : Vec) : ℝ := (e.worldToCamera (.single x)).data 0 2

/-- Pixel of a point in a perspective camera. -/
noncomputable def centralImage (p : PerspectiveParams ℝ) (e : ExtrinsicParameters ℝ) (x : Vec) : Fin 2 → ℝ :=
  ((Camera.mk (IntrinsicParametersPerspective.ofParams p) e).worldToPixel (.single x)).data 0

section
variable {p : PerspectiveParams ℝ} {o : OrthographicParams ℝ} {e : ExtrinsicParameters ℝ}

theorem depthOf_eq (he : ValidExtrinsics e) (x : Vec) : depthOf e x = (Matrix.of e.rotation *ᵥ (x - e.camcenter)) 2 := by
  rw [depthOf, worldToCamera_rot he]
  rfl

theorem centralImage_eq (he : ValidExtrinsics e) {x : Vec} (hz : depthOf e x ≠ 0) :
    centralImage p e x = pinhole p.fx p.fy p.skew p.cx p.cy (Matrix.of e.rotation *ᵥ (x - e.camcenter)) := by
  rw [centralImage, persp_worldToPixel p _ 0 hz, worldToCamera_rot he]
  rfl

theorem depthOf_combine (he : ValidExtrinsics e) (x y : Vec) {a b : ℝ} (hab : a + b = 1) :
    depthOf e (a • x + b • y) = a * depthOf e x + b * depthOf e y := by
  have h : a • x + b • y - e.camcenter = a • (x - e.camcenter) + b • (y - e.camcenter) := by
    obtain rfl : b = 1 - a := by linarith
    module
  rw [depthOf_eq he, depthOf_eq he, depthOf_eq he, h, mulVec_add, mulVec_smul, mulVec_smul]
  rfl

/-- The image of a weighted mean is a weighted mean of the images, with weights multiplied by the depths. -/
theorem c111_combination (he : ValidExtrinsics e) {x y : Vec} (hx : depthOf e x ≠ 0) (hy : depthOf e y ≠ 0) {a b : ℝ}
    (hab : a + b = 1) (hz : a * depthOf e x + b * depthOf e y ≠ 0) :
    centralImage p e (a • x + b • y) =
      (a * depthOf e x / (a * depthOf e x + b * depthOf e y)) • centralImage p e x +
        (b * depthOf e y / (a * depthOf e x + b * depthOf e y)) • centralImage p e y := by
  have h : a • x + b • y - e.camcenter = a • (x - e.camcenter) + b • (y - e.camcenter) := by
    obtain rfl : b = 1 - a := by linarith
    module
  have hz' : depthOf e (a • x + b • y) ≠ 0 := by rwa [depthOf_combine he x y hab]
  rw [centralImage_eq he hx, centralImage_eq he hy, centralImage_eq he hz', h, mulVec_add, mulVec_smul, mulVec_smul]
  rw [depthOf_eq he] at *
  rw [depthOf_eq he] at *
  generalize Matrix.of e.rotation *ᵥ (x - e.camcenter) = X at *
  generalize Matrix.of e.rotation *ᵥ (y - e.camcenter) = Y at *
  funext i
  fin_cases i <;> simp [pinhole] <;> field_simp <;> ring

/-- **C111**: the image of the segment between two points in front of a perspective camera is the segment between their
pixels. -/
theorem c111_segment (he : ValidExtrinsics e) {x y : Vec} (hx : 0 < depthOf e x) (hy : 0 < depthOf e y) :
    centralImage p e '' segment ℝ x y = segment ℝ (centralImage p e x) (centralImage p e y) := by
  ext u
  constructor
  · rintro ⟨z, ⟨a, b, ha, hb, hab, rfl⟩, rfl⟩
    have hD : 0 < a * depthOf e x + b * depthOf e y := by
      rcases ha.eq_or_lt with rfl | ha
      · obtain rfl : b = 1 := by linarith
        simpa using hy
      · have := mul_pos ha hx
        have := mul_nonneg hb hy.le
        linarith
    refine ⟨_, _, ?_, ?_, ?_, (c111_combination he hx.ne' hy.ne' hab hD.ne').symm⟩
    · exact div_nonneg (mul_nonneg ha hx.le) hD.le
    · exact div_nonneg (mul_nonneg hb hy.le) hD.le
    · rw [← add_div, div_self hD.ne']
  · rintro ⟨r, s, hr, hs, hrs, rfl⟩
    have hD : 0 < r * depthOf e y + s * depthOf e x := by
      rcases hr.eq_or_lt with rfl | hr
      · obtain rfl : s = 1 := by linarith
        simpa using hx
      · have := mul_pos hr hy
        have := mul_nonneg hs hx.le
        linarith
    set D := r * depthOf e y + s * depthOf e x with hDd
    have hab : r * depthOf e y / D + s * depthOf e x / D = 1 := by rw [← add_div, div_self hD.ne']
    have hE : r * depthOf e y / D * depthOf e x + s * depthOf e x / D * depthOf e y = depthOf e x * depthOf e y / D := by
      rw [← mul_div_right_comm, ← mul_div_right_comm, ← add_div]
      congr 1
      rw [show r * depthOf e y * depthOf e x + s * depthOf e x * depthOf e y =
        (r + s) * (depthOf e x * depthOf e y) by ring, hrs, one_mul]
    have hE0 : depthOf e x * depthOf e y / D ≠ 0 := (div_pos (mul_pos hx hy) hD).ne'
    refine ⟨(r * depthOf e y / D) • x + (s * depthOf e x / D) • y,
      ⟨_, _, div_nonneg (mul_nonneg hr hy.le) hD.le, div_nonneg (mul_nonneg hs hx.le) hD.le, hab, rfl⟩, ?_⟩
    rw [c111_combination he hx.ne' hy.ne' hab (by rw [hE]; exact hE0), hE]
    congr 2
    · field_simp
    · field_simp

/-- **C111**: with one end point in front of the camera and the other behind it, the image consists of the rest of the line
through the two pixels: of the pixels themselves and everything not between them. -/
theorem c111_segment_behind (he : ValidExtrinsics e) {x y : Vec} (hx : 0 < depthOf e x) (hy : depthOf e y < 0) :
    centralImage p e '' {z ∈ segment ℝ x y | depthOf e z ≠ 0} =
      {u | ∃ r : ℝ, (r ≤ 0 ∨ 1 ≤ r) ∧ u = (1 - r) • centralImage p e x + r • centralImage p e y} := by
  ext u
  constructor
  · rintro ⟨z, ⟨⟨a, b, ha, hb, hab, rfl⟩, hz⟩, rfl⟩
    rw [depthOf_combine he x y hab] at hz
    refine ⟨b * depthOf e y / (a * depthOf e x + b * depthOf e y), ?_, ?_⟩
    · have h1 := mul_nonneg ha hx.le
      have h2 := mul_nonpos_of_nonneg_of_nonpos hb hy.le
      rcases lt_or_gt_of_ne hz with h | h
      · right
        rw [one_le_div_of_neg h]
        linarith
      · left
        exact div_nonpos_of_nonpos_of_nonneg h2 h.le
    · rw [c111_combination he hx.ne' hy.ne hab hz]
      congr 2
      field_simp
      ring
  · rintro ⟨r, hr, rfl⟩
    set D := (1 - r) * depthOf e y + r * depthOf e x with hDd
    have hD : D ≠ 0 ∧ 0 ≤ (1 - r) * depthOf e y / D ∧ 0 ≤ r * depthOf e x / D := by
      rcases hr with hr | hr
      · have h1 : (1 - r) * depthOf e y < 0 := mul_neg_of_pos_of_neg (by linarith) hy
        have h2 : r * depthOf e x ≤ 0 := mul_nonpos_of_nonpos_of_nonneg hr hx.le
        have h3 : D < 0 := by rw [hDd]; linarith
        exact ⟨h3.ne, div_nonneg_of_nonpos h1.le h3.le, div_nonneg_of_nonpos h2 h3.le⟩
      · have h1 : 0 ≤ (1 - r) * depthOf e y := mul_nonneg_of_nonpos_of_nonpos (by linarith) hy.le
        have h2 : 0 < r * depthOf e x := mul_pos (by linarith) hx
        have h3 : 0 < D := by rw [hDd]; linarith
        exact ⟨h3.ne', div_nonneg h1 h3.le, div_nonneg h2.le h3.le⟩
    obtain ⟨hD0, hA, hB⟩ := hD
    have hab : (1 - r) * depthOf e y / D + r * depthOf e x / D = 1 := by rw [← add_div, div_self hD0]
    have hE : (1 - r) * depthOf e y / D * depthOf e x + r * depthOf e x / D * depthOf e y =
        depthOf e x * depthOf e y / D := by
      field_simp
      ring
    have hE0 : depthOf e x * depthOf e y / D ≠ 0 := div_ne_zero (mul_ne_zero hx.ne' hy.ne) hD0
    refine ⟨((1 - r) * depthOf e y / D) • x + (r * depthOf e x / D) • y, ⟨⟨_, _, hA, hB, hab, rfl⟩, ?_⟩, ?_⟩
    · rw [depthOf_combine he x y hab, hE]
      exact hE0
    · rw [c111_combination he hx.ne' hy.ne hab (by rw [hE]; exact hE0), hE]
      have := hx.ne'
      have := hy.ne
      congr 2
      · field_simp
      · field_simp

/-- **C111**: the part of space in front of a perspective camera that it shows in a convex set of pixels, such as the image
rectangle, is convex. -/
theorem c111_visible_convex (he : ValidExtrinsics e) {K : Set (Fin 2 → ℝ)} (hK : Convex ℝ K) :
    Convex ℝ {x : Vec | 0 < depthOf e x ∧ centralImage p e x ∈ K} := by
  rw [convex_iff_segment_subset]
  rintro x ⟨hx, hxK⟩ y ⟨hy, hyK⟩ z hz
  refine ⟨?_, ?_⟩
  · obtain ⟨a, b, ha, hb, hab, rfl⟩ := hz
    rw [depthOf_combine he x y hab]
    rcases ha.eq_or_lt with rfl | ha
    · obtain rfl : b = 1 := by linarith
      simpa using hy
    · have := mul_pos ha hx
      have := mul_nonneg hb hy.le
      linarith
  · refine hK.segment_subset hxK hyK ?_
    rw [← c111_segment he hx hy]
    exact ⟨z, hz, rfl⟩

/-- **C111**: the image of a convex body in front of a perspective camera is convex. -/
theorem c111_image_convex (he : ValidExtrinsics e) {S : Set Vec} (hS : Convex ℝ S) (h : ∀ x ∈ S, 0 < depthOf e x) :
    Convex ℝ (centralImage p e '' S) := by
  rw [convex_iff_segment_subset]
  rintro _ ⟨x, hx, rfl⟩ _ ⟨y, hy, rfl⟩
  rw [← c111_segment he (h x hx) (h y hy)]
  exact Set.image_mono (hS.segment_subset hx hy)

/-- **C111**: the cross ratio of four points of a line is that of their images, measured along any direction `m` of the
image. -/
theorem c111_cross_ratio (he : ValidExtrinsics e) (x d : Vec) (m : Fin 2 → ℝ) (t : Fin 4 → ℝ)
    (hz : ∀ i, depthOf e (x + t i • d) ≠ 0) :
    let r := fun i => m ⬝ᵥ centralImage p e (x + t i • d)
    (r 0 - r 2) * (r 1 - r 3) * ((t 0 - t 3) * (t 1 - t 2)) = (t 0 - t 2) * (t 1 - t 3) * ((r 0 - r 3) * (r 1 - r 2)) := by
  intro r
  obtain ⟨A, B, C, D, hr⟩ : ∃ A B C D : ℝ, ∀ i, C + t i * D ≠ 0 ∧ r i = (A + t i * B) / (C + t i * D) := by
    set X := Matrix.of e.rotation *ᵥ (x - e.camcenter) with hX
    set Y := Matrix.of e.rotation *ᵥ d with hY
    have hc : ∀ s : ℝ, Matrix.of e.rotation *ᵥ (x + s • d - e.camcenter) = X + s • Y := by
      intro s
      rw [hX, hY, ← mulVec_smul, ← mulVec_add]
      congr 1
      abel
    refine ⟨m 0 * (p.fx * X 0 + p.skew * X 1 + p.cx * X 2) + m 1 * (p.fy * X 1 + p.cy * X 2),
      m 0 * (p.fx * Y 0 + p.skew * Y 1 + p.cx * Y 2) + m 1 * (p.fy * Y 1 + p.cy * Y 2), X 2, Y 2, fun i => ?_⟩
    have h1 : X 2 + t i * Y 2 ≠ 0 := by
      have := hz i
      rw [depthOf_eq he, hc] at this
      exact this
    refine ⟨h1, ?_⟩
    show m ⬝ᵥ centralImage p e (x + t i • d) = _
    rw [centralImage_eq he (hz i), hc]
    simp [pinhole, dotProduct, Fin.sum_univ_two]
    field_simp
    ring
  have diff : ∀ i j, r i - r j = (t i - t j) * ((B * C - A * D) / ((C + t i * D) * (C + t j * D))) := by
    intro i j
    have h1 := (hr i).1
    have h2 := (hr j).1
    rw [(hr i).2, (hr j).2, div_sub_div _ _ h1 h2, ← mul_div_assoc]
    congr 1
    ring
  rw [diff, diff, diff, diff]
  have h0 := (hr 0).1
  have h1 := (hr 1).1
  have h2 := (hr 2).1
  have h3 := (hr 3).1
  field_simp

/-- **C111**: an orthographic image keeps weighted means, so ratios along a line, midpoints and centroids, at any depth. -/
theorem c111_orthographic (he : ValidExtrinsics e) (x y : Vec) {a b : ℝ} (hab : a + b = 1) :
    parallelImage o e (a • x + b • y) = a • parallelImage o e x + b • parallelImage o e y := by
  have h : a • x + b • y - e.camcenter = a • (x - e.camcenter) + b • (y - e.camcenter) := by
    obtain rfl : b = 1 - a := by linarith
    module
  simp only [parallelImage, ortho_worldToPixel, worldToCamera_rot he, Points.single]
  rw [h, mulVec_add, mulVec_smul, mulVec_smul]
  obtain rfl : b = 1 - a := by linarith
  funext i
  fin_cases i <;> simp [orthographic] <;> ring

/-- **C111**: the part of space an orthographic camera shows in a convex set of pixels is convex. -/
theorem c111_orthographic_convex (he : ValidExtrinsics e) {K : Set (Fin 2 → ℝ)} (hK : Convex ℝ K) :
    Convex ℝ {x : Vec | parallelImage o e x ∈ K} := by
  intro x hx y hy a b ha hb hab
  show parallelImage o e (a • x + b • y) ∈ K
  rw [c111_orthographic he x y hab]
  exact hK hx hy ha hb hab

end

/-! ### The theorems apply -/

/-- A camera at the origin looking along +y: `(1, 2, 0)` and `(0, 1, 1)` are in front of it, `(1, -2, 0)` behind it, and the line
from `(0, 1, 1)` in the direction `(1, 1, 0)` meets all depths `1`, `2`, `3`, `4`. -/
example (e : ExtrinsicParameters ℝ) (h : e = fromRotationAndCamcenter exQuat 0) :
    ValidExtrinsics e ∧ 0 < depthOf e ![1, 2, 0] ∧ 0 < depthOf e ![0, 1, 1] ∧ depthOf e ![1, -2, 0] < 0 ∧
      (∀ i : Fin 4, depthOf e (![0, 1, 1] + (i : ℝ) • ![1, 1, 0]) ≠ 0) ∧
      Convex ℝ (Set.Icc (![0, 0] : Fin 2 → ℝ) ![640, 480]) ∧
      ∀ x ∈ segment ℝ (![1, 2, 0] : Vec) ![0, 1, 1], 0 < depthOf e x := by
  have hd : ∀ x, depthOf e x = x 1 := by
    intro x
    rw [h]
    exact (sampleCamera_depth 0 x).trans (by simp)
  refine ⟨by rw [h]; exact ⟨_, _, exQuat_unit, rfl⟩, by rw [hd]; simp, by rw [hd]; simp, by rw [hd]; simp, ?_, convex_Icc _ _, ?_⟩
  · intro i
    rw [hd]
    have : (0 : ℝ) ≤ (i : ℕ) := Nat.cast_nonneg _
    simp
    linarith
  · rintro _ ⟨a, b, ha, hb, hab, rfl⟩
    rw [hd]
    simp
    linarith

end CamGeom
