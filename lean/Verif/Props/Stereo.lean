import Verif.Props.Visibility

/-!
# C112 and C113: pixels and directions; rectified stereo pairs
-/

namespace CamGeom
open Spec Matrix ExtrinsicParameters

section
variable {p : PerspectiveParams ℝ} {o : OrthographicParams ℝ} {e e' : ExtrinsicParameters ℝ}

/-- A vector in terms of the axes of the camera. -/
theorem axes_of (he : ValidExtrinsics e) {v : Vec} {r u f : ℝ} (h : Matrix.of e.rotation *ᵥ v = ![r, -u, f]) :
    v = r • e.right + u • e.up + f • e.forward := by
  obtain ⟨r', u', f', hv⟩ := c52_every_point he (e.camcenter + v)
  have h1 := c09_camera_axes he r' u' f'
  rw [← hv, worldToCamera_rot he] at h1
  simp only [Points.single, add_sub_cancel_left] at h1
  rw [h] at h1
  have e0 := congrFun h1 0
  have e1 := congrFun h1 1
  have e2 := congrFun h1 2
  simp at e0 e1 e2
  rw [e0, e1, e2]
  rw [add_assoc, add_assoc] at hv
  rw [add_assoc]
  exact add_left_cancel hv

theorem axes_dot (he : ValidExtrinsics e) (r u f r' u' f' : ℝ) :
    (r • e.right + u • e.up + f • e.forward) ⬝ᵥ (r' • e.right + u' • e.up + f' • e.forward) = r * r' + u * u' + f * f' := by
  obtain ⟨h1, h2, h3, h4, h5, h6, -, -⟩ := c09_orthonormal he
  have sq : ∀ v : Vec, len v = 1 → v ⬝ᵥ v = 1 := by
    intro v hv
    rw [← Real.sqrt_eq_one, ← len_eq, hv]
  simp only [add_dotProduct, dotProduct_add, smul_dotProduct, dotProduct_smul, sq _ h1, sq _ h2, sq _ h3, h4, h5, h6,
    dotProduct_comm e.up e.right, dotProduct_comm e.forward e.right, dotProduct_comm e.forward e.up, smul_eq_mul]
  ring

/-- Slope of the ray of a pixel to the right. -/
noncomputable def slopeRight (p : PerspectiveParams ℝ) (u : Fin 2 → ℝ) : ℝ :=
  (u 0 - p.cx - p.skew * (u 1 - p.cy) / p.fy) / p.fx

/-- Slope of the ray of a pixel downwards. -/
noncomputable def slopeDown (p : PerspectiveParams ℝ) (u : Fin 2 → ℝ) : ℝ := (u 1 - p.cy) / p.fy

/-- **C112**: the direction of the ray of a pixel in terms of `right`, `up` and `forward`. -/
theorem c112_ray (he : ValidExtrinsics e) (u : Fin 2 → ℝ) :
    (sightRay p e u).direction = slopeRight p u • e.right + (-slopeDown p u) • e.up + (1 : ℝ) • e.forward := by
  refine axes_of he ?_
  rw [sightRay_direction he, persp_pixelToCamera]
  funext a
  fin_cases a
  · simp [slopeRight, Pixels.single, IntrinsicParametersPerspective.ofParams]
    ring
  · simp [slopeDown, Pixels.single, IntrinsicParametersPerspective.ofParams]
  · simp

/-- **C112**: scalar products of the directions of the rays of two pixels, and with `forward`; they give the angles. -/
theorem c112_angle (he : ValidExtrinsics e) (u u' : Fin 2 → ℝ) :
    (sightRay p e u).direction ⬝ᵥ (sightRay p e u').direction =
      1 + slopeRight p u * slopeRight p u' + slopeDown p u * slopeDown p u' ∧
    (sightRay p e u).direction ⬝ᵥ e.forward = 1 := by
  refine ⟨?_, ?_⟩
  · rw [c112_ray he, c112_ray he, axes_dot he]
    ring
  · have h : e.forward = (0 : ℝ) • e.right + (0 : ℝ) • e.up + (1 : ℝ) • e.forward := by module
    calc (sightRay p e u).direction ⬝ᵥ e.forward
        = (slopeRight p u • e.right + (-slopeDown p u) • e.up + (1 : ℝ) • e.forward) ⬝ᵥ
            ((0 : ℝ) • e.right + (0 : ℝ) • e.up + (1 : ℝ) • e.forward) := by rw [← c112_ray he, ← h]
      _ = 1 := by rw [axes_dot he]; ring

/-- **C112**: every direction in front of a perspective camera belongs to exactly one pixel. -/
theorem c112_every_direction (hx : p.fx ≠ 0) (hy : p.fy ≠ 0) (he : ValidExtrinsics e) {d : Vec} (hd : 0 < d ⬝ᵥ e.forward) :
    ∃! u : Fin 2 → ℝ, ∃ s : ℝ, 0 < s ∧ d = s • (sightRay p e u).direction := by
  obtain ⟨r, v, f, hv⟩ := c52_every_point he (e.camcenter + d)
  rw [add_assoc, add_assoc] at hv
  have hv' := add_left_cancel hv
  rw [← add_assoc] at hv'
  have h0 : e.forward = (0 : ℝ) • e.right + (0 : ℝ) • e.up + (1 : ℝ) • e.forward := by module
  have hf : d ⬝ᵥ e.forward = f := by
    calc d ⬝ᵥ e.forward
        = (r • e.right + v • e.up + f • e.forward) ⬝ᵥ ((0 : ℝ) • e.right + (0 : ℝ) • e.up + (1 : ℝ) • e.forward) := by
          rw [← hv', ← h0]
      _ = f := by rw [axes_dot he]; ring
  rw [hf] at hd
  have hs : ∀ u : Fin 2 → ℝ, (∃ s : ℝ, 0 < s ∧ d = s • (sightRay p e u).direction) ↔
      r = f * slopeRight p u ∧ v = -(f * slopeDown p u) := by
    intro u
    constructor
    · rintro ⟨s, -, h⟩
      have dot : ∀ a b c : ℝ, r * a + v * b + f * c = s * (slopeRight p u * a + -slopeDown p u * b + 1 * c) := by
        intro a b c
        rw [← axes_dot he, ← axes_dot he, ← hv', ← c112_ray he, h, smul_dotProduct, smul_eq_mul]
      have h1 := dot 1 0 0
      have h2 := dot 0 1 0
      have h3 := dot 0 0 1
      have h4 : f = s := by linarith
      rw [← h4] at h1 h2
      constructor <;> linarith
    · rintro ⟨h1, h2⟩
      refine ⟨f, hd, ?_⟩
      rw [hv', c112_ray he, h1, h2]
      module
  refine ⟨![p.fx * (r / f) + p.skew * (-v / f) + p.cx, p.fy * (-v / f) + p.cy], ?_, ?_⟩
  · refine (hs _).2 ⟨?_, ?_⟩
    · simp [slopeRight]
      field_simp
      ring
    · simp [slopeDown]
      field_simp
  · intro u hu
    obtain ⟨h1, h2⟩ := (hs u).1 hu
    have e1 : slopeRight p u = r / f := by rw [h1]; field_simp
    have e2 : slopeDown p u = -v / f := by rw [h2]; field_simp
    rw [← e1, ← e2]
    funext a
    fin_cases a
    · simp [slopeRight, slopeDown]
      field_simp
      ring
    · simp [slopeDown]
      field_simp
      ring

/-- **C112**: the rays of an orthographic camera start in the plane through the camera centre spanned by `right` and `up`,
the pixel telling where, and run along `forward`. -/
theorem c112_orthographic_ray (he : ValidExtrinsics e) (u : Fin 2 → ℝ) :
    (parallelRay o e u).center = e.camcenter + ((u 0 - o.cx) / o.sx) • e.right + (-((u 1 - o.cy) / o.sy)) • e.up ∧
      (parallelRay o e u).direction = e.forward := by
  refine ⟨?_, parallelRay_direction he u⟩
  have h := axes_of he (v := (parallelRay o e u).center - e.camcenter) (r := (u 0 - o.cx) / o.sx)
    (u := -((u 1 - o.cy) / o.sy)) (f := 0) (by
      rw [parallelRay_center he, ortho_pixelToCamera]
      funext a
      fin_cases a <;> simp [Pixels.single, IntrinsicParametersOrthographic.ofParams])
  rw [zero_smul, add_zero] at h
  rw [add_assoc, ← h]
  abel

/-- **C112**: every point of space is on the line of exactly one pixel of an orthographic camera. -/
theorem c112_orthographic_every_point (hx : o.sx ≠ 0) (hy : o.sy ≠ 0) (he : ValidExtrinsics e) (x : Vec) :
    ∃! u : Fin 2 → ℝ, ∃ t : ℝ, x = (parallelRay o e u).center + t • e.forward :=
  ⟨parallelImage o e x, (c108_shows_iff hx hy he x _).1 rfl, fun u hu => ((c108_shows_iff hx hy he x u).2 hu).symm⟩

/-- Two cameras with the same axes, the second displaced by `b` to the right. -/
structure Rectified (e e' : ExtrinsicParameters ℝ) (b : ℝ) : Prop where
  left : ValidExtrinsics e
  right : ValidExtrinsics e'
  axes : e'.rotation = e.rotation
  base : e'.camcenter = e.camcenter + b • e.right

theorem Rectified.coords {b : ℝ} (h : Rectified e e' b) (x : Vec) :
    (e'.worldToCamera (.single x)).data 0 = (e.worldToCamera (.single x)).data 0 - ![b, 0, 0] := by
  obtain ⟨r, u, f, hv⟩ := c52_every_point h.left x
  have h1 := c09_camera_axes h.left r u f
  have h2 := c09_camera_axes h.left (r - b) u f
  rw [← hv] at h1
  rw [h1]
  have h3 : (e'.worldToCamera (.single x)).data 0 =
      (e.worldToCamera (.single (e.camcenter + (r - b) • e.right + u • e.up + f • e.forward))).data 0 := by
    rw [worldToCamera_rot h.right, worldToCamera_rot h.left, h.axes, h.base]
    simp only [Points.single]
    congr 1
    rw [hv]
    module
  rw [h3, h2]
  funext a
  fin_cases a <;> simp

/-- **C113**: in both cameras a point has the same depth and the same row; the columns differ by `fx b / depth`. -/
theorem c113_disparity {b : ℝ} (h : Rectified e e' b) {x : Vec} (hz : depthOf e x ≠ 0) :
    depthOf e' x = depthOf e x ∧ centralImage p e' x = centralImage p e x - ![p.fx * b / depthOf e x, 0] := by
  have h1 : depthOf e' x = depthOf e x := by
    rw [depthOf, h.coords x]
    simp [depthOf]
  refine ⟨h1, ?_⟩
  have hz' : depthOf e' x ≠ 0 := by rwa [h1]
  rw [centralImage, centralImage, persp_worldToPixel p _ 0 hz', persp_worldToPixel p _ 0 hz, h.coords x]
  rw [depthOf] at *
  generalize (e.worldToCamera (.single x)).data 0 = X at *
  funext a
  fin_cases a
  · simp [pinhole]
    field_simp
    ring
  · simp [pinhole]

/-- **C113**: pixels `u` and `u'` of different columns show a common point exactly if their rows agree; there is only one
such point, and its depth is `fx b` divided by the difference of the columns. -/
theorem c113_depth {b : ℝ} (h : Rectified e e' b) (hx : p.fx ≠ 0) (hy : p.fy ≠ 0) (hb : b ≠ 0) {u u' : Fin 2 → ℝ}
    (hu : u 0 ≠ u' 0) :
    ((∃ x, Shows p e x u ∧ Shows p e' x u') ↔ u 1 = u' 1) ∧
    ∀ x, Shows p e x u → Shows p e' x u' → depthOf e x = p.fx * b / (u 0 - u' 0) ∧
      x = e.camcenter + (p.fx * b / (u 0 - u' 0)) • (sightRay p e u).direction := by
  have dir2 : Matrix.of e.rotation *ᵥ (sightRay p e u).direction =
      ((IntrinsicParametersPerspective.ofParams p).pixelToCamera (.single u)).data 0 := sightRay_direction h.left u
  have dep : ∀ t : ℝ, depthOf e (e.camcenter + t • (sightRay p e u).direction) = t := by
    intro t
    rw [depthOf_eq h.left, add_sub_cancel_left, mulVec_smul, dir2, Pi.smul_apply, persp_dir_z, smul_eq_mul, mul_one]
  have h0 : u 0 - u' 0 ≠ 0 := sub_ne_zero.2 hu
  have key : ∀ x, Shows p e x u → Shows p e' x u' → u 1 = u' 1 ∧ depthOf e x = p.fx * b / (u 0 - u' 0) := by
    rintro x ⟨hz, h1⟩ ⟨-, h2⟩
    have hd := (c113_disparity (p := p) h hz).2
    rw [show centralImage p e' x = u' from h2, show centralImage p e x = u from h1] at hd
    have d0 := congrFun hd 0
    have d1 := congrFun hd 1
    simp at d0 d1
    refine ⟨d1.symm, ?_⟩
    have hz' : depthOf e x ≠ 0 := hz
    have : u 0 - u' 0 = p.fx * b / depthOf e x := by linarith
    rw [this]
    have := mul_ne_zero hx hb
    field_simp
  refine ⟨⟨fun ⟨x, h1, h2⟩ => (key x h1 h2).1, fun hv => ?_⟩, fun x h1 h2 => ?_⟩
  · set t := p.fx * b / (u 0 - u' 0) with ht
    have t0 : t ≠ 0 := div_ne_zero (mul_ne_zero hx hb) h0
    have s1 : Shows p e (e.camcenter + t • (sightRay p e u).direction) u :=
      (c103_shows_iff hx hy h.left _ u).2 ⟨t, t0, rfl⟩
    refine ⟨_, s1, ?_⟩
    have hd := c113_disparity (p := p) h (x := e.camcenter + t • (sightRay p e u).direction) s1.1
    refine ⟨?_, ?_⟩
    · show depthOf e' _ ≠ 0
      rw [hd.1, dep]
      exact t0
    · show centralImage p e' _ = u'
      rw [hd.2, show centralImage p e _ = u from s1.2, dep]
      funext a
      fin_cases a
      · simp [ht]
        have := mul_ne_zero hx hb
        field_simp
        ring
      · simpa using hv
  · have hk := (key x h1 h2).2
    refine ⟨hk, ?_⟩
    obtain ⟨t, -, ht⟩ := (c103_shows_iff hx hy h.left x u).1 h1
    rw [ht, dep] at hk
    rw [← hk]
    exact ht

/-- **C113**: the point `best_intersection_of_rays` finds from two such pixels in the same row. -/
theorem c113_triangulated {trySvd : TrySvd ℝ} (hs : SvdContract trySvd) {b : ℝ} (h : Rectified e e' b) (hx : p.fx ≠ 0)
    (hy : p.fy ≠ 0) (hb : b ≠ 0) {u u' : Fin 2 → ℝ} (hu : u 0 ≠ u' 0) (hv : u 1 = u' 1)
    (hspread : Spread [sightRay p e u, sightRay p e' u']) {pt : Points WorldFrame ℝ 1}
    (hpt : bestIntersectionOfRays trySvd [sightRay p e u, sightRay p e' u'] = .ok pt) :
    Shows p e (pt.data 0) u ∧ Shows p e' (pt.data 0) u' ∧ depthOf e (pt.data 0) = p.fx * b / (u 0 - u' 0) := by
  obtain ⟨x, h1, h2⟩ := (c113_depth h hx hy hb hu).1.2 hv
  have nz : ∀ {e : ExtrinsicParameters ℝ}, ValidExtrinsics e → ∀ u, (sightRay p e u).direction ≠ 0 := by
    intro e he u h0
    have := (c112_angle (p := p) he u u).2
    rw [h0, zero_dotProduct] at this
    exact zero_ne_one this
  have hpx : pt.data 0 = x := by
    refine c32_common_point hs ?_ hspread ?_ hpt
    · intro r hr
      rcases List.mem_pair.1 hr with rfl | rfl
      · exact nz h.left u
      · exact nz h.right u'
    · intro r hr
      rcases List.mem_pair.1 hr with rfl | rfl
      · obtain ⟨t, -, ht⟩ := (c103_shows_iff hx hy h.left x u).1 h1
        exact ⟨t, by rw [sightRay_center h.left]; exact ht⟩
      · obtain ⟨t, -, ht⟩ := (c103_shows_iff hx hy h.right x u').1 h2
        exact ⟨t, by rw [sightRay_center h.right]; exact ht⟩
  rw [hpx]
  exact ⟨h1, h2, ((c113_depth h hx hy hb hu).2 x h1 h2).1⟩

/-- **C113**: an error `δ` of the difference of the columns changes the depth by `depth * depth' * δ / (fx b)`, so
quadratically in the depth. -/
theorem c113_sensitivity {b δ : ℝ} (h : Rectified e e' b) (hx : p.fx ≠ 0) (hb : b ≠ 0) {x y : Vec} {u u' v v' : Fin 2 → ℝ}
    (h1 : Shows p e x u) (h2 : Shows p e' x u') (h3 : Shows p e y v) (h4 : Shows p e' y v')
    (hδ : v 0 - v' 0 = u 0 - u' 0 + δ) :
    depthOf e x - depthOf e y = depthOf e x * depthOf e y * δ / (p.fx * b) := by
  have col : ∀ {x : Vec} {u u' : Fin 2 → ℝ}, Shows p e x u → Shows p e' x u' → u 0 - u' 0 = p.fx * b / depthOf e x := by
    intro x u u' h1 h2
    have hd := congrFun (c113_disparity (p := p) h (x := x) h1.1).2 0
    rw [show centralImage p e' x = u' from h2.2, show centralImage p e x = u from h1.2] at hd
    simp at hd
    linarith
  rw [col h1 h2, col h3 h4] at hδ
  have hX : depthOf e x ≠ 0 := h1.1
  have hY : depthOf e y ≠ 0 := h3.1
  have : δ = p.fx * b / depthOf e y - p.fx * b / depthOf e x := by linarith
  rw [this]
  field_simp

end

/-! ### The theorems apply -/

/-- Unrotated cameras at `(0, 0, 0)` and `(1, 0, 0)`: `(0, 0, 2)` is shown in the pixels `(0, 0)` and `(-1/2, 0)`, `(0, 0, 1)` in
the pixels `(0, 0)` and `(-1, 0)`. The rays of the first two pixels satisfy the conditions of the triangulation. -/
example :
    let e := fromRotationAndCamcenter (⟨1, 0, 0, 0⟩ : Quat ℝ) ![0, 0, 0]
    let e' := fromRotationAndCamcenter (⟨1, 0, 0, 0⟩ : Quat ℝ) ![1, 0, 0]
    let p : PerspectiveParams ℝ := ⟨1, 1, 0, 0, 0⟩
    Rectified e e' 1 ∧ 0 < ![1, 2, 3] ⬝ᵥ e.forward ∧ Shows p e ![0, 0, 2] ![0, 0] ∧ Shows p e' ![0, 0, 2] ![-1 / 2, 0] ∧
      Shows p e ![0, 0, 1] ![0, 0] ∧ Shows p e' ![0, 0, 1] ![-1, 0] ∧
      Spread [sightRay p e ![0, 0], sightRay p e' ![-1 / 2, 0]] := by
  have hq : UnitQuat ⟨1, 0, 0, 0⟩ := by simp [UnitQuat]
  intro e e' p
  refine ⟨⟨⟨_, _, hq, rfl⟩, ⟨_, _, hq, rfl⟩, rfl, ?_⟩, ?_, ?_, ?_, ?_, ?_, ?_⟩
  · simp only [e, e', c04_camcenter, right_eq hq, rotate_apply]
    funext a
    fin_cases a <;> simp [Quat.inverse]
  · simp only [e, forward_eq hq, rotate_apply]
    simp [Quat.inverse, dotProduct, Fin.sum_univ_three]
  · exact plain_shows _ _ (by simp; try norm_num) (by simp; try norm_num) (by simp; try norm_num)
  · exact plain_shows _ _ (by simp; try norm_num) (by simp; try norm_num) (by simp; try norm_num)
  · exact plain_shows _ _ (by simp; try norm_num) (by simp; try norm_num) (by simp; try norm_num)
  · exact plain_shows _ _ (by simp; try norm_num) (by simp; try norm_num) (by simp; try norm_num)
  · refine ⟨sightRay p e ![0, 0], by simp, sightRay p e' ![-1 / 2, 0], by simp, ?_⟩
    simp only [p, e, e', plain_ray, len_eq]
    simp only [dotProduct, Fin.sum_univ_three]
    simp only [Matrix.cons_val]
    norm_num
    have h : (11 / 10 : ℝ) ≤ √(5 / 4) := Real.le_sqrt_of_sq_le (by norm_num)
    rw [Real.sqrt_div (by norm_num)] at h
    linarith

end CamGeom
