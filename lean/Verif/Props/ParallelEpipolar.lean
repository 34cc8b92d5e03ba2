import Verif.Props.Epipolar

/-!
# C108: two orthographic cameras and one point
-/

namespace CamGeom
open Spec Matrix ExtrinsicParameters

/-- The ray `pixel_to_world`, `to_single_ray` assign to a pixel of an orthographic camera. -/
noncomputable def parallelRay (p : OrthographicParams ℝ) (e : ExtrinsicParameters ℝ) (u : Fin 2 → ℝ) : Ray WorldFrame ℝ :=
  RayBundle.toSingleRay (B := SharedDirectionRayBundle ℝ)
    ((Camera.mk (IntrinsicParametersOrthographic.ofParams p) e).pixelToWorld (.single u))

/-- The pixel in which the orthographic camera shows the point `x`. -/
noncomputable def parallelImage (p : OrthographicParams ℝ) (e : ExtrinsicParameters ℝ) (x : Vec) : Fin 2 → ℝ :=
  ((Camera.mk (IntrinsicParametersOrthographic.ofParams p) e).worldToPixel (.single x)).data 0

section
variable {p p' : OrthographicParams ℝ} {e e' : ExtrinsicParameters ℝ}

theorem parallelRay_direction (he : ValidExtrinsics e) (u : Fin 2 → ℝ) : (parallelRay p e u).direction = e.forward := by
  obtain ⟨q, c, hq, rfl⟩ := he
  rw [parallelRay, ortho_pixelToWorld (IntrinsicParametersOrthographic.ofParams p) hq c, forward_eq hq]
  show q.inverse.rotate _ = _
  rw [ortho_direction]

theorem parallelRay_center (he : ValidExtrinsics e) (u : Fin 2 → ℝ) :
    Matrix.of e.rotation *ᵥ ((parallelRay p e u).center - e.camcenter) =
      ((IntrinsicParametersOrthographic.ofParams p).pixelToCamera (.single u)).data 0 := by
  obtain ⟨q, c, hq, rfl⟩ := he
  rw [parallelRay, ortho_pixelToWorld (IntrinsicParametersOrthographic.ofParams p) hq c, c04_camcenter]
  show Matrix.of q.toRotationMatrix *ᵥ (q.inverse.rotate _ + c - c) = _
  rw [add_sub_cancel_right, ← mulVec3_eq, mulVec3_toRotationMatrix hq, rotate_inverse_rotate hq]

theorem rotation_forward (he : ValidExtrinsics e) : Matrix.of e.rotation *ᵥ e.forward = ![0, 0, 1] := by
  obtain ⟨q, c, hq, rfl⟩ := he
  rw [forward_eq hq]
  show Matrix.of q.toRotationMatrix *ᵥ q.inverse.rotate _ = _
  rw [← mulVec3_eq, mulVec3_toRotationMatrix hq, rotate_inverse_rotate hq]

theorem forward_ne_zero (he : ValidExtrinsics e) : e.forward ≠ 0 := by
  intro h
  have := rotation_forward he
  rw [h, mulVec_zero] at this
  simpa using congrFun this 2

/-- **C108**: the points shown in the pixel `u` are the points of the ray of `u`, extended to a line; the line runs along
`forward()`. -/
theorem c108_shows_iff (hx : p.sx ≠ 0) (hy : p.sy ≠ 0) (he : ValidExtrinsics e) (x : Vec) (u : Fin 2 → ℝ) :
    parallelImage p e x = u ↔ ∃ t : ℝ, x = (parallelRay p e u).center + t • e.forward := by
  constructor
  · rintro rfl
    refine ⟨(e.worldToCamera (.single x)).data 0 2, ?_⟩
    have h := c15_orthographic p hx hy he (.single x) 0
    simp only at h
    rw [c14_orthographic p he _ 0, (sd_bundle_rows _ _).1] at h
    exact h
  · rintro ⟨t, rfl⟩
    rw [parallelImage, ortho_worldToPixel, worldToCamera_rot he]
    simp only [Points.single]
    rw [add_sub_right_comm, mulVec_add, mulVec_smul, parallelRay_center he, rotation_forward he, ortho_of_ray hx hy]
    rfl

/-- **C108**: for pixels `u` and `u'` of two orthographic cameras whose optical axes are not parallel, some point is shown
in both pixels exactly if the two rays are coplanar. -/
theorem c108_constraint (hx : p.sx ≠ 0) (hy : p.sy ≠ 0) (hx' : p'.sx ≠ 0) (hy' : p'.sy ≠ 0) (he : ValidExtrinsics e)
    (he' : ValidExtrinsics e') (u u' : Fin 2 → ℝ) (hf : e.forward ⨯₃ e'.forward ≠ 0) :
    (∃ x, parallelImage p e x = u ∧ parallelImage p' e' x = u') ↔
      ((parallelRay p' e' u').center - (parallelRay p e u).center) ⬝ᵥ (e.forward ⨯₃ e'.forward) = 0 := by
  simp only [c108_shows_iff hx hy he, c108_shows_iff hx' hy' he']
  set c := (parallelRay p e u).center
  set c' := (parallelRay p' e' u').center
  constructor
  · rintro ⟨x, ⟨s, hs⟩, ⟨t, ht⟩⟩
    have : c' - c = s • e.forward - t • e'.forward := by
      rw [sub_eq_sub_iff_add_eq_add, ← ht, hs, add_comm]
    rw [this]
    simp [cross_apply, dotProduct, Fin.sum_univ_three]
    ring
  · intro h
    obtain ⟨s, t, hst⟩ := coplanar h hf
    refine ⟨c + s • e.forward, ⟨s, rfl⟩, ⟨-t, ?_⟩⟩
    have : c' = c + (c' - c) := by abel
    rw [this, hst]
    module

/-- **C108**: two orthographic cameras whose optical axes are not parallel show no two points in the same pair of pixels. -/
theorem c108_determined (hx : p.sx ≠ 0) (hy : p.sy ≠ 0) (hx' : p'.sx ≠ 0) (hy' : p'.sy ≠ 0) (he : ValidExtrinsics e)
    (he' : ValidExtrinsics e') (hf : e.forward ⨯₃ e'.forward ≠ 0) {x y : Vec}
    (h : parallelImage p e x = parallelImage p e y) (h' : parallelImage p' e' x = parallelImage p' e' y) : x = y := by
  obtain ⟨s, hs⟩ := (c108_shows_iff hx hy he x _).1 h
  obtain ⟨t, ht⟩ := (c108_shows_iff hx hy he y _).1 rfl
  obtain ⟨s', hs'⟩ := (c108_shows_iff hx' hy' he' x _).1 h'
  obtain ⟨t', ht'⟩ := (c108_shows_iff hx' hy' he' y _).1 rfl
  have h1 : x - y = (s - t) • e.forward := by
    generalize (parallelRay p e (parallelImage p e y)).center = k at hs ht
    rw [hs, ht]
    module
  have h2 : x - y = (s' - t') • e'.forward := by
    generalize (parallelRay p' e' (parallelImage p' e' y)).center = k at hs' ht'
    rw [hs', ht']
    module
  by_contra hne
  have h0 : s - t ≠ 0 := fun h => hne (sub_eq_zero.1 (by rw [h1, h, zero_smul]))
  apply hf
  have h3 : (s - t) • (e.forward ⨯₃ e'.forward) = 0 := by
    rw [← LinearMap.smul_apply, ← map_smul, ← h1, h2, map_smul, LinearMap.smul_apply, cross_self, smul_zero]
  exact (smul_eq_zero.1 h3).resolve_left h0

/-- **C108**: the point `best_intersection_of_rays` finds from two pixels is shown in exactly these pixels if and only if
the two rays are coplanar. -/
theorem c108_triangulated {trySvd : TrySvd ℝ} (hs : SvdContract trySvd) (hx : p.sx ≠ 0) (hy : p.sy ≠ 0) (hx' : p'.sx ≠ 0)
    (hy' : p'.sy ≠ 0) (he : ValidExtrinsics e) (he' : ValidExtrinsics e') (u u' : Fin 2 → ℝ)
    (hspread : |e.forward ⬝ᵥ e'.forward| < 1 - 1 / 10000000) {pt : Points WorldFrame ℝ 1}
    (hpt : bestIntersectionOfRays trySvd [parallelRay p e u, parallelRay p' e' u'] = .ok pt) :
    parallelImage p e (pt.data 0) = u ∧ parallelImage p' e' (pt.data 0) = u' ↔
      ((parallelRay p' e' u').center - (parallelRay p e u).center) ⬝ᵥ (e.forward ⨯₃ e'.forward) = 0 := by
  have unit : ∀ {e : ExtrinsicParameters ℝ}, ValidExtrinsics e → e.forward ⬝ᵥ e.forward = 1 := by
    rintro _ ⟨q, c, hq, rfl⟩
    rw [forward_eq hq, rotate_dot (unitQuat_inverse hq)]
    simp [dotProduct, Fin.sum_univ_three]
  have hf : e.forward ⨯₃ e'.forward ≠ 0 := by
    intro h0
    have : (e.forward ⨯₃ e'.forward) ⬝ᵥ (e.forward ⨯₃ e'.forward) =
        (e.forward ⬝ᵥ e.forward) * (e'.forward ⬝ᵥ e'.forward) - (e.forward ⬝ᵥ e'.forward) ^ 2 := by
      simp [cross_apply, dotProduct, Fin.sum_univ_three]
      ring
    rw [h0, zero_dotProduct, unit he, unit he', one_mul] at this
    have h1 : |e.forward ⬝ᵥ e'.forward| = 1 := by
      have := (sq_eq_sq_iff_abs_eq_abs (e.forward ⬝ᵥ e'.forward) 1).1 (by linarith)
      rwa [abs_one] at this
    linarith
  have len1 : ∀ {e : ExtrinsicParameters ℝ}, ValidExtrinsics e → len e.forward = 1 := by
    intro e he
    have := len_sq e.forward
    rw [unit he] at this
    nlinarith [len_nonneg e.forward]
  have hsp : Spread [parallelRay p e u, parallelRay p' e' u'] := by
    refine ⟨_, List.mem_cons_self, _, List.mem_cons_of_mem _ List.mem_cons_self, ?_⟩
    rw [parallelRay_direction he, parallelRay_direction he', len1 he, len1 he']
    linarith
  rw [← c108_constraint hx hy hx' hy' he he' u u' hf]
  refine ⟨fun h => ⟨_, h⟩, ?_⟩
  rintro ⟨x, h1, h2⟩
  have h3 : pt.data 0 = x := by
    refine c32_common_point hs ?_ hsp ?_ hpt
    · intro r hr
      simp only [List.mem_cons, List.not_mem_nil, or_false] at hr
      rcases hr with rfl | rfl
      · rw [parallelRay_direction he]
        exact forward_ne_zero he
      · rw [parallelRay_direction he']
        exact forward_ne_zero he'
    · intro r hr
      simp only [List.mem_cons, List.not_mem_nil, or_false] at hr
      rcases hr with rfl | rfl
      · obtain ⟨t, ht⟩ := (c108_shows_iff hx hy he x u).1 h1
        exact ⟨t, by rw [parallelRay_direction he]; exact ht⟩
      · obtain ⟨t, ht⟩ := (c108_shows_iff hx' hy' he' x u').1 h2
        exact ⟨t, by rw [parallelRay_direction he']; exact ht⟩
  rw [h3]
  exact ⟨h1, h2⟩

/-- The images of points on a line. -/
theorem parallelImage_line (he : ValidExtrinsics e) (x y d : Vec) (t : ℝ) :
    parallelImage p e (x + t • d) = parallelImage p e x + t • (parallelImage p e (y + d) - parallelImage p e y) := by
  simp only [parallelImage, ortho_worldToPixel, worldToCamera_rot he, Points.single]
  rw [add_sub_right_comm x, add_sub_right_comm y, mulVec_add, mulVec_add, mulVec_smul]
  funext a
  fin_cases a <;> simp [orthographic] <;> ring

/-- **C108**, the epipolar lines: let the first camera show some point `x` in the pixel `u`. The pixels of the second camera
whose rays are coplanar with the ray of `u` form the line through the image of `x` in the direction `g`; `g` is the
same for all `u` and `x`, the image of one unit along the optical axis of the first camera. -/
theorem c108_epipolar_line (hx : p.sx ≠ 0) (hy : p.sy ≠ 0) (hx' : p'.sx ≠ 0) (hy' : p'.sy ≠ 0) (he : ValidExtrinsics e)
    (he' : ValidExtrinsics e') (hf : e.forward ⨯₃ e'.forward ≠ 0) :
    ∃ g : Fin 2 → ℝ, g ≠ 0 ∧ (∀ y, parallelImage p' e' (y + e.forward) - parallelImage p' e' y = g) ∧
      ∀ u u' x, parallelImage p e x = u →
        (((parallelRay p' e' u').center - (parallelRay p e u).center) ⬝ᵥ (e.forward ⨯₃ e'.forward) = 0 ↔
          ∃ t : ℝ, u' = parallelImage p' e' x + t • g) := by
  refine ⟨parallelImage p' e' (0 + e.forward) - parallelImage p' e' 0, ?_, ?_, ?_⟩
  · intro h
    have h1 : parallelImage p' e' (0 + e.forward) = parallelImage p' e' 0 := sub_eq_zero.1 h
    have h2 : parallelImage p e (0 + e.forward) = parallelImage p e 0 := by
      obtain ⟨t, ht⟩ := (c108_shows_iff hx hy he 0 _).1 rfl
      refine (c108_shows_iff hx hy he _ _).2 ⟨t + 1, ?_⟩
      conv_lhs => rw [ht]
      module
    have := c108_determined hx hy hx' hy' he he' hf h2 h1
    rw [zero_add] at this
    exact forward_ne_zero he this
  · intro y
    have := parallelImage_line (p := p') he' y 0 e.forward 1
    rw [one_smul, one_smul] at this
    rw [this, add_sub_cancel_left]
  · intro u u' x hu
    rw [← c108_constraint hx hy hx' hy' he he' u u' hf]
    obtain ⟨s, hs⟩ := (c108_shows_iff hx hy he x u).1 hu
    constructor
    · rintro ⟨z, h1, h2⟩
      obtain ⟨t, ht⟩ := (c108_shows_iff hx hy he z u).1 h1
      refine ⟨t - s, ?_⟩
      rw [← h2, ← parallelImage_line he' x 0 e.forward]
      congr 1
      rw [ht, hs]
      module
    · rintro ⟨t, rfl⟩
      refine ⟨x + t • e.forward, (c108_shows_iff hx hy he _ _).2 ⟨s + t, ?_⟩, parallelImage_line he' x 0 e.forward t⟩
      conv_lhs => rw [hs]
      module

/-- **C108**: points shown in one pixel by the first camera are always shown in one pixel by the second exactly if the
optical axes are parallel. -/
theorem c108_parallax (hx : p.sx ≠ 0) (hy : p.sy ≠ 0) (hx' : p'.sx ≠ 0) (hy' : p'.sy ≠ 0) (he : ValidExtrinsics e)
    (he' : ValidExtrinsics e') :
    (∀ x y, parallelImage p e x = parallelImage p e y → parallelImage p' e' x = parallelImage p' e' y) ↔
      e.forward ⨯₃ e'.forward = 0 := by
  have step : parallelImage p e (0 + e.forward) = parallelImage p e 0 := by
    obtain ⟨t, ht⟩ := (c108_shows_iff hx hy he 0 _).1 rfl
    refine (c108_shows_iff hx hy he _ _).2 ⟨t + 1, ?_⟩
    conv_lhs => rw [ht]
    module
  constructor
  · intro H
    by_contra hf
    have := c108_determined hx hy hx' hy' he he' hf step (H _ _ step)
    rw [zero_add] at this
    exact forward_ne_zero he this
  · intro hf x y h
    obtain ⟨s, hs⟩ := (c108_shows_iff hx hy he x _).1 h
    obtain ⟨t, ht⟩ := (c108_shows_iff hx hy he y _).1 rfl
    obtain ⟨k, hk⟩ : ∃ k : ℝ, e.forward = k • e'.forward := by
      have hn : e'.forward ⬝ᵥ e'.forward ≠ 0 := fun h0 => forward_ne_zero he' (dotProduct_self_eq_zero.1 h0)
      refine ⟨(e.forward ⬝ᵥ e'.forward) / (e'.forward ⬝ᵥ e'.forward), ?_⟩
      have h0 := congrFun hf 0
      have h1 := congrFun hf 1
      have h2 := congrFun hf 2
      simp [cross_apply] at h0 h1 h2
      funext a
      simp only [Pi.smul_apply, smul_eq_mul]
      rw [div_mul_eq_mul_div, eq_div_iff hn]
      fin_cases a <;> simp [dotProduct, Fin.sum_univ_three]
      · linear_combination e'.forward 1 * h2 - e'.forward 2 * h1
      · linear_combination e'.forward 2 * h0 - e'.forward 0 * h2
      · linear_combination e'.forward 0 * h1 - e'.forward 1 * h0
    obtain ⟨r, hr⟩ := (c108_shows_iff hx' hy' he' y _).1 rfl
    refine (c108_shows_iff hx' hy' he' _ _).2 ⟨r + (s - t) * k, ?_⟩
    have : x = y + ((s - t) * k) • e'.forward := by
      rw [mul_smul, ← hk]
      conv_lhs => rw [hs]
      conv_rhs => rw [ht]
      module
    conv_lhs => rw [this, hr]
    module

/-- **C108**, a perspective and an orthographic camera: for a pixel `u` of the first and `u'` of the second whose rays are
not parallel and such that the ray of `u'` does not pass through the centre of the perspective camera, some point is
shown in both pixels exactly if the two rays are coplanar. -/
theorem c108_mixed {p : PerspectiveParams ℝ} (hx : p.fx ≠ 0) (hy : p.fy ≠ 0) (hx' : p'.sx ≠ 0) (hy' : p'.sy ≠ 0)
    (he : ValidExtrinsics e) (he' : ValidExtrinsics e') (u u' : Fin 2 → ℝ) {d b : Vec}
    (hd : d = (sightRay p e u).direction) (hb : b = (parallelRay p' e' u').center - e.camcenter)
    (hdf : d ⨯₃ e'.forward ≠ 0) (hbf : b ⨯₃ e'.forward ≠ 0) :
    (∃ x, Shows p e x u ∧ parallelImage p' e' x = u') ↔ b ⬝ᵥ (d ⨯₃ e'.forward) = 0 := by
  simp only [c103_shows_iff hx hy he, c108_shows_iff hx' hy' he', ← hd]
  have hc : (parallelRay p' e' u').center = e.camcenter + b := by rw [hb]; abel
  rw [hc]
  constructor
  · rintro ⟨x, ⟨s, -, hs⟩, ⟨t, ht⟩⟩
    have : b = s • d - t • e'.forward := by
      have h1 : s • d = x - e.camcenter := by rw [hs]; abel
      have h2 : t • e'.forward = x - (e.camcenter + b) := by rw [ht]; abel
      rw [h1, h2]
      abel
    rw [this]
    simp [cross_apply, dotProduct, Fin.sum_univ_three]
    ring
  · intro h
    obtain ⟨s, t, hst⟩ := coplanar h hdf
    refine ⟨e.camcenter + s • d, ⟨s, ?_, rfl⟩, ⟨-t, ?_⟩⟩
    · rintro rfl
      apply hbf
      rw [hst]
      simp
    · rw [hst]
      module

end

/-! ### The theorems apply -/

/-- A camera looking along +z and one looking along +x, both through the origin: the axes are not parallel, the point
`(1, 2, 3)` is shown in the pixels `(1, 2)` and `(-3, 2)`; the rays of the pixels `(1, 2)` and `(-3, 5)` have no common
point. -/
example :
    let e := fromRotationAndCamcenter (⟨1, 0, 0, 0⟩ : Quat ℝ) 0
    let e' := fromRotationAndCamcenter (⟨√2 / 2, 0, -√2 / 2, 0⟩ : Quat ℝ) 0
    let p : OrthographicParams ℝ := ⟨1, 1, 0, 0⟩
    ValidExtrinsics e ∧ ValidExtrinsics e' ∧ e.forward ⨯₃ e'.forward ≠ 0 ∧
      |e.forward ⬝ᵥ e'.forward| < 1 - 1 / 10000000 ∧ parallelImage p e ![1, 2, 3] = ![1, 2] ∧
      parallelImage p e' ![1, 2, 3] = ![-3, 2] ∧
      ¬ ∃ x, parallelImage p e x = ![1, 2] ∧ parallelImage p e' x = ![-3, 5] := by
  have h2 : √2 * √2 = (2 : ℝ) := Real.mul_self_sqrt (by norm_num)
  have hq : UnitQuat ⟨1, 0, 0, 0⟩ := by simp [UnitQuat]
  have hq' : UnitQuat ⟨√2 / 2, 0, -√2 / 2, 0⟩ := by
    simp only [UnitQuat]
    nlinarith
  intro e e' p
  have f1 : e.forward = ![0, 0, 1] := by
    simp only [e, forward_eq hq, rotate_apply]
    funext a
    fin_cases a <;> simp [Quat.inverse]
  have f2 : e'.forward = ![1, 0, 0] := by
    simp only [e', forward_eq hq', rotate_apply]
    funext a
    fin_cases a <;> simp [Quat.inverse] <;> nlinarith
  have i1 : ∀ x, parallelImage p e x = ![x 0, x 1] := by
    intro x
    simp only [parallelImage, ortho_worldToPixel, e, worldToCamera_row hq, rotate_apply, Points.single]
    funext a
    fin_cases a <;> simp [orthographic, p]
  have i2 : ∀ x, parallelImage p e' x = ![-x 2, x 1] := by
    intro x
    simp only [parallelImage, ortho_worldToPixel, e', worldToCamera_row hq', rotate_apply, Points.single]
    funext a
    fin_cases a <;> simp [orthographic, p]
    linear_combination (-(x 0) / 2 - x 2 / 2) * h2
  refine ⟨⟨_, _, hq, rfl⟩, ⟨_, _, hq', rfl⟩, ?_, ?_, ?_, ?_, ?_⟩
  · rw [f1, f2]
    exact fun h => by simpa [cross_apply] using congrFun h 1
  · rw [f1, f2]
    simp [dotProduct, Fin.sum_univ_three]
    norm_num
  · rw [i1]; rfl
  · rw [i2]; rfl
  · rintro ⟨x, h1, h3⟩
    rw [i1] at h1
    rw [i2] at h3
    have a1 := congrFun h1 1
    have a2 := congrFun h3 1
    simp at a1 a2
    linarith

/-- A perspective camera at the origin and an orthographic one looking along +x: the conditions of `c108_mixed` hold for
the pixels `(0, 0)` and `(-3, 0)`. -/
example :
    let e := fromRotationAndCamcenter (⟨1, 0, 0, 0⟩ : Quat ℝ) ![0, 0, 0]
    let e' := fromRotationAndCamcenter (⟨√2 / 2, 0, -√2 / 2, 0⟩ : Quat ℝ) 0
    let d : Vec := (sightRay ⟨1, 1, 0, 0, 0⟩ e ![0, 0]).direction
    let b : Vec := (parallelRay ⟨1, 1, 0, 0⟩ e' ![-3, 0]).center - e.camcenter
    d ⨯₃ e'.forward ≠ 0 ∧ b ⨯₃ e'.forward ≠ 0 ∧ b ⬝ᵥ (d ⨯₃ e'.forward) = 0 := by
  have h2 : √2 * √2 = (2 : ℝ) := Real.mul_self_sqrt (by norm_num)
  have hq' : UnitQuat ⟨√2 / 2, 0, -√2 / 2, 0⟩ := by
    simp only [UnitQuat]
    nlinarith
  intro e e' d b
  have f2 : e'.forward = ![1, 0, 0] := by
    simp only [e', forward_eq hq', rotate_apply]
    funext a
    fin_cases a <;> simp [Quat.inverse] <;> nlinarith
  have hd : d = ![0, 0, 1] := by simp only [d, e, plain_ray]; rfl
  have hb : b = ![0, 0, 3] := by
    simp only [b, e, e', c04_camcenter, parallelRay, ortho_pixelToWorld _ hq']
    show Quat.rotate _ _ + _ - _ = _
    rw [ortho_pixelToCamera, rotate_apply]
    funext a
    fin_cases a <;> simp [Quat.inverse, IntrinsicParametersOrthographic.ofParams, Pixels.single]
    all_goals nlinarith
  rw [f2, hd, hb]
  refine ⟨fun h => ?_, fun h => ?_, ?_⟩
  · simpa [cross_apply] using congrFun h 1
  · simpa [cross_apply] using congrFun h 1
  · simp [cross_apply, dotProduct, Fin.sum_univ_three]

end CamGeom
