import Verif.Props.Triangulation
import Verif.Props.Projective
import Mathlib.Algebra.Polynomial.Roots

/-!
# C103: two perspective cameras and one point (epipolar geometry)
-/

namespace CamGeom
open Spec Matrix ExtrinsicParameters

/-- The ray `pixel_to_world`, `to_single_ray` assign to a pixel of a perspective camera. -/
noncomputable def sightRay (p : PerspectiveParams ℝ) (e : ExtrinsicParameters ℝ) (u : Fin 2 → ℝ) : Ray WorldFrame ℝ :=
  RayBundle.toSingleRay (B := SharedOriginRayBundle ℝ)
    ((Camera.mk (IntrinsicParametersPerspective.ofParams p) e).pixelToWorld (.single u))

/-- The camera shows the point `x` (in front or behind) in the pixel `u`. -/
def Shows (p : PerspectiveParams ℝ) (e : ExtrinsicParameters ℝ) (x : Vec) (u : Fin 2 → ℝ) : Prop :=
  (e.worldToCamera (.single x)).data 0 2 ≠ 0 ∧
    ((Camera.mk (IntrinsicParametersPerspective.ofParams p) e).worldToPixel (.single x)).data 0 = u

theorem sightRay_center {p : PerspectiveParams ℝ} {e : ExtrinsicParameters ℝ} (he : ValidExtrinsics e) (u : Fin 2 → ℝ) :
    (sightRay p e u).center = e.camcenter := by
  obtain ⟨q, c, hq, rfl⟩ := he
  rw [sightRay, persp_pixelToWorld (IntrinsicParametersPerspective.ofParams p) hq c, c04_camcenter]
  show q.inverse.rotate _ + c = c
  rw [persp_center, rotate_zero, zero_add]

/-- The direction in the camera frame. -/
theorem sightRay_direction {p : PerspectiveParams ℝ} {e : ExtrinsicParameters ℝ} (he : ValidExtrinsics e) (u : Fin 2 → ℝ) :
    Matrix.of e.rotation *ᵥ (sightRay p e u).direction =
      ((IntrinsicParametersPerspective.ofParams p).pixelToCamera (.single u)).data 0 := by
  obtain ⟨q, c, hq, rfl⟩ := he
  rw [sightRay, persp_pixelToWorld (IntrinsicParametersPerspective.ofParams p) hq c]
  show Matrix.of q.toRotationMatrix *ᵥ q.inverse.rotate _ = _
  rw [← mulVec3_eq, mulVec3_toRotationMatrix hq, rotate_inverse_rotate hq]

/-- **C103**: the points shown in the pixel `u` are the points of the ray of `u` without the camera centre. -/
theorem c103_shows_iff {p : PerspectiveParams ℝ} (hx : p.fx ≠ 0) (hy : p.fy ≠ 0) {e : ExtrinsicParameters ℝ}
    (he : ValidExtrinsics e) (x : Vec) (u : Fin 2 → ℝ) :
    Shows p e x u ↔ ∃ t : ℝ, t ≠ 0 ∧ x = e.camcenter + t • (sightRay p e u).direction := by
  constructor
  · rintro ⟨hz, rfl⟩
    refine ⟨_, hz, ?_⟩
    have h := c15_perspective p hx hy he (.single x) 0 hz
    simp only at h
    rw [(c14_perspective p hx hy he _ 0).1] at h
    exact h
  · rintro ⟨t, ht, rfl⟩
    have h : (e.worldToCamera (.single (e.camcenter + t • (sightRay p e u).direction))).data 0 =
        t • ((IntrinsicParametersPerspective.ofParams p).pixelToCamera (.single u)).data 0 := by
      rw [worldToCamera_rot he]
      simp only [Points.single, add_sub_cancel_left]
      rw [mulVec_smul, sightRay_direction he]
    have hz : (e.worldToCamera (.single (e.camcenter + t • (sightRay p e u).direction))).data 0 2 ≠ 0 := by
      rw [h]
      simpa [persp_dir_z] using ht
    refine ⟨hz, ?_⟩
    rw [persp_worldToPixel p _ 0 hz, h, pinhole_of_direction hx hy _ _ ht]
    rfl

/-- Coplanar vectors: `b` is a combination of `d` and `d'`. -/
theorem coplanar {b d d' : Vec} (h : b ⬝ᵥ (d ⨯₃ d') = 0) (hd : d ⨯₃ d' ≠ 0) : ∃ s t : ℝ, b = s • d + t • d' := by
  set n := d ⨯₃ d' with hn
  have hnn : n ⬝ᵥ n ≠ 0 := fun h0 => hd (dotProduct_self_eq_zero.1 h0)
  refine ⟨((b ⨯₃ d') ⬝ᵥ n) / (n ⬝ᵥ n), ((d ⨯₃ b) ⬝ᵥ n) / (n ⬝ᵥ n), ?_⟩
  have key : ∀ i, (n ⬝ᵥ n) * b i = ((b ⨯₃ d') ⬝ᵥ n) * d i + ((d ⨯₃ b) ⬝ᵥ n) * d' i + (b ⬝ᵥ n) * n i := by
    intro i
    rw [hn]
    fin_cases i <;> simp [cross_apply, dotProduct, Fin.sum_univ_three] <;> ring
  funext i
  have := key i
  rw [h, zero_mul, add_zero] at this
  simp only [Pi.add_apply, Pi.smul_apply, smul_eq_mul]
  field_simp
  linarith

/-- **C103**, the epipolar constraint: for pixels `u` and `u'` of two cameras whose rays are not parallel and not
along the line of the camera centres, some point is shown in both pixels exactly if the rays and that line are
coplanar. -/
theorem c103_constraint {p p' : PerspectiveParams ℝ} (hx : p.fx ≠ 0) (hy : p.fy ≠ 0) (hx' : p'.fx ≠ 0) (hy' : p'.fy ≠ 0)
    {e e' : ExtrinsicParameters ℝ} (he : ValidExtrinsics e) (he' : ValidExtrinsics e') (u u' : Fin 2 → ℝ) {d d' b : Vec}
    (hd : d = (sightRay p e u).direction) (hd' : d' = (sightRay p' e' u').direction)
    (hb : b = e'.camcenter - e.camcenter) (hdd : d ⨯₃ d' ≠ 0) (hbd : b ⨯₃ d ≠ 0) (hbd' : b ⨯₃ d' ≠ 0) :
    (∃ x, Shows p e x u ∧ Shows p' e' x u') ↔ b ⬝ᵥ (d ⨯₃ d') = 0 := by
  simp only [c103_shows_iff hx hy he, c103_shows_iff hx' hy' he', ← hd, ← hd']
  constructor
  · rintro ⟨x, ⟨s, -, hs⟩, ⟨t, -, ht⟩⟩
    have : b = s • d - t • d' := by
      rw [hb]
      have h1 : s • d = x - e.camcenter := by rw [hs]; abel
      have h2 : t • d' = x - e'.camcenter := by rw [ht]; abel
      rw [h1, h2]
      abel
    rw [this]
    simp [cross_apply, dotProduct, Fin.sum_univ_three]
    ring
  · intro h
    obtain ⟨s, t, hst⟩ := coplanar h hdd
    refine ⟨e.camcenter + s • d, ⟨s, ?_, rfl⟩, ⟨-t, ?_, ?_⟩⟩
    · rintro rfl
      apply hbd'
      rw [hst]
      simp
    · intro h0
      rw [neg_eq_zero] at h0
      subst h0
      apply hbd
      rw [hst]
      simp
    · have : e'.camcenter = e.camcenter + b := by rw [hb]; abel
      rw [this, hst]
      module

/-- **C103**: the point `best_intersection_of_rays` finds from two pixels is shown in exactly these pixels if and only
if they satisfy the epipolar constraint. -/
theorem c103_triangulated {trySvd : TrySvd ℝ} (hs : SvdContract trySvd) {p p' : PerspectiveParams ℝ} (hx : p.fx ≠ 0)
    (hy : p.fy ≠ 0) (hx' : p'.fx ≠ 0) (hy' : p'.fy ≠ 0) {e e' : ExtrinsicParameters ℝ} (he : ValidExtrinsics e)
    (he' : ValidExtrinsics e') (u u' : Fin 2 → ℝ) {d d' b : Vec} (hd : d = (sightRay p e u).direction)
    (hd' : d' = (sightRay p' e' u').direction) (hb : b = e'.camcenter - e.camcenter)
    (hspread : Spread [sightRay p e u, sightRay p' e' u']) (hbd : b ⨯₃ d ≠ 0) (hbd' : b ⨯₃ d' ≠ 0)
    {pt : Points WorldFrame ℝ 1} (hpt : bestIntersectionOfRays trySvd [sightRay p e u, sightRay p' e' u'] = .ok pt) :
    Shows p e (pt.data 0) u ∧ Shows p' e' (pt.data 0) u' ↔ b ⬝ᵥ (d ⨯₃ d') = 0 := by
  have hd0 : d ≠ 0 := by
    rintro h
    exact hbd (by rw [h]; simp)
  have hd0' : d' ≠ 0 := by
    rintro h
    exact hbd' (by rw [h]; simp)
  have hdd : d ⨯₃ d' ≠ 0 := by
    have far : ∀ {v w : Vec}, |v ⬝ᵥ w| < (1 - 1 / 10000000) * (len v * len w) → v ⨯₃ w ≠ 0 := by
      intro v w h h0
      have h1 : (v ⬝ᵥ w) ^ 2 = (len v * len w) ^ 2 := by
        rw [mul_pow, len_sq, len_sq]
        have : (v ⨯₃ w) ⬝ᵥ (v ⨯₃ w) = (v ⬝ᵥ v) * (w ⬝ᵥ w) - (v ⬝ᵥ w) ^ 2 := by
          simp [cross_apply, dotProduct, Fin.sum_univ_three]
          ring
        rw [h0, zero_dotProduct] at this
        linarith
      have h2 : |v ⬝ᵥ w| = len v * len w := by
        rw [← abs_of_nonneg (mul_nonneg (len_nonneg v) (len_nonneg w))]
        exact (sq_eq_sq_iff_abs_eq_abs _ _).1 h1
      have := mul_nonneg (len_nonneg v) (len_nonneg w)
      linarith
    obtain ⟨r, hr, r', hr', hlt⟩ := hspread
    have hc := far hlt
    simp only [List.mem_cons, List.not_mem_nil, or_false] at hr hr'
    rcases hr with rfl | rfl <;> rcases hr' with rfl | rfl
    · exact absurd (cross_self _) hc
    · rwa [hd, hd']
    · rw [hd, hd', ← cross_anticomm]
      exact neg_ne_zero.2 hc
    · exact absurd (cross_self _) hc
  rw [← c103_constraint hx hy hx' hy' he he' u u' hd hd' hb hdd hbd hbd']
  refine ⟨fun h => ⟨_, h⟩, ?_⟩
  rintro ⟨x, h1, h2⟩
  have h3 : pt.data 0 = x := by
    refine c32_common_point hs ?_ hspread ?_ hpt
    · intro r hr
      simp only [List.mem_cons, List.not_mem_nil, or_false] at hr
      rcases hr with rfl | rfl
      · rwa [← hd]
      · rwa [← hd']
    · intro r hr
      simp only [List.mem_cons, List.not_mem_nil, or_false] at hr
      rcases hr with rfl | rfl
      · obtain ⟨t, -, ht⟩ := (c103_shows_iff hx hy he x u).1 h1
        exact ⟨t, by rw [sightRay_center he]; exact ht⟩
      · obtain ⟨t, -, ht⟩ := (c103_shows_iff hx' hy' he' x u').1 h2
        exact ⟨t, by rw [sightRay_center he']; exact ht⟩
  rw [h3]
  exact ⟨h1, h2⟩

/-- Images of three points are collinear exactly if the points and the camera centre are coplanar. -/
theorem pinhole_collinear_iff {fx fy s cx cy : ℝ} (hx : fx ≠ 0) (hy : fy ≠ 0) {X Y Z : Vec} (h0 : X 2 ≠ 0) (h1 : Y 2 ≠ 0)
    (h2 : Z 2 ≠ 0) : Collinear3 (pinhole fx fy s cx cy X) (pinhole fx fy s cx cy Y) (pinhole fx fy s cx cy Z) ↔
      X ⬝ᵥ (Y ⨯₃ Z) = 0 := by
  have key : ((pinhole fx fy s cx cy Y) 0 - (pinhole fx fy s cx cy X) 0) * ((pinhole fx fy s cx cy Z) 1 - (pinhole fx fy s cx cy X) 1) -
      ((pinhole fx fy s cx cy Z) 0 - (pinhole fx fy s cx cy X) 0) * ((pinhole fx fy s cx cy Y) 1 - (pinhole fx fy s cx cy X) 1) =
      fx * fy * (X ⬝ᵥ (Y ⨯₃ Z)) / (X 2 * Y 2 * Z 2) := by
    simp [pinhole, cross_apply, dotProduct, Fin.sum_univ_three]
    field_simp
    ring
  rw [Collinear3, ← sub_eq_zero, key, div_eq_zero_iff]
  simp [hx, hy, h0, h1, h2]

theorem triple_rotation {M : Fin 3 → Fin 3 → ℝ} (h : IsRotation M) (x y z : Vec) :
    (Matrix.of M *ᵥ x) ⬝ᵥ ((Matrix.of M *ᵥ y) ⨯₃ (Matrix.of M *ᵥ z)) = x ⬝ᵥ (y ⨯₃ z) := by
  have : (Matrix.of M *ᵥ x) ⬝ᵥ ((Matrix.of M *ᵥ y) ⨯₃ (Matrix.of M *ᵥ z)) = (Matrix.of M).det * (x ⬝ᵥ (y ⨯₃ z)) := by
    rw [det_fin_three]
    simp [cross_apply, mulVec, dotProduct, Fin.sum_univ_three]
    ring
  rw [this, h.2, one_mul]

/-- **C103**, the epipolar line: let the first camera show some point `x` in the pixel `u`. A pixel `u'` of the second
camera satisfies the epipolar constraint with `u` exactly if it lies on the line through the second camera's images
of `x` and of the centre of the first camera. -/
theorem c103_epipolar_line {p p' : PerspectiveParams ℝ} (hx : p.fx ≠ 0) (hy : p.fy ≠ 0) (hx' : p'.fx ≠ 0) (hy' : p'.fy ≠ 0)
    {e e' : ExtrinsicParameters ℝ} (he : ValidExtrinsics e) (he' : ValidExtrinsics e') (u u' : Fin 2 → ℝ) {d d' b : Vec}
    (hd : d = (sightRay p e u).direction) (hd' : d' = (sightRay p' e' u').direction)
    (hb : b = e'.camcenter - e.camcenter) {x : Vec} (hxu : Shows p e x u) {v w : Fin 2 → ℝ} (hv : Shows p' e' x v)
    (hw : Shows p' e' e.camcenter w) : b ⬝ᵥ (d ⨯₃ d') = 0 ↔ Collinear3 w v u' := by
  obtain ⟨t, ht, hxt⟩ := (c103_shows_iff hx hy he x u).1 hxu
  rw [← hd] at hxt
  have hu' : u' = pinhole p'.fx p'.fy p'.skew p'.cx p'.cy (Matrix.of e'.rotation *ᵥ d') := by
    have := pinhole_of_direction hx' hy' (.single u') 0 (one_ne_zero (α := ℝ))
    rw [one_smul, ← sightRay_direction he', ← hd'] at this
    exact this.symm
  have hz' : (Matrix.of e'.rotation *ᵥ d') 2 ≠ 0 := by
    rw [hd', sightRay_direction he', persp_dir_z]
    norm_num
  have hv' := hv.2
  have hw' := hw.2
  rw [persp_worldToPixel p' _ 0 hv.1, worldToCamera_rot he'] at hv'
  rw [persp_worldToPixel p' _ 0 hw.1, worldToCamera_rot he'] at hw'
  have z1 := hv.1
  have z0 := hw.1
  rw [worldToCamera_rot he'] at z1 z0
  rw [← hv', ← hw', hu', pinhole_collinear_iff hx' hy' z0 z1 hz', triple_rotation (c05_translation_rotation he').2]
  simp only [Points.single]
  have e0 : e.camcenter - e'.camcenter = -b := by rw [hb]; abel
  have e1 : x - e'.camcenter = t • d - b := by rw [hb, hxt]; abel
  have e2 : (-b) ⬝ᵥ ((t • d - b) ⨯₃ d') = -t * (b ⬝ᵥ (d ⨯₃ d')) := by
    simp [cross_apply, dotProduct, Fin.sum_univ_three]
    ring
  rw [e0, e1, e2]
  simp [ht]

/-- A vector that is not orthogonal to any of three given ones. -/
theorem exists_transversal {f g h : Vec} (hf : f ≠ 0) (hg : g ≠ 0) (hh : h ≠ 0) :
    ∃ w : Vec, f ⬝ᵥ w ≠ 0 ∧ g ⬝ᵥ w ≠ 0 ∧ h ⬝ᵥ w ≠ 0 := by
  let P : Vec → Polynomial ℝ := fun f => Polynomial.C (f 0) + Polynomial.C (f 1) * Polynomial.X + Polynomial.C (f 2) * Polynomial.X ^ 2
  have hP : ∀ {f : Vec}, f ≠ 0 → P f ≠ 0 := by
    intro f hf h0
    apply hf
    funext i
    have h0' : (P f).coeff 0 = 0 := by rw [h0]; simp
    have h1' : (P f).coeff 1 = 0 := by rw [h0]; simp
    have h2' : (P f).coeff 2 = 0 := by rw [h0]; simp
    simp [P, Polynomial.coeff_X, Polynomial.coeff_X_pow, Polynomial.coeff_C] at h0' h1' h2'
    fin_cases i <;> simpa
  have hPe : ∀ (f : Vec) (x : ℝ), (P f).eval x = f ⬝ᵥ ![1, x, x ^ 2] := by
    intro f x
    simp [P, dotProduct, Fin.sum_univ_three]
  have hne : P f * P g * P h ≠ 0 := mul_ne_zero (mul_ne_zero (hP hf) (hP hg)) (hP hh)
  obtain ⟨x, hx⟩ : ∃ x, (P f * P g * P h).eval x ≠ 0 := by
    by_contra hcon
    push Not at hcon
    exact hne (Polynomial.funext (by simpa using hcon))
  rw [Polynomial.eval_mul, Polynomial.eval_mul, hPe, hPe, hPe] at hx
  exact ⟨_, fun h => hx (by rw [h]; ring), fun h => hx (by rw [h]; ring), fun h => hx (by rw [h]; ring)⟩

/-- **C103**, parallax: two cameras show the same pairs of points in one pixel exactly if they have the same centre.
More precisely, if the centres differ there are points shown in one pixel by the first camera and in two different
pixels by the second. -/
theorem c103_parallax {p p' : PerspectiveParams ℝ} (hx : p.fx ≠ 0) (hy : p.fy ≠ 0) (hx' : p'.fx ≠ 0) (hy' : p'.fy ≠ 0)
    {e e' : ExtrinsicParameters ℝ} (he : ValidExtrinsics e) (he' : ValidExtrinsics e') :
    (∀ x y u v v', Shows p e x u → Shows p e y u → Shows p' e' x v → Shows p' e' y v' → v = v') ↔
      e.camcenter = e'.camcenter := by
  constructor
  · intro H
    by_contra hne
    set b := e'.camcenter - e.camcenter with hb
    have hb0 : b ≠ 0 := sub_ne_zero.2 (Ne.symm hne)
    obtain ⟨g, hg0, hgb⟩ : ∃ g : Vec, g ≠ 0 ∧ g ⬝ᵥ b = 0 := by
      by_cases h : b 0 = 0
      · refine ⟨![1, 0, 0], fun h0 => by simpa using congrFun h0 0, ?_⟩
        simp [dotProduct, Fin.sum_univ_three, h]
      · refine ⟨![b 1, -b 0, 0], fun h0 => h (by simpa using congrFun h0 1), ?_⟩
        simp [dotProduct, Fin.sum_univ_three]
        ring
    have row : ∀ {e : ExtrinsicParameters ℝ}, ValidExtrinsics e → e.rotation 2 ≠ 0 := by
      intro e he h0
      have h1 := (c05_translation_rotation he).2.2
      rw [det_fin_three] at h1
      have h2 : ∀ j, Matrix.of e.rotation 2 j = 0 := fun j => by rw [Matrix.of_apply, h0]; rfl
      simp [h2] at h1
    obtain ⟨w, hw1, hw2, hw3⟩ := exists_transversal (row he) (row he') hg0
    have depth : ∀ {e : ExtrinsicParameters ℝ}, ValidExtrinsics e → ∀ x : Vec,
        (e.worldToCamera (.single x)).data 0 2 = e.rotation 2 ⬝ᵥ (x - e.camcenter) := by
      intro e he x
      rw [worldToCamera_rot he]
      rfl
    -- a parameter for which the second depth is not zero
    have pick : ∀ a c : ℝ, c ≠ 0 → ∃ s t : ℝ, s ≠ 0 ∧ t ≠ 0 ∧ s ≠ t ∧ s * c - a ≠ 0 ∧ t * c - a ≠ 0 := by
      intro a c hc
      by_cases h1 : 1 * c - a = 0
      · refine ⟨2, 3, by norm_num, by norm_num, by norm_num, fun h => hc ?_, fun h => hc ?_⟩ <;> linarith
      · by_cases h2 : 2 * c - a = 0
        · exact ⟨1, 3, by norm_num, by norm_num, by norm_num, h1, fun h => hc (by linarith)⟩
        · exact ⟨1, 2, by norm_num, by norm_num, by norm_num, h1, h2⟩
    obtain ⟨s, t, hs, ht, hst, hsa, hta⟩ := pick (e'.rotation 2 ⬝ᵥ b) (e'.rotation 2 ⬝ᵥ w) hw2
    have d1 : ∀ r : ℝ, r ≠ 0 → (e.worldToCamera (.single (e.camcenter + r • w))).data 0 2 ≠ 0 := by
      intro r hr
      rw [depth he, add_sub_cancel_left, dotProduct_smul, smul_eq_mul]
      exact mul_ne_zero hr hw1
    have d2 : ∀ r : ℝ, r * (e'.rotation 2 ⬝ᵥ w) - e'.rotation 2 ⬝ᵥ b ≠ 0 →
        (e'.worldToCamera (.single (e.camcenter + r • w))).data 0 2 ≠ 0 := by
      intro r hr
      have : e.camcenter + r • w - e'.camcenter = r • w - b := by rw [hb]; abel
      rw [depth he', this, dotProduct_sub, dotProduct_smul, smul_eq_mul]
      exact hr
    have same : ((Camera.mk (IntrinsicParametersPerspective.ofParams p) e).worldToPixel (.single (e.camcenter + t • w))).data 0 =
        ((Camera.mk (IntrinsicParametersPerspective.ofParams p) e).worldToPixel (.single (e.camcenter + s • w))).data 0 := by
      refine c11_scale_invariant p (e.worldToCamera (.single (e.camcenter + s • w))) _ 0 (d1 s hs) (t / s)
        (div_ne_zero ht hs) ?_
      rw [worldToCamera_rot he, worldToCamera_rot he, ← mulVec_smul]
      congr 1
      simp only [Points.single, add_sub_cancel_left, smul_smul]
      rw [div_mul_cancel₀ _ hs]
    have h := H _ _ _ _ _ ⟨d1 s hs, rfl⟩ ⟨d1 t ht, same⟩ ⟨d2 s hsa, rfl⟩ ⟨d2 t hta, rfl⟩
    rw [persp_worldToPixel p' _ 0 (d2 s hsa), persp_worldToPixel p' _ 0 (d2 t hta)] at h
    have h1 := pinhole_injective hx' hy' (d2 s hsa) (d2 t hta) h
    set k := (e'.worldToCamera (.single (e.camcenter + t • w))).data 0 2 /
      (e'.worldToCamera (.single (e.camcenter + s • w))).data 0 2
    rw [worldToCamera_rot he', worldToCamera_rot he', ← mulVec_smul] at h1
    have inj : ∀ x y : Vec, Matrix.of e'.rotation *ᵥ x = Matrix.of e'.rotation *ᵥ y → x = y := by
      intro x y hxy
      have h2 := (c05_translation_rotation he').2.1
      have := congrArg ((Matrix.of e'.rotation).transpose *ᵥ ·) hxy
      simpa [mulVec_mulVec, h2] using this
    have h2 := inj _ _ h1
    have e1 : ∀ r : ℝ, (Points.single (F := WorldFrame) (e.camcenter + r • w)).data 0 - e'.camcenter = r • w - b := by
      intro r
      simp only [Points.single]
      rw [hb]
      abel
    rw [e1, e1] at h2
    have h3 := congrArg (g ⬝ᵥ ·) h2
    simp only [dotProduct_sub, dotProduct_smul, hgb, smul_eq_mul, sub_zero] at h3
    have h4 : t = k * s := by
      have : t * (g ⬝ᵥ w) = (k * s) * (g ⬝ᵥ w) := by linarith
      exact mul_right_cancel₀ hw3 this
    rw [h4, smul_sub, smul_smul] at h2
    have h5 : b = k • b := by simpa using h2
    have h6 : k = 1 := by
      by_contra hk
      apply hb0
      have : (1 - k) • b = 0 := by rw [sub_smul, one_smul, ← h5, sub_self]
      exact (smul_eq_zero.1 this).resolve_left (sub_ne_zero.2 (Ne.symm hk))
    exact hst (by rw [h4, h6, one_mul])
  · intro hc x y u v v' h1 h2 h3 h4
    obtain ⟨s, hs, hxs⟩ := (c103_shows_iff hx hy he x u).1 h1
    obtain ⟨t, ht, hyt⟩ := (c103_shows_iff hx hy he y u).1 h2
    rw [← h3.2, ← h4.2]
    refine (c11_scale_invariant p' (e'.worldToCamera (.single x)) _ 0 h3.1 (t / s) (div_ne_zero ht hs) ?_).symm
    rw [worldToCamera_rot he', worldToCamera_rot he', ← mulVec_smul]
    congr 1
    simp only [Points.single]
    rw [hxs, hyt, hc, add_sub_cancel_left, add_sub_cancel_left, smul_smul, div_mul_cancel₀ _ hs]

/-! ### The theorems apply -/

section
open Real

/-- A camera with unit focal lengths that is not rotated. -/
theorem plain_ray (c : Vec) (u : Fin 2 → ℝ) :
    (sightRay ⟨1, 1, 0, 0, 0⟩ (fromRotationAndCamcenter ⟨1, 0, 0, 0⟩ c) u).direction = ![u 0, u 1, 1] := by
  have hq : UnitQuat ⟨1, 0, 0, 0⟩ := by simp [UnitQuat]
  rw [sightRay, persp_pixelToWorld _ hq]
  show Quat.rotate _ _ = _
  rw [persp_pixelToCamera, rotate_apply]
  simp [Quat.inverse, IntrinsicParametersPerspective.ofParams, Pixels.single]

theorem plain_shows (c x : Vec) {u : Fin 2 → ℝ} (hz : x 2 - c 2 ≠ 0) (h0 : x 0 - c 0 = u 0 * (x 2 - c 2))
    (h1 : x 1 - c 1 = u 1 * (x 2 - c 2)) : Shows ⟨1, 1, 0, 0, 0⟩ (fromRotationAndCamcenter ⟨1, 0, 0, 0⟩ c) x u := by
  have hq : UnitQuat ⟨1, 0, 0, 0⟩ := by simp [UnitQuat]
  rw [c103_shows_iff one_ne_zero one_ne_zero ⟨_, c, hq, rfl⟩, plain_ray, c04_camcenter]
  refine ⟨x 2 - c 2, hz, ?_⟩
  funext a
  fin_cases a <;> simp <;> linarith

/-- Cameras at `(0, 0, 0)` and `(1, 0, 1)` show `(0, 0, 2)` in the pixels `(0, 0)` and `(-1, 0)`; the second one shows
the centre of the first in `(1, 0)`. The rays satisfy all conditions. -/
example :
    let e := fromRotationAndCamcenter (⟨1, 0, 0, 0⟩ : Quat ℝ) ![0, 0, 0]
    let e' := fromRotationAndCamcenter (⟨1, 0, 0, 0⟩ : Quat ℝ) ![1, 0, 1]
    let p : PerspectiveParams ℝ := ⟨1, 1, 0, 0, 0⟩
    let d : Vec := (sightRay p e ![0, 0]).direction
    let d' : Vec := (sightRay p e' ![-1, 0]).direction
    let b : Vec := e'.camcenter - e.camcenter
    ValidExtrinsics e ∧ ValidExtrinsics e' ∧ d ⨯₃ d' ≠ 0 ∧ b ⨯₃ d ≠ 0 ∧ b ⨯₃ d' ≠ 0 ∧ b ⬝ᵥ (d ⨯₃ d') = 0 ∧
      Spread [sightRay p e ![0, 0], sightRay p e' ![-1, 0]] ∧ Shows p e ![0, 0, 2] ![0, 0] ∧
      Shows p e' ![0, 0, 2] ![-1, 0] ∧ Shows p e' e.camcenter ![1, 0] := by
  have hq : UnitQuat ⟨1, 0, 0, 0⟩ := by simp [UnitQuat]
  intro e e' p d d' b
  have hd : d = ![0, 0, 1] := by simp only [d, p, e, plain_ray]; rfl
  have hd' : d' = ![-1, 0, 1] := by simp only [d', p, e', plain_ray]; rfl
  have hb : b = ![1, 0, 1] := by
    simp only [b, e, e', c04_camcenter]
    funext a
    fin_cases a <;> simp
  refine ⟨⟨_, _, hq, rfl⟩, ⟨_, _, hq, rfl⟩, ?_, ?_, ?_, ?_, ⟨sightRay p e ![0, 0], by simp, sightRay p e' ![-1, 0], by simp, ?_⟩, ?_, ?_, ?_⟩
  · rw [hd, hd']
    exact fun h => by simpa [cross_apply] using congrFun h 1
  · rw [hd, hb]
    exact fun h => by simpa [cross_apply] using congrFun h 1
  · rw [hd', hb]
    intro h
    have := congrFun h 1
    simp [cross_apply] at this
    norm_num at this
  · rw [hd, hd', hb]
    simp [cross_apply, dotProduct, Fin.sum_univ_three]
  · show |d ⬝ᵥ d'| < _ * (len d * len d')
    rw [hd, hd', len_eq, len_eq]
    simp only [dotProduct, Fin.sum_univ_three]
    simp only [Matrix.cons_val]
    norm_num
    have : (14 / 10 : ℝ) ≤ √2 := Real.le_sqrt_of_sq_le (by norm_num)
    linarith
  · exact plain_shows _ _ (by simp; try norm_num) (by simp; try norm_num) (by simp; try norm_num)
  · exact plain_shows _ _ (by simp; try norm_num) (by simp; try norm_num) (by simp; try norm_num)
  · rw [show e.camcenter = ![0, 0, 0] from c04_camcenter _ _]
    exact plain_shows _ _ (by simp; try norm_num) (by simp; try norm_num) (by simp; try norm_num)

end

end CamGeom
