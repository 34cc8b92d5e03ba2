import Verif.Props.ManyCameras

/-!
# C115: distance from a ray and difference of pixels
-/

namespace CamGeom
open Spec Matrix ExtrinsicParameters

/-- Difference of two pixels, measured by the slopes of their rays. -/
noncomputable def slopeGap (p : PerspectiveParams ℝ) (u w : Fin 2 → ℝ) : ℝ :=
  √((slopeRight p u - slopeRight p w) ^ 2 + (slopeDown p u - slopeDown p w) ^ 2)

theorem distTo_le_of_mem {s : Set Vec} {x y : Vec} (hy : y ∈ s) : distTo s x ≤ distance x y := by
  refine csInf_le ⟨0, ?_⟩ ⟨y, hy, rfl⟩
  rintro _ ⟨y, -, rfl⟩
  rw [distance, len_eq]
  exact Real.sqrt_nonneg _

section
variable {p : PerspectiveParams ℝ} {o : OrthographicParams ℝ} {e : ExtrinsicParameters ℝ}

/-- **C115**: the gap in terms of the pixels. -/
theorem c115_gap (u w : Fin 2 → ℝ) :
    slopeGap p u w = √((((u 0 - w 0) - p.skew * (u 1 - w 1) / p.fy) / p.fx) ^ 2 + ((u 1 - w 1) / p.fy) ^ 2) := by
  rw [slopeGap]
  congr 2
  · congr 1
    simp only [slopeRight]
    ring
  · congr 1
    simp only [slopeDown]
    ring

/-- Coordinates of a point along the axes of the camera, and its pixel. -/
theorem axes_pixel (hx : p.fx ≠ 0) (hy : p.fy ≠ 0) (he : ValidExtrinsics e) {x : Vec} (hz : depthOf e x ≠ 0) :
    x = e.camcenter + (depthOf e x * slopeRight p (centralImage p e x)) • e.right +
      (-(depthOf e x * slopeDown p (centralImage p e x))) • e.up + depthOf e x • e.forward := by
  obtain ⟨r, u, f, hv⟩ := c52_every_point he x
  have h1 := c09_camera_axes he r u f
  rw [← hv] at h1
  have hf : depthOf e x = f := by rw [depthOf, h1]; rfl
  rw [hf] at hz ⊢
  have h2 : centralImage p e x = ![p.cx + p.fx * r / f - p.skew * u / f, p.cy - p.fy * u / f] := by
    rw [centralImage]
    conv_lhs => rw [hv]
    exact c52_perspective p he r u f hz
  have e1 : f * slopeDown p (centralImage p e x) = -u := by
    rw [h2]
    simp [slopeDown]
    field_simp
  have e2 : f * slopeRight p (centralImage p e x) = r := by
    rw [h2]
    simp [slopeRight]
    field_simp
    ring
  rw [e1, e2, neg_neg]
  exact hv

/-- Squared distance of a point from a point of the ray of a pixel. -/
theorem sq_to_ray (hx : p.fx ≠ 0) (hy : p.fy ≠ 0) (he : ValidExtrinsics e) {x : Vec} (hz : depthOf e x ≠ 0) (w : Fin 2 → ℝ)
    (t : ℝ) :
    distance x ((sightRay p e w).center + t • (sightRay p e w).direction) =
      √((depthOf e x * slopeRight p (centralImage p e x) - t * slopeRight p w) ^ 2 +
        (depthOf e x * slopeDown p (centralImage p e x) - t * slopeDown p w) ^ 2 + (depthOf e x - t) ^ 2) := by
  have h := axes_pixel hx hy he hz
  rw [distance, len_eq]
  congr 1
  have h2 : x - ((sightRay p e w).center + t • (sightRay p e w).direction) =
      (depthOf e x * slopeRight p (centralImage p e x) - t * slopeRight p w) • e.right +
        (-(depthOf e x * slopeDown p (centralImage p e x) - t * slopeDown p w)) • e.up + (depthOf e x - t) • e.forward := by
    rw [sightRay_center he, c112_ray he]
    generalize slopeRight p (centralImage p e x) = a at *
    generalize slopeDown p (centralImage p e x) = b at *
    generalize depthOf e x = f at *
    rw [h]
    module
  rw [h2, axes_dot he]
  ring

/-- **C115**: the distance of a point from the ray of a pixel `w` is at most its depth times the gap between `w` and its own
pixel. -/
theorem c115_upper (hx : p.fx ≠ 0) (hy : p.fy ≠ 0) (he : ValidExtrinsics e) {x : Vec} (hz : depthOf e x ≠ 0) (w : Fin 2 → ℝ) :
    distTo (line (sightRay p e w).center (sightRay p e w).direction) x ≤
      |depthOf e x| * slopeGap p (centralImage p e x) w := by
  have h : distTo (line (sightRay p e w).center (sightRay p e w).direction) x ≤
      distance x ((sightRay p e w).center + depthOf e x • (sightRay p e w).direction) := distTo_le_of_mem ⟨depthOf e x, rfl⟩
  refine h.trans ?_
  · rw [sq_to_ray hx hy he hz, slopeGap, ← Real.sqrt_sq_eq_abs, ← Real.sqrt_mul (sq_nonneg _)]
    apply le_of_eq
    congr 1
    ring

/-- **C115**: and at least that, divided by the length of the direction of the ray. -/
theorem c115_lower (hx : p.fx ≠ 0) (hy : p.fy ≠ 0) (he : ValidExtrinsics e) {x : Vec} (hz : depthOf e x ≠ 0) (w : Fin 2 → ℝ) :
    |depthOf e x| * slopeGap p (centralImage p e x) w ≤ len (sightRay p e w).direction *
      distTo (line (sightRay p e w).center (sightRay p e w).direction) x := by
  have hl : len (sightRay p e w).direction = √(1 + slopeRight p w ^ 2 + slopeDown p w ^ 2) := by
    rw [len_eq, (c112_angle he w w).1, sq, sq]
  have hl0 : 0 < len (sightRay p e w).direction := by
    rw [hl]
    exact Real.sqrt_pos.2 (by positivity)
  rw [← div_le_iff₀' hl0]
  refine le_csInf ⟨_, _, ⟨0, rfl⟩, rfl⟩ ?_
  rintro _ ⟨_, ⟨t, rfl⟩, rfl⟩
  rw [div_le_iff₀' hl0, sq_to_ray hx hy he hz, hl, slopeGap, ← Real.sqrt_sq_eq_abs, ← Real.sqrt_mul (sq_nonneg _),
    ← Real.sqrt_mul (by positivity)]
  refine Real.sqrt_le_sqrt ?_
  generalize slopeRight p (centralImage p e x) = a
  generalize slopeDown p (centralImage p e x) = b
  generalize slopeRight p w = c
  generalize slopeDown p w = d
  generalize depthOf e x = z
  -- Cauchy-Schwarz for the two components orthogonal to the ray
  nlinarith [sq_nonneg ((z * a - t * c) * c + (z * b - t * d) * d + (z - t)), sq_nonneg ((z * a - t * c) * d - (z * b - t * d) * c)]

/-- **C115**: for an orthographic camera the distance is the difference of the pixels in units of the scales. -/
theorem c115_orthographic (hx : o.sx ≠ 0) (hy : o.sy ≠ 0) (he : ValidExtrinsics e) (x : Vec) (w : Fin 2 → ℝ) :
    distTo (line (parallelRay o e w).center (parallelRay o e w).direction) x =
      √(((parallelImage o e x 0 - w 0) / o.sx) ^ 2 + ((parallelImage o e x 1 - w 1) / o.sy) ^ 2) := by
  obtain ⟨r, u, f, hv⟩ := c52_every_point he x
  have h2 : parallelImage o e x = ![o.cx + o.sx * r, o.cy - o.sy * u] := by
    rw [parallelImage]
    conv_lhs => rw [hv]
    exact c52_orthographic o he r u f
  obtain ⟨hc, hd⟩ := c112_orthographic_ray (o := o) he w
  have dist : ∀ t : ℝ, distance x ((parallelRay o e w).center + t • (parallelRay o e w).direction) =
      √(((parallelImage o e x 0 - w 0) / o.sx) ^ 2 + ((parallelImage o e x 1 - w 1) / o.sy) ^ 2 + (f - t) ^ 2) := by
    intro t
    have h3 : x - ((parallelRay o e w).center + t • (parallelRay o e w).direction) =
        ((parallelImage o e x 0 - w 0) / o.sx) • e.right + (-((parallelImage o e x 1 - w 1) / o.sy)) • e.up +
          (f - t) • e.forward := by
      have e1 : (parallelImage o e x 0 - w 0) / o.sx = r - (w 0 - o.cx) / o.sx := by
        rw [h2]
        simp
        field_simp
        ring
      have e2 : (parallelImage o e x 1 - w 1) / o.sy = -u - (w 1 - o.cy) / o.sy := by
        rw [h2]
        simp
        field_simp
        ring
      rw [e1, e2, hc, hd, hv]
      module
    rw [distance, len_eq, h3, axes_dot he]
    congr 1
    ring
  refine le_antisymm ?_ ?_
  · have h : distTo (line (parallelRay o e w).center (parallelRay o e w).direction) x ≤
        distance x ((parallelRay o e w).center + f • (parallelRay o e w).direction) := distTo_le_of_mem ⟨f, rfl⟩
    refine h.trans ?_
    · rw [dist, sub_self, zero_pow two_ne_zero, add_zero]
  · refine le_csInf ⟨_, _, ⟨0, rfl⟩, rfl⟩ ?_
    rintro _ ⟨_, ⟨t, rfl⟩, rfl⟩
    rw [dist]
    exact Real.sqrt_le_sqrt (le_add_of_nonneg_right (sq_nonneg _))

end

namespace AnyCamera

/-- Weighted squared difference between the pixel of `x` and the pixel `w`: the gap times the depth for perspective
cameras, the difference in units of the scales for orthographic cameras. -/
noncomputable def misfit : AnyCamera → Vec → (Fin 2 → ℝ) → ℝ
  | perspective p e, x, w => (depthOf e x * slopeGap p (centralImage p e x) w) ^ 2
  | orthographic p e, x, w => ((parallelImage p e x 0 - w 0) / p.sx) ^ 2 + ((parallelImage p e x 1 - w 1) / p.sy) ^ 2

/-- The point is not in the principal plane of a perspective camera. -/
def Sees : AnyCamera → Vec → Prop
  | perspective _ e, x => depthOf e x ≠ 0
  | orthographic _ _, _ => True

theorem Valid.misfit_upper {c : AnyCamera} (h : c.Valid) {x : Vec} (hs : c.Sees x) (w : Fin 2 → ℝ) :
    distTo (line (c.rayOf w).center (c.rayOf w).direction) x ^ 2 ≤ c.misfit x w := by
  cases c with
  | perspective p e =>
    have h0 : 0 ≤ distTo (line (sightRay p e w).center (sightRay p e w).direction) x := by
      refine Real.sInf_nonneg ?_
      rintro _ ⟨y, -, rfl⟩
      rw [distance, len_eq]
      exact Real.sqrt_nonneg _
    have := pow_le_pow_left₀ h0 (c115_upper h.1 h.2.1 h.2.2 hs w) 2
    rwa [mul_pow, sq_abs, ← mul_pow] at this
  | orthographic p e =>
    show distTo (line (parallelRay p e w).center (parallelRay p e w).direction) x ^ 2 ≤ _
    rw [c115_orthographic h.1 h.2.1 h.2.2, Real.sq_sqrt (by positivity)]
    exact le_refl _

theorem Valid.misfit_lower {c : AnyCamera} (h : c.Valid) {x : Vec} (hs : c.Sees x) (w : Fin 2 → ℝ) :
    c.misfit x w ≤ len (c.rayOf w).direction ^ 2 * distTo (line (c.rayOf w).center (c.rayOf w).direction) x ^ 2 := by
  cases c with
  | perspective p e =>
    have h0 : 0 ≤ |depthOf e x| * slopeGap p (centralImage p e x) w := mul_nonneg (abs_nonneg _) (Real.sqrt_nonneg _)
    have := pow_le_pow_left₀ h0 (c115_lower h.1 h.2.1 h.2.2 hs w) 2
    rw [mul_pow, sq_abs, ← mul_pow, mul_pow (len _)] at this
    exact this
  | orthographic p e =>
    show _ ≤ len (parallelRay p e w).direction ^ 2 *
      distTo (line (parallelRay p e w).center (parallelRay p e w).direction) x ^ 2
    rw [c115_orthographic h.1 h.2.1 h.2.2, Real.sq_sqrt (by positivity), parallelRay_direction h.2.2,
      (c09_orthonormal h.2.2).2.2.1, one_pow, one_mul]
    exact le_refl _

end AnyCamera

/-- **C115**: the point `best_intersection_of_rays` finds from pixels of any number of cameras.  The sum of the misfits in
the cameras, each divided by the square of the length of the direction of its ray, is at most the sum of the
misfits of any other point. -/
theorem c115_triangulated {trySvd : TrySvd ℝ} (hs : SvdContract trySvd) {cs : List (AnyCamera × (Fin 2 → ℝ))}
    (hv : ∀ c ∈ cs, c.1.Valid) (hspread : Spread (cs.map fun c => c.1.rayOf c.2)) {pt : Points WorldFrame ℝ 1}
    (hpt : bestIntersectionOfRays trySvd (cs.map fun c => c.1.rayOf c.2) = .ok pt)
    (h0 : ∀ c ∈ cs, c.1.Sees (pt.data 0)) {x : Vec} (hx : ∀ c ∈ cs, c.1.Sees x) :
    (cs.map fun c => c.1.misfit (pt.data 0) c.2 / len (c.1.rayOf c.2).direction ^ 2).sum ≤
      (cs.map fun c => c.1.misfit x c.2).sum := by
  have hd : ∀ r ∈ cs.map fun c => c.1.rayOf c.2, r.direction ≠ 0 := by
    intro r hr
    obtain ⟨c, hc, rfl⟩ := List.mem_map.1 hr
    exact (hv c hc).direction_ne c.2
  have key := (c31_least_squares hs hd hspread hpt).1 x
  simp only [cost, List.map_map] at key
  refine (List.sum_le_sum fun c hc => ?_).trans (key.trans (List.sum_le_sum fun c hc => ?_))
  · have hl : 0 < len (c.1.rayOf c.2).direction ^ 2 := by
      rw [len_eq, Real.sq_sqrt]
      · exact lt_of_le_of_ne (Finset.sum_nonneg fun i _ => mul_self_nonneg _) fun h =>
          (hv c hc).direction_ne c.2 (dotProduct_self_eq_zero.1 h.symm)
      · exact Finset.sum_nonneg fun i _ => mul_self_nonneg _
    rw [div_le_iff₀' hl]
    exact (hv c hc).misfit_lower (h0 c hc) c.2
  · exact (hv c hc).misfit_upper (hx c hc) c.2

/-! ### The theorems apply -/

/-- Unrotated perspective cameras at `(0, 0, 0)` and `(1, 0, 0)` with the pixels `(0, 1/10)` and `(-1/2, 0)`, whose rays do not meet,
and any point in front of both. -/
example (cs : List (AnyCamera × (Fin 2 → ℝ))) (h : cs =
      [(.perspective ⟨1, 1, 0, 0, 0⟩ (fromRotationAndCamcenter ⟨1, 0, 0, 0⟩ ![0, 0, 0]), ![0, 1 / 10]),
       (.perspective ⟨1, 1, 0, 0, 0⟩ (fromRotationAndCamcenter ⟨1, 0, 0, 0⟩ ![1, 0, 0]), ![-1 / 2, 0])]) :
    (∀ c ∈ cs, c.1.Valid) ∧ Spread (cs.map fun c => c.1.rayOf c.2) ∧ ∀ x : Vec, 0 < x 2 → ∀ c ∈ cs, c.1.Sees x := by
  have hq : UnitQuat ⟨1, 0, 0, 0⟩ := by simp [UnitQuat]
  subst h
  refine ⟨?_, ?_, ?_⟩
  · intro c hc
    simp only [List.mem_cons, List.not_mem_nil, or_false] at hc
    rcases hc with rfl | rfl
    all_goals exact ⟨one_ne_zero, one_ne_zero, _, _, hq, rfl⟩
  · refine ⟨_, List.mem_map_of_mem (List.mem_cons_self), _,
      List.mem_map_of_mem (List.mem_cons_of_mem _ List.mem_cons_self), ?_⟩
    simp only [AnyCamera.rayOf, plain_ray, len_eq]
    simp only [dotProduct, Fin.sum_univ_three]
    simp only [Matrix.cons_val]
    rw [← Real.sqrt_mul (by norm_num)]
    have h : (11 / 10 : ℝ) ≤ √((0 * 0 + 1 / 10 * (1 / 10) + 1 * 1) * (-1 / 2 * (-1 / 2) + 0 * 0 + 1 * 1)) :=
      Real.le_sqrt_of_sq_le (by norm_num)
    rw [show |(0 : ℝ) * (-1 / 2) + 1 / 10 * 0 + 1 * 1| = 1 by norm_num]
    linarith
  · intro x hx c hc
    simp only [List.mem_cons, List.not_mem_nil, or_false] at hc
    rcases hc with rfl | rfl
    all_goals
      show depthOf _ x ≠ 0
      rw [depthOf, worldToCamera_row hq, rotate_apply]
      simp [Points.single]
      exact hx.ne'

end CamGeom
