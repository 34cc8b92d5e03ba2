import Verif.Props.RayIntersection

/-!
# C37, C38: tiny angles, and triangulation with several cameras
-/

namespace CamGeom
open Spec Matrix

variable {F : Type}

theorem Keep.kill {ε : ℝ} {M P : Matrix (Fin 3) (Fin 3) ℝ} (hk : Keep ε M P) {w : V3 ℝ} {μ : ℝ}
    (hw : (M.transpose * M) *ᵥ w = μ • w) (hμ : μ ≤ ε ^ 2) : P *ᵥ w = 0 := by
  by_contra hne
  have h1 := hk.big (P *ᵥ w) (by rw [mulVec_mulVec, hk.idem]) hne
  have h2 : (M *ᵥ (P *ᵥ w)) ⬝ᵥ (M *ᵥ (P *ᵥ w)) = μ * ((P *ᵥ w) ⬝ᵥ (P *ᵥ w)) := by
    rw [mulVec_dot, mulVec_mulVec, mulVec_mulVec, ← hk.comm, ← mulVec_mulVec, hw, mulVec_smul,
      dotProduct_smul, smul_eq_mul]
  rw [h2] at h1
  have := mul_le_mul_of_nonneg_right hμ (dot_self_nonneg' (P *ᵥ w))
  linarith

theorem normalize_unit {v : V3 ℝ} (h : v ⬝ᵥ v = 1) : V3.normalize v = v := by
  rw [normalize_eq, len_eq, h]; simp

/-- C37: two rays crossing in `x` under an angle with `1 - cos ≤ 1e-7`: the component of `x` along
the bisector is lost. -/
theorem c37_bisector_lost {trySvd : TrySvd ℝ} (hs : SvdContract trySvd) {r₁ r₂ : Ray F ℝ}
    (h₁ : r₁.direction ⬝ᵥ r₁.direction = 1) (h₂ : r₂.direction ⬝ᵥ r₂.direction = 1)
    (hc : 1 - 1 / 10000000 ≤ r₁.direction ⬝ᵥ r₂.direction) {x : Vec}
    (hx₁ : x ∈ line r₁.center r₁.direction) (hx₂ : x ∈ line r₂.center r₂.direction)
    {pt : Points F ℝ 1} (hb : bestIntersectionOfRays trySvd [r₁, r₂] = .ok pt) :
    let b := r₁.direction + r₂.direction
    pt.data 0 = x - ((b ⬝ᵥ x) / (b ⬝ᵥ b)) • b := by
  obtain ⟨p1, d⟩ := r₁
  obtain ⟨p2, e⟩ := r₂
  dsimp only at h₁ h₂ hc hx₁ hx₂ ⊢
  set b := d + e with hbdef
  have hne : ∀ {v : V3 ℝ}, v ⬝ᵥ v = 1 → v ≠ 0 := by
    rintro v h rfl; simp at h
  have h0 : ∀ r ∈ ([⟨p1, d⟩, ⟨p2, e⟩] : List (Ray F ℝ)), r.direction ≠ 0 := by
    intro r hr
    simp only [List.mem_cons, List.not_mem_nil, or_false] at hr
    rcases hr with rfl | rfl
    · exact hne h₁
    · exact hne h₂
  have hls : LeastSquares ([⟨p1, d⟩, ⟨p2, e⟩] : List (Ray F ℝ)) x := by
    intro y
    rw [cost_eq_zero (x := x)]
    · exact cost_nonneg _ y
    · intro r hr
      simp only [List.mem_cons, List.not_mem_nil, or_false] at hr
      rcases hr with rfl | rfl
      · exact hx₁
      · exact hx₂
  obtain ⟨-, P, hP, hpt⟩ := best_ok hs hb ((leastSquares_iff h0 x).1 hls)
  have hS : ∀ w, sMat ([⟨p1, d⟩, ⟨p2, e⟩] : List (Ray F ℝ)) *ᵥ w = (d ⬝ᵥ w) • d +
      (e ⬝ᵥ w) • e - (2 : ℝ) • w := by
    intro w
    have : sMat ([⟨p1, d⟩, ⟨p2, e⟩] : List (Ray F ℝ)) = dm (⟨p1, d⟩ : Ray F ℝ) + dm (⟨p2, e⟩ : Ray F ℝ) := by simp [sMat]
    rw [this, add_mulVec, dm_mulVec, dm_mulVec, normalize_unit h₁, normalize_unit h₂, two_smul]
    abel
  set c := d ⬝ᵥ e with hcdef
  have hed : e ⬝ᵥ d = c := dotProduct_comm e d
  have hc1 : c ≤ 1 := by
    have := cauchy d e
    rw [h₁, h₂] at this
    nlinarith
  have hSb : sMat ([⟨p1, d⟩, ⟨p2, e⟩] : List (Ray F ℝ)) *ᵥ b = (c - 1) • b := by
    rw [hS]
    simp only [hbdef, dotProduct_add, h₁, h₂, hed, ← hcdef]
    module
  have hPb : P *ᵥ b = 0 := by
    refine hP.kill (μ := (c - 1) ^ 2) ?_ ?_
    · rw [sMat_transpose, ← mulVec_mulVec, hSb, mulVec_smul, hSb, smul_smul, pow_two]
    · rw [cutoff]; nlinarith
  have hbb : b ⬝ᵥ b = 2 + 2 * c := by
    simp only [hbdef, dotProduct_add, add_dotProduct, h₁, h₂, hed, ← hcdef]; ring
  have hbpos : 0 < b ⬝ᵥ b := by rw [hbb]; linarith
  have hkeep : ∀ w, b ⬝ᵥ w = 0 → P *ᵥ w = w := by
    intro w hw
    by_contra hcon
    set v := w - P *ᵥ w with hv
    have hv0 : v ≠ 0 := sub_ne_zero.2 (Ne.symm hcon)
    have hPv : P *ᵥ v = 0 := by rw [hv, mulVec_sub, mulVec_mulVec, hP.idem, sub_self]
    have hbv : b ⬝ᵥ v = 0 := by
      rw [hv, dotProduct_sub, hw, dotProduct_comm, mulVec_dot, hP.sym, hPb, dotProduct_zero, sub_zero]
    have h3 := hP.small v hPv
    have hdv : e ⬝ᵥ v = -(d ⬝ᵥ v) := by
      simp only [hbdef, add_dotProduct] at hbv; linarith
    have h4 := cauchy (d - e) v
    have h5 : (d - e) ⬝ᵥ v = 2 * (d ⬝ᵥ v) := by rw [sub_dotProduct, hdv]; ring
    have h6 : (d - e) ⬝ᵥ (d - e) = 2 - 2 * c := by
      simp only [dotProduct_sub, sub_dotProduct, h₁, h₂, hed, ← hcdef]; ring
    rw [h5, h6] at h4
    have hvv := dot_self_pos hv0
    have h7 : -(v ⬝ᵥ (sMat ([⟨p1, d⟩, ⟨p2, e⟩] : List (Ray F ℝ)) *ᵥ v)) = 2 * (v ⬝ᵥ v) - 2 * (d ⬝ᵥ v) ^ 2 := by
      rw [hS, hdv]
      simp only [dotProduct_sub, dotProduct_add, dotProduct_smul, smul_eq_mul, dotProduct_comm v d,
        dotProduct_comm v e, hdv]
      ring
    have h8 : cutoff * (v ⬝ᵥ v) < -(v ⬝ᵥ (sMat ([⟨p1, d⟩, ⟨p2, e⟩] : List (Ray F ℝ)) *ᵥ v)) := by
      rw [h7, cutoff]
      nlinarith
    have h9 := stretch_of_quad cutoff_pos.le hv0 h8
    linarith
  have hdec : P *ᵥ (x - ((b ⬝ᵥ x) / (b ⬝ᵥ b)) • b) = x - ((b ⬝ᵥ x) / (b ⬝ᵥ b)) • b := by
    apply hkeep
    rw [dotProduct_sub, dotProduct_smul, smul_eq_mul, div_mul_cancel₀ _ hbpos.ne', sub_self]
  rw [hpt, ← hdec, mulVec_sub, mulVec_smul, hPb, smul_zero, sub_zero]

/-- C37: at any distance `L` there are two rays that cross in exactly one point, at distance `L`
from the origin, while `best_intersection_of_rays` returns the origin instead. -/
theorem c37_counterexample (L : ℝ) (hL : 0 < L) :
    ∃ r₁ r₂ : Ray F ℝ, r₁.direction ≠ 0 ∧ r₂.direction ≠ 0 ∧
      line r₁.center r₁.direction ∩ line r₂.center r₂.direction = {![L, 0, 0]} ∧
      ∀ trySvd, SvdContract trySvd → ∀ pt, bestIntersectionOfRays trySvd [r₁, r₂] = .ok pt →
        pt.data 0 = 0 ∧ pt.data 0 ≠ ![L, 0, 0] := by
  let d : Vec := ![99999999 / 100000001, 20000 / 100000001, 0]
  let e : Vec := ![99999999 / 100000001, -20000 / 100000001, 0]
  let x : Vec := ![L, 0, 0]
  have hd : d ⬝ᵥ d = 1 := by simp [d, dotProduct, Fin.sum_univ_three]; norm_num
  have he : e ⬝ᵥ e = 1 := by simp [e, dotProduct, Fin.sum_univ_three]; norm_num
  have hde : 1 - 1 / 10000000 ≤ d ⬝ᵥ e := by
    simp [d, e, dotProduct, Fin.sum_univ_three]; norm_num
  refine ⟨⟨x - L • d, d⟩, ⟨x - L • e, e⟩, ?_, ?_, ?_, ?_⟩
  · intro h; rw [show d = 0 from h] at hd; simp at hd
  · intro h; rw [show e = 0 from h] at he; simp at he
  · ext y
    constructor
    · rintro ⟨⟨t, ht⟩, ⟨s, hs⟩⟩
      have h0 := congrFun (ht.symm.trans hs) 0
      have h1 := congrFun (ht.symm.trans hs) 1
      simp [d, e, x] at h0 h1
      have hst : t = L := by linarith
      rw [Set.mem_singleton_iff, ht, hst]
      simp [x]
    · rintro rfl
      exact ⟨⟨L, by simp [x]⟩, ⟨L, by simp [x]⟩⟩
  · intro trySvd hs pt hb
    have h := c37_bisector_lost hs hd he hde (x := x) ⟨L, by simp⟩ ⟨L, by simp⟩ hb
    have h0 : pt.data 0 = 0 := by
      rw [h]
      funext i
      fin_cases i <;> simp [d, e, x, dotProduct, Fin.sum_univ_three] <;> (field_simp; norm_num)
    refine ⟨h0, ?_⟩
    rw [h0]
    intro h1
    have := congrFun h1 0
    simp at this
    linarith

/-- The ray a perspective camera assigns to the pixel of a world point. -/
noncomputable def perspViewRay (p : PerspectiveParams ℝ) (e : ExtrinsicParameters ℝ) (x : Vec) :
    Ray WorldFrame ℝ :=
  let c := Camera.mk (IntrinsicParametersPerspective.ofParams p) e
  RayBundle.toSingleRay (B := SharedOriginRayBundle ℝ) (c.pixelToWorld (c.worldToPixel (.single x)))

/-- The ray an orthographic camera assigns to the pixel of a world point. -/
noncomputable def orthoViewRay (p : OrthographicParams ℝ) (e : ExtrinsicParameters ℝ) (x : Vec) :
    Ray WorldFrame ℝ :=
  let c := Camera.mk (IntrinsicParametersOrthographic.ofParams p) e
  RayBundle.toSingleRay (B := SharedDirectionRayBundle ℝ)
    (c.pixelToWorld (c.worldToPixel (.single x)))

theorem perspViewRay_spec {p : PerspectiveParams ℝ} (hx : p.fx ≠ 0) (hy : p.fy ≠ 0)
    {e : ExtrinsicParameters ℝ} (he : ValidExtrinsics e) {x : Vec}
    (hz : (e.worldToCamera (.single x)).data 0 2 ≠ 0) :
    (perspViewRay p e x).center = e.camcenter ∧ (perspViewRay p e x).direction ≠ 0 ∧
      x - e.camcenter =
        (e.worldToCamera (.single x)).data 0 2 • (perspViewRay p e x).direction := by
  have h14 := c14_perspective p hx hy he
    ((Camera.mk (IntrinsicParametersPerspective.ofParams p) e).worldToPixel (.single x)) 0
  have h15 := c15_perspective p hx hy he (.single x) 0 hz
  simp only [(so_bundle_rows _ 0).1, (so_bundle_rows _ 0).2] at h14 h15
  refine ⟨h14.1, h14.2.1, ?_⟩
  have h2 := h14.1
  rw [h2] at h15
  simp only [Points.single] at h15 ⊢
  rw [sub_eq_iff_eq_add']
  exact h15

theorem orthoViewRay_spec {p : OrthographicParams ℝ} (hx : p.sx ≠ 0) (hy : p.sy ≠ 0)
    {e : ExtrinsicParameters ℝ} (he : ValidExtrinsics e) (x : Vec) :
    (orthoViewRay p e x).direction = e.forward ∧
      x ∈ line (orthoViewRay p e x).center (orthoViewRay p e x).direction := by
  have h14 := c14_orthographic p he
    ((Camera.mk (IntrinsicParametersOrthographic.ofParams p) e).worldToPixel (.single x)) 0
  have h15 := c15_orthographic p hx hy he (.single x) 0
  simp only [(sd_bundle_rows _ 0).1, (sd_bundle_rows _ 0).2] at h14 h15
  exact ⟨h14, ⟨_, h15⟩⟩

/-- C38: triangulation with two or more perspective cameras.  A rig is a list of (parameters,
extrinsics); the angle condition is about the camera centres as seen from the point. -/
theorem c38_triangulation {trySvd : TrySvd ℝ} (hs : SvdContract trySvd)
    (rig : List (PerspectiveParams ℝ × ExtrinsicParameters ℝ)) (x : Vec)
    (hrig : ∀ c ∈ rig, c.1.fx ≠ 0 ∧ c.1.fy ≠ 0 ∧ ValidExtrinsics c.2 ∧
      (c.2.worldToCamera (.single x)).data 0 2 ≠ 0)
    (hangle : ∃ a ∈ rig, ∃ b ∈ rig,
      |(x - a.2.camcenter) ⬝ᵥ (x - b.2.camcenter)| <
        (1 - 1 / 10000000) * (distance x a.2.camcenter * distance x b.2.camcenter))
    {pt : Points WorldFrame ℝ 1}
    (hb : bestIntersectionOfRays trySvd (rig.map fun c => perspViewRay c.1 c.2 x) = .ok pt) :
    pt = .single x := by
  have hall : ∀ c ∈ rig, _ := fun c hc =>
    perspViewRay_spec (hrig c hc).1 (hrig c hc).2.1 (hrig c hc).2.2.1 (hrig c hc).2.2.2
  have h := c32_common_point hs (x := x) ?_ ?_ ?_ hb
  · ext i j
    rw [Subsingleton.elim i 0, h]
    rfl
  · intro r hr
    obtain ⟨c, hc, rfl⟩ := List.mem_map.1 hr
    exact (hall c hc).2.1
  · obtain ⟨a, ha, b, hb, hab⟩ := hangle
    refine ⟨_, List.mem_map.2 ⟨a, ha, rfl⟩, _, List.mem_map.2 ⟨b, hb, rfl⟩, ?_⟩
    rw [distance, distance, (hall a ha).2.2, (hall b hb).2.2, smul_dotProduct, dotProduct_smul,
      smul_eq_mul, smul_eq_mul, abs_mul, abs_mul, len_smul, len_smul] at hab
    have h1 := abs_pos.2 (hrig a ha).2.2.2
    have h2 := abs_pos.2 (hrig b hb).2.2.2
    have h3 := mul_pos h1 h2
    refine lt_of_mul_lt_mul_left (a := |(a.2.worldToCamera (.single x)).data 0 2| *
      |(b.2.worldToCamera (.single x)).data 0 2|) ?_ h3.le
    calc _ = _ := mul_assoc _ _ _
      _ < _ := hab
      _ = _ := by ring
  · intro r hr
    obtain ⟨c, hc, rfl⟩ := List.mem_map.1 hr
    obtain ⟨h1, -, h3⟩ := hall c hc
    exact ⟨_, by rw [h1, ← h3, add_sub_cancel]⟩

/-- C38: mixed rigs of perspective and orthographic cameras. -/
theorem c38_mixed {trySvd : TrySvd ℝ} (hs : SvdContract trySvd) (x : Vec)
    {rays : List (Ray WorldFrame ℝ)}
    (hrays : ∀ r ∈ rays,
      (∃ p e, p.fx ≠ 0 ∧ p.fy ≠ 0 ∧ ValidExtrinsics e ∧
        (e.worldToCamera (.single x)).data 0 2 ≠ 0 ∧ r = perspViewRay p e x) ∨
      (∃ p e, p.sx ≠ 0 ∧ p.sy ≠ 0 ∧ ValidExtrinsics e ∧ r = orthoViewRay p e x))
    (hspread : Spread rays) {pt : Points WorldFrame ℝ 1}
    (hb : bestIntersectionOfRays trySvd rays = .ok pt) : pt = .single x := by
  have h := c32_common_point hs (x := x) ?_ hspread ?_ hb
  · ext i j
    rw [Subsingleton.elim i 0, h]
    rfl
  · intro r hr
    rcases hrays r hr with ⟨p, e, hx, hy, he, hz, rfl⟩ | ⟨p, e, hx, hy, he, rfl⟩
    · exact (perspViewRay_spec hx hy he hz).2.1
    · rw [(orthoViewRay_spec hx hy he x).1]
      obtain ⟨q, c, hq, rfl⟩ := he
      intro h0
      rw [forward_eq hq] at h0
      have := (rotate_eq_zero (unitQuat_inverse hq)).1 h0
      simpa using congrFun this 2
  · intro r hr
    rcases hrays r hr with ⟨p, e, hx, hy, he, hz, rfl⟩ | ⟨p, e, hx, hy, he, rfl⟩
    · obtain ⟨h1, -, h3⟩ := perspViewRay_spec hx hy he hz
      exact ⟨_, by rw [h1, ← h3, add_sub_cancel]⟩
    · exact (orthoViewRay_spec hx hy he x).2

/-- Non-vacuity of C31, C32, C35: two perpendicular crossing rays, and a converging SVD. -/
example : ∃ pt : Points WorldFrame ℝ 1,
    bestIntersectionOfRays exSvd [⟨![1, 0, 0], ![0, 2, 0]⟩, ⟨![0, 5, 0], ![3, 0, 0]⟩] = .ok pt ∧
      pt.data 0 = ![1, 5, 0] := by
  obtain ⟨pt, h⟩ := exSvd_ok (F := WorldFrame) [⟨![1, 0, 0], ![0, 2, 0]⟩, ⟨![0, 5, 0], ![3, 0, 0]⟩]
    (by simp)
  refine ⟨pt, h, c32_common_point exSvd_contract ?_ ?_ ?_ h⟩
  · intro r hr
    simp only [List.mem_cons, List.not_mem_nil, or_false] at hr
    rcases hr with rfl | rfl
    · intro h; simpa using congrFun h 1
    · intro h; simpa using congrFun h 0
  · refine ⟨_, List.mem_cons_self .., _, List.mem_cons_of_mem _ (List.mem_cons_self ..), ?_⟩
    have h1 : (![0, 2, 0] : Vec) ⬝ᵥ ![3, 0, 0] = 0 := by
      simp [dotProduct, Fin.sum_univ_three]
    rw [h1, abs_zero]
    have h2 : 0 < len ![0, 2, 0] := len_pos.2 fun h => by simpa using congrFun h 1
    have h3 : 0 < len ![3, 0, 0] := len_pos.2 fun h => by simpa using congrFun h 0
    have := mul_pos h2 h3
    norm_num
    exact this
  · intro r hr
    simp only [List.mem_cons, List.not_mem_nil, or_false] at hr
    rcases hr with rfl | rfl
    · exact ⟨5 / 2, by funext i; fin_cases i <;> simp⟩
    · exact ⟨1 / 3, by funext i; fin_cases i <;> simp⟩

end CamGeom
