import Verif.Props.Orientation

/-!
# C117: orthographic cameras as limits of perspective cameras
-/

namespace CamGeom
open Spec Matrix ExtrinsicParameters Filter

section
variable {o : OrthographicParams ℝ} {e e' : ExtrinsicParameters ℝ}

/-- The perspective camera parameters with which objects at distance `D` appear at the scale of the orthographic camera. -/
def teleParams (o : OrthographicParams ℝ) (D : ℝ) : PerspectiveParams ℝ := ⟨o.sx * D, o.sy * D, 0, o.cx, o.cy⟩

theorem moved_back (he : ValidExtrinsics e) (he' : ValidExtrinsics e') (hr : e'.rotation = e.rotation) {D : ℝ}
    (hc : e'.camcenter = e.camcenter - D • e.forward) (x : Vec) :
    (e'.worldToCamera (.single x)).data 0 = (e.worldToCamera (.single x)).data 0 + ![0, 0, D] := by
  rw [worldToCamera_rot he', worldToCamera_rot he, hr, hc]
  simp only [Points.single]
  rw [show x - (e.camcenter - D • e.forward) = (x - e.camcenter) + D • e.forward by abel, mulVec_add, mulVec_smul,
    rotation_forward he]
  congr 1
  funext a
  fin_cases a <;> simp

/-- **C117**: a perspective camera at the distance `D` behind the position of an orthographic camera, with the same axes and
the focal lengths `D` times the scales.  Its image of a point differs from the orthographic one by the factor `D / (D + z)` on the
distance from the principal point, `z` being the depth of the point seen from the orthographic camera. -/
theorem c117_formula (he : ValidExtrinsics e) (he' : ValidExtrinsics e') (hr : e'.rotation = e.rotation) {D : ℝ}
    (hc : e'.camcenter = e.camcenter - D • e.forward) {x : Vec} (hD : depthOf e x + D ≠ 0) :
    depthOf e' x = depthOf e x + D ∧
    centralImage (teleParams o D) e' x - ![o.cx, o.cy] =
      (D / (depthOf e x + D)) • (parallelImage o e x - ![o.cx, o.cy]) := by
  have h := moved_back he he' hr hc x
  have hz : depthOf e' x = depthOf e x + D := by
    rw [depthOf, h]
    simp [depthOf]
  refine ⟨hz, ?_⟩
  rw [centralImage, persp_worldToPixel _ _ 0 (by show depthOf e' x ≠ 0; rwa [hz]), parallelImage, ortho_worldToPixel, h]
  rw [depthOf] at *
  generalize (e.worldToCamera (.single x)).data 0 = X at *
  funext a
  fin_cases a
  · simp [pinhole, orthographic, teleParams]
    field_simp
  · simp [pinhole, orthographic, teleParams]
    field_simp

/-- **C117**: for points whose depth seen from the orthographic camera is at most `r` in absolute value, at the distance `D > r` the images
differ by at most the fraction `r / (D - r)` of the distance from the principal point. -/
theorem c117_bound (he : ValidExtrinsics e) (he' : ValidExtrinsics e') (hr : e'.rotation = e.rotation) {D r : ℝ}
    (hc : e'.camcenter = e.camcenter - D • e.forward) {x : Vec} (hz : |depthOf e x| ≤ r) (hD : r < D) (a : Fin 2) :
    |centralImage (teleParams o D) e' x a - parallelImage o e x a| ≤
      r / (D - r) * |parallelImage o e x a - ![o.cx, o.cy] a| := by
  obtain ⟨h1, h2⟩ := abs_le.1 hz
  have hp : 0 < depthOf e x + D := by linarith
  have h := congrFun (c117_formula (o := o) he he' hr hc hp.ne').2 a
  simp only [Pi.sub_apply, Pi.smul_apply, smul_eq_mul] at h
  generalize centralImage (teleParams o D) e' x a = u at *
  generalize parallelImage o e x a = v at *
  generalize (![o.cx, o.cy] : Fin 2 → ℝ) a = c at *
  have e1 : u - v = -(depthOf e x / (depthOf e x + D)) * (v - c) := by
    have : u - v = (u - c) - (v - c) := by ring
    rw [this, h]
    field_simp
    ring
  rw [e1, abs_mul, abs_neg, abs_div, abs_of_pos hp]
  refine mul_le_mul_of_nonneg_right ?_ (abs_nonneg _)
  have hr0 : 0 ≤ r := (abs_nonneg _).trans hz
  exact div_le_div₀ hr0 hz (by linarith) (by linarith)

/-- **C117**: as the perspective camera moves back, its image of every point tends to the orthographic image. -/
theorem c117_limit (he : ValidExtrinsics e) (E : ℝ → ExtrinsicParameters ℝ) (hE : ∀ D, ValidExtrinsics (E D))
    (hr : ∀ D, (E D).rotation = e.rotation) (hc : ∀ D, (E D).camcenter = e.camcenter - D • e.forward) (x : Vec) :
    Tendsto (fun D => centralImage (teleParams o D) (E D) x) atTop (nhds (parallelImage o e x)) := by
  rw [tendsto_pi_nhds]
  intro a
  rw [tendsto_iff_dist_tendsto_zero]
  set r := |depthOf e x| with hrdef
  have lim : Tendsto (fun D : ℝ => r / (D - r) * |parallelImage o e x a - ![o.cx, o.cy] a|) atTop (nhds 0) := by
    have h1 : Tendsto (fun D : ℝ => D - r) atTop atTop := tendsto_atTop_add_const_right _ (-r) tendsto_id
    have h2 := (h1.const_div_atTop r).mul_const |parallelImage o e x a - ![o.cx, o.cy] a|
    rwa [zero_mul] at h2
  refine squeeze_zero' (Eventually.of_forall fun D => dist_nonneg) ?_ lim
  filter_upwards [eventually_gt_atTop r] with D hD
  rw [Real.dist_eq]
  exact c117_bound he (hE D) (hr D) (hc D) hrdef.symm.le hD a

end

/-! ### The theorems apply -/

/-- Such cameras exist for every pose. -/
example (q : Quat ℝ) (hq : UnitQuat q) (c : Vec) (e : ExtrinsicParameters ℝ) (h : e = fromRotationAndCamcenter q c) :
    ∃ E : ℝ → ExtrinsicParameters ℝ, (∀ D, ValidExtrinsics (E D)) ∧ (∀ D, (E D).rotation = e.rotation) ∧
      ∀ D, (E D).camcenter = e.camcenter - D • e.forward := by
  subst h
  exact ⟨fun D => fromRotationAndCamcenter q (c - D • (fromRotationAndCamcenter q c).forward), fun D => ⟨_, _, hq, rfl⟩,
    fun D => rfl, fun D => by rw [c04_camcenter, c04_camcenter]⟩

end CamGeom
