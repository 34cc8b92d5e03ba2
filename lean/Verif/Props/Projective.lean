import Verif.Props.Symmetry
import Verif.Props.Linearize
import Mathlib.Topology.Algebra.Order.Field
import Mathlib.Analysis.SpecificLimits.Basic

/-!
# C52–C54: geometry of images

Exact real arithmetic.
-/

namespace CamGeom
open Spec Matrix ExtrinsicParameters

theorem persp_worldToPixel {e : ExtrinsicParameters ℝ} (p : PerspectiveParams ℝ) {n : ℕ}
    (w : Points WorldFrame ℝ n) (i : Fin n) (hz : (e.worldToCamera w).data i 2 ≠ 0) :
    ((Camera.mk (IntrinsicParametersPerspective.ofParams p) e).worldToPixel w).data i =
      pinhole p.fx p.fy p.skew p.cx p.cy ((e.worldToCamera w).data i) :=
  c11_pinhole p (e.worldToCamera w) i hz

theorem ortho_worldToPixel {e : ExtrinsicParameters ℝ} (p : OrthographicParams ℝ) {n : ℕ}
    (w : Points WorldFrame ℝ n) (i : Fin n) :
    ((Camera.mk (IntrinsicParametersOrthographic.ofParams p) e).worldToPixel w).data i =
      orthographic p.sx p.sy p.cx p.cy ((e.worldToCamera w).data i) :=
  c12_formula p (e.worldToCamera w) i

/-- C52: the pixel of the point `r` to the right of, `u` above and `f` in front of the camera. -/
theorem c52_perspective (p : PerspectiveParams ℝ) {e : ExtrinsicParameters ℝ}
    (he : ValidExtrinsics e) (r u f : ℝ) (hf : f ≠ 0) :
    ((Camera.mk (IntrinsicParametersPerspective.ofParams p) e).worldToPixel
      (.single (e.camcenter + r • e.right + u • e.up + f • e.forward))).data 0 =
      ![p.cx + p.fx * r / f - p.skew * u / f, p.cy - p.fy * u / f] := by
  rw [persp_worldToPixel p _ 0 (by rw [c09_camera_axes he]; simpa using hf), c09_camera_axes he]
  funext a
  fin_cases a <;> simp [pinhole] <;> ring

/-- C52: the same for the orthographic camera. -/
theorem c52_orthographic (p : OrthographicParams ℝ) {e : ExtrinsicParameters ℝ}
    (he : ValidExtrinsics e) (r u f : ℝ) :
    ((Camera.mk (IntrinsicParametersOrthographic.ofParams p) e).worldToPixel
      (.single (e.camcenter + r • e.right + u • e.up + f • e.forward))).data 0 =
      ![p.cx + p.sx * r, p.cy - p.sy * u] := by
  rw [ortho_worldToPixel p _ 0, c09_camera_axes he]
  funext a
  fin_cases a <;> simp [orthographic] <;> ring

/-- C52: every world point is of the form considered there, so the formulas describe the whole
image. -/
theorem c52_every_point {e : ExtrinsicParameters ℝ} (he : ValidExtrinsics e) (x : Vec) :
    ∃ r u f : ℝ, x = e.camcenter + r • e.right + u • e.up + f • e.forward := by
  have h := c09_camera_axes he ((e.worldToCamera (.single x)).data 0 0)
    (-(e.worldToCamera (.single x)).data 0 1) ((e.worldToCamera (.single x)).data 0 2)
  rw [neg_neg, vec3_eta] at h
  refine ⟨(e.worldToCamera (.single x)).data 0 0, -(e.worldToCamera (.single x)).data 0 1,
    (e.worldToCamera (.single x)).data 0 2, ?_⟩
  have h1 := c02_world_camera_world he (.single x)
  have h2 : ∀ a b : Points WorldFrame ℝ 1, (e.worldToCamera a).data 0 = (e.worldToCamera b).data 0 →
      a = b := by
    intro a b hab
    have : e.worldToCamera a = e.worldToCamera b := by
      ext1; funext i; rw [Subsingleton.elim i 0, hab]
    rw [← c02_world_camera_world he a, this, c02_world_camera_world he b]
  have h3 := h2 _ _ h
  have h4 := congrArg (fun a : Points WorldFrame ℝ 1 => a.data 0) h3
  exact h4.symm

/-- C53: a point and its mirror image through the camera centre have the same pixel; the crate does
not reject points behind the camera. -/
theorem c53_behind (p : PerspectiveParams ℝ) {e : ExtrinsicParameters ℝ}
    (he : ValidExtrinsics e) (x : Vec) (hz : (e.worldToCamera (.single x)).data 0 2 ≠ 0) :
    ((Camera.mk (IntrinsicParametersPerspective.ofParams p) e).worldToPixel
        (.single (e.camcenter - (x - e.camcenter)))).data 0 =
      ((Camera.mk (IntrinsicParametersPerspective.ofParams p) e).worldToPixel (.single x)).data 0 ∧
    (e.worldToCamera (.single (e.camcenter - (x - e.camcenter)))).data 0 2 =
      -(e.worldToCamera (.single x)).data 0 2 := by
  have h : (e.worldToCamera (.single (e.camcenter - (x - e.camcenter)))).data 0 =
      (-1 : ℝ) • (e.worldToCamera (.single x)).data 0 := by
    rw [worldToCamera_rot he, worldToCamera_rot he, ← mulVec_smul]
    congr 1
    simp only [Points.single]
    module
  refine ⟨?_, by rw [h]; simp⟩
  exact c11_scale_invariant p (e.worldToCamera (.single x)) _ 0 hz (-1) (by norm_num) h

/-- C53: enlarging the scene together with the distance of the camera does not change a perspective
image. -/
theorem c53_scale (p : PerspectiveParams ℝ) {e e' : ExtrinsicParameters ℝ}
    (he : ValidExtrinsics e) (he' : ValidExtrinsics e') (hr : e'.rotation = e.rotation) (s : ℝ)
    (hs : s ≠ 0) (hc : e'.camcenter = s • e.camcenter) {n : ℕ} (w : Points WorldFrame ℝ n) (i : Fin n)
    (hz : (e.worldToCamera w).data i 2 ≠ 0) :
    ((Camera.mk (IntrinsicParametersPerspective.ofParams p) e').worldToPixel
        ⟨fun i => s • w.data i⟩).data i =
      ((Camera.mk (IntrinsicParametersPerspective.ofParams p) e).worldToPixel w).data i := by
  refine c11_scale_invariant p (e.worldToCamera w) _ i hz s hs ?_
  rw [worldToCamera_rot he', worldToCamera_rot he, hr, hc, ← mulVec_smul, smul_sub]

/-- C53: an orthographic image does not depend on the position of the camera along its viewing
direction. -/
theorem c53_orthographic_depth (p : OrthographicParams ℝ) {e e' : ExtrinsicParameters ℝ}
    (he : ValidExtrinsics e) (he' : ValidExtrinsics e') (hr : e'.rotation = e.rotation) (s : ℝ)
    (hc : e'.camcenter = e.camcenter + s • e.forward) {n : ℕ} (w : Points WorldFrame ℝ n) :
    (Camera.mk (IntrinsicParametersOrthographic.ofParams p) e').worldToPixel w =
      (Camera.mk (IntrinsicParametersOrthographic.ofParams p) e).worldToPixel w := by
  ext1; funext i
  rw [ortho_worldToPixel, ortho_worldToPixel]
  have hf : Matrix.of e.rotation *ᵥ e.forward = ![0, 0, 1] := by
    have := c09_camera_axes he 0 0 1
    rw [worldToCamera_rot he] at this
    simpa [Points.single] using this
  have h : (e'.worldToCamera w).data i = (e.worldToCamera w).data i - s • ![0, 0, 1] := by
    rw [worldToCamera_rot he', worldToCamera_rot he, hr, hc, ← hf, ← mulVec_smul, ← mulVec_sub,
      sub_sub]
  rw [h]
  funext a
  fin_cases a <;> simp [orthographic]

/-- Three image points lie on one line. -/
def Collinear3 (a b c : Fin 2 → ℝ) : Prop :=
  (b 0 - a 0) * (c 1 - a 1) = (c 0 - a 0) * (b 1 - a 1)

theorem pinhole_collinear (fx fy s cx cy : ℝ) (u v : Vec) {a b c : ℝ} (ha : u 2 + a * v 2 ≠ 0)
    (hb : u 2 + b * v 2 ≠ 0) (hc : u 2 + c * v 2 ≠ 0) :
    Collinear3 (pinhole fx fy s cx cy (u + a • v)) (pinhole fx fy s cx cy (u + b • v))
      (pinhole fx fy s cx cy (u + c • v)) := by
  have key : ∀ {a b : ℝ}, u 2 + a * v 2 ≠ 0 → u 2 + b * v 2 ≠ 0 → ∀ k : Fin 3,
      (u k + b * v k) / (u 2 + b * v 2) - (u k + a * v k) / (u 2 + a * v 2) =
        (b - a) / ((u 2 + a * v 2) * (u 2 + b * v 2)) * (v k * u 2 - u k * v 2) := by
    intro a b ha hb k
    rw [div_sub_div _ _ hb ha, div_mul_eq_mul_div, div_eq_div_iff (mul_ne_zero hb ha)
      (mul_ne_zero ha hb)]
    ring
  have k0 := key ha hb 0
  have k1 := key ha hb 1
  have l0 := key ha hc 0
  have l1 := key ha hc 1
  generalize (b - a) / ((u 2 + a * v 2) * (u 2 + b * v 2)) = m at *
  generalize (c - a) / ((u 2 + a * v 2) * (u 2 + c * v 2)) = l at *
  simp only [Collinear3, pinhole, Matrix.cons_val, Pi.add_apply, Pi.smul_apply, smul_eq_mul]
  generalize (u 0 + a * v 0) / (u 2 + a * v 2) = x at *
  generalize (u 0 + b * v 0) / (u 2 + b * v 2) = x' at *
  generalize (u 0 + c * v 0) / (u 2 + c * v 2) = x'' at *
  generalize (u 1 + a * v 1) / (u 2 + a * v 2) = y at *
  generalize (u 1 + b * v 1) / (u 2 + b * v 2) = y' at *
  generalize (u 1 + c * v 1) / (u 2 + c * v 2) = y'' at *
  obtain rfl : x' = m * (v 0 * u 2 - u 0 * v 2) + x := by linarith
  obtain rfl : y' = m * (v 1 * u 2 - u 1 * v 2) + y := by linarith
  obtain rfl : x'' = l * (v 0 * u 2 - u 0 * v 2) + x := by linarith
  obtain rfl : y'' = l * (v 1 * u 2 - u 1 * v 2) + y := by linarith
  ring

/-- C54: a straight line in the world has a straight image. -/
theorem c54_perspective_lines (p : PerspectiveParams ℝ) {e : ExtrinsicParameters ℝ}
    (he : ValidExtrinsics e) (x d : Vec) {n : ℕ} (w : Points WorldFrame ℝ n)
    (hw : ∀ i, w.data i ∈ line x d) (hz : ∀ i, (e.worldToCamera w).data i 2 ≠ 0) (i j k : Fin n) :
    let px := (Camera.mk (IntrinsicParametersPerspective.ofParams p) e).worldToPixel w
    Collinear3 (px.data i) (px.data j) (px.data k) := by
  intro px
  have hpx : ∀ i, px.data i = pinhole p.fx p.fy p.skew p.cx p.cy ((e.worldToCamera w).data i) :=
    fun i => persp_worldToPixel p w i (hz i)
  obtain ⟨ti, hi⟩ := hw i
  obtain ⟨tj, hj⟩ := hw j
  obtain ⟨tk, hk⟩ := hw k
  have hi' := hz i
  have hj' := hz j
  have hk' := hz k
  rw [hpx, hpx, hpx]
  have hc : ∀ t : ℝ, Matrix.of e.rotation *ᵥ (x + t • d - e.camcenter) =
      Matrix.of e.rotation *ᵥ (x - e.camcenter) + t • (Matrix.of e.rotation *ᵥ d) := by
    intro t; rw [← mulVec_smul, ← mulVec_add]; congr 1; abel
  rw [worldToCamera_rot he, hi, hc] at hi'
  rw [worldToCamera_rot he, hj, hc] at hj'
  rw [worldToCamera_rot he, hk, hc] at hk'
  rw [worldToCamera_rot he, worldToCamera_rot he, worldToCamera_rot he, hi, hj, hk, hc, hc, hc]
  exact pinhole_collinear _ _ _ _ _ _ _ hi' hj' hk'

/-- C54: the same for the orthographic camera. -/
theorem c54_orthographic_lines (p : OrthographicParams ℝ) {e : ExtrinsicParameters ℝ}
    (he : ValidExtrinsics e) (x d : Vec) {n : ℕ} (w : Points WorldFrame ℝ n)
    (hw : ∀ i, w.data i ∈ line x d) (i j k : Fin n) :
    let px := (Camera.mk (IntrinsicParametersOrthographic.ofParams p) e).worldToPixel w
    Collinear3 (px.data i) (px.data j) (px.data k) := by
  intro px
  have hpx : ∀ i, px.data i = orthographic p.sx p.sy p.cx p.cy ((e.worldToCamera w).data i) :=
    fun i => ortho_worldToPixel p w i
  obtain ⟨ti, hi⟩ := hw i
  obtain ⟨tj, hj⟩ := hw j
  obtain ⟨tk, hk⟩ := hw k
  rw [hpx, hpx, hpx]
  have hc : ∀ t : ℝ, Matrix.of e.rotation *ᵥ (x + t • d - e.camcenter) =
      Matrix.of e.rotation *ᵥ (x - e.camcenter) + t • (Matrix.of e.rotation *ᵥ d) := by
    intro t; rw [← mulVec_smul, ← mulVec_add]; congr 1; abel
  rw [worldToCamera_rot he, worldToCamera_rot he, worldToCamera_rot he, hi, hj, hk, hc, hc, hc]
  simp only [Pi.add_apply, Pi.smul_apply, smul_eq_mul, Collinear3, orthographic, Matrix.cons_val]
  ring

/-- C54: the images of parallel lines meet in a vanishing point: moving along direction `d` from any
start `x`, the pixel tends to the pixel of `camcenter + d`. -/
theorem c54_vanishing_point (p : PerspectiveParams ℝ) {e : ExtrinsicParameters ℝ}
    (he : ValidExtrinsics e) (x d : Vec)
    (hd : (e.worldToCamera (.single (e.camcenter + d))).data 0 2 ≠ 0) :
    let px := fun y => ((Camera.mk (IntrinsicParametersPerspective.ofParams p) e).worldToPixel
      (.single y)).data 0
    Filter.Tendsto (fun t : ℝ => px (x + t • d)) Filter.atTop (nhds (px (e.camcenter + d))) := by
  intro px
  have hd' : (Matrix.of e.rotation *ᵥ d) 2 ≠ 0 := by
    rw [worldToCamera_rot he] at hd
    simpa [Points.single] using hd
  have hlim : px (e.camcenter + d) = pinhole p.fx p.fy p.skew p.cx p.cy (Matrix.of e.rotation *ᵥ d) := by
    simp only [px]
    rw [persp_worldToPixel p _ 0 hd, worldToCamera_rot he]
    simp [Points.single]
  set u := Matrix.of e.rotation *ᵥ (x - e.camcenter) with hu
  set v := Matrix.of e.rotation *ᵥ d with hv
  have hc : ∀ t : ℝ, (e.worldToCamera (.single (x + t • d))).data 0 = u + t • v := by
    intro t; rw [worldToCamera_rot he, hu, hv, ← mulVec_smul, ← mulVec_add]; congr 1
    simp only [Points.single]; abel
  have hinv : Filter.Tendsto (fun t : ℝ => t⁻¹) Filter.atTop (nhds 0) := tendsto_inv_atTop_zero
  have hcomp : ∀ a : Fin 3, Filter.Tendsto (fun t : ℝ => u a * t⁻¹ + v a) Filter.atTop
      (nhds (v a)) := by
    intro a
    have := (hinv.const_mul (u a)).add_const (v a)
    simpa using this
  have hq : ∀ a : Fin 3, Filter.Tendsto (fun t : ℝ => (u a * t⁻¹ + v a) / (u 2 * t⁻¹ + v 2))
      Filter.atTop (nhds (v a / v 2)) := fun a => (hcomp a).div (hcomp 2) hd'
  have hev : ∀ᶠ t : ℝ in Filter.atTop, px (x + t • d) =
      ![p.fx * ((u 0 * t⁻¹ + v 0) / (u 2 * t⁻¹ + v 2)) +
          p.skew * ((u 1 * t⁻¹ + v 1) / (u 2 * t⁻¹ + v 2)) + p.cx,
        p.fy * ((u 1 * t⁻¹ + v 1) / (u 2 * t⁻¹ + v 2)) + p.cy] := by
    have h1 := (hcomp 2).eventually_ne hd'
    filter_upwards [h1, Filter.eventually_gt_atTop (0 : ℝ)] with t ht htpos
    have ht0 : t ≠ 0 := htpos.ne'
    have h2 : ∀ a, (u + t • v) a = t * (u a * t⁻¹ + v a) := by
      intro a; simp only [Pi.add_apply, Pi.smul_apply, smul_eq_mul]; field_simp
    simp only [px]
    rw [persp_worldToPixel p _ 0 (by rw [hc, h2]; exact mul_ne_zero ht0 ht), hc]
    simp only [pinhole, h2, mul_div_mul_left _ _ ht0]
  rw [Filter.tendsto_congr' hev, hlim]
  rw [tendsto_pi_nhds]
  intro a
  fin_cases a
  · exact (((hq 0).const_mul _).add ((hq 1).const_mul _)).add_const _
  · exact ((hq 1).const_mul _).add_const _

/-- Non-vacuity of C54: the vanishing point of the forward direction is the principal point. -/
example : (((Camera.mk (IntrinsicParametersPerspective.ofParams exPersp)
    (fromRotationAndCamcenter exQuat ![1, 2, 3])).worldToPixel
      (.single ((fromRotationAndCamcenter exQuat ![1, 2, 3]).camcenter +
        (0 : ℝ) • (fromRotationAndCamcenter exQuat ![1, 2, 3]).right +
        (0 : ℝ) • (fromRotationAndCamcenter exQuat ![1, 2, 3]).up +
        (1 : ℝ) • (fromRotationAndCamcenter exQuat ![1, 2, 3]).forward))).data 0) = ![640, 480] := by
  rw [c52_perspective _ ex_valid _ _ _ one_ne_zero]
  simp [exPersp]

end CamGeom
