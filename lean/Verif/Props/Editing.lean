import Verif.Props.Orientation

/-!
# C119: resized, cropped, mirrored and rotated images
-/

namespace CamGeom
open Spec Matrix ExtrinsicParameters

/-- A resized, cropped or mirrored image: the pixel `(u, v)` becomes `(a u + b, c v + d)`. -/
def editPixel (a b c d : ℝ) (u : Fin 2 → ℝ) : Fin 2 → ℝ := ![a * u 0 + b, c * u 1 + d]

/-- The parameters for the edited images of a perspective camera. -/
def editPerspective (a b c d : ℝ) (p : PerspectiveParams ℝ) : PerspectiveParams ℝ :=
  ⟨a * p.fx, c * p.fy, a * p.skew, a * p.cx + b, c * p.cy + d⟩

/-- The parameters for the edited images of an orthographic camera. -/
def editOrthographic (a b c d : ℝ) (o : OrthographicParams ℝ) : OrthographicParams ℝ :=
  ⟨a * o.sx, c * o.sy, a * o.cx + b, c * o.cy + d⟩

section
variable {p : PerspectiveParams ℝ} {o : OrthographicParams ℝ} {e e' : ExtrinsicParameters ℝ} {a b c d : ℝ} {n : ℕ}

/-- **C119**: the perspective camera with the edited parameters takes the edited images. -/
theorem c119_edit (w : Points WorldFrame ℝ n) (i : Fin n) (hz : (e.worldToCamera w).data i 2 ≠ 0) :
    ((Camera.mk (IntrinsicParametersPerspective.ofParams (editPerspective a b c d p)) e).worldToPixel w).data i =
      editPixel a b c d (((Camera.mk (IntrinsicParametersPerspective.ofParams p) e).worldToPixel w).data i) := by
  rw [persp_worldToPixel _ w i hz, persp_worldToPixel _ w i hz]
  generalize (e.worldToCamera w).data i = X at *
  funext k
  fin_cases k <;> simp [pinhole, editPixel, editPerspective] <;> ring

/-- **C119**: the same for rays: the edited camera returns the same rays for the edited pixels. -/
theorem c119_edit_rays (ha : a ≠ 0) (hc : c ≠ 0) (u : Pixels ℝ n) :
    (Camera.mk (IntrinsicParametersPerspective.ofParams (editPerspective a b c d p)) e).pixelToWorld
        ⟨fun i => editPixel a b c d (u.data i)⟩ =
      (Camera.mk (IntrinsicParametersPerspective.ofParams p) e).pixelToWorld u := by
  simp only [Camera.pixelToWorld, IntrinsicParameters.pixelToCamera]
  congr 1
  rw [persp_pixelToCamera, persp_pixelToCamera]
  congr 1
  funext i
  have h1 : (editPixel a b c d (u.data i) 1 - (c * p.cy + d)) / (c * p.fy) = (u.data i 1 - p.cy) / p.fy := by
    rw [← mul_div_mul_left (u.data i 1 - p.cy) p.fy hc]
    simp [editPixel]
    ring
  have h0 : ∀ y, (editPixel a b c d (u.data i) 0 - a * p.skew * y - (a * p.cx + b)) / (a * p.fx) =
      (u.data i 0 - p.skew * y - p.cx) / p.fx := by
    intro y
    rw [← mul_div_mul_left (u.data i 0 - p.skew * y - p.cx) p.fx ha]
    simp [editPixel]
    ring
  simp only [IntrinsicParametersPerspective.ofParams, editPerspective]
  rw [h1, h0]

/-- **C119**: the orthographic camera with the edited parameters takes the edited images. -/
theorem c119_edit_orthographic (w : Points WorldFrame ℝ n) (i : Fin n) :
    ((Camera.mk (IntrinsicParametersOrthographic.ofParams (editOrthographic a b c d o)) e).worldToPixel w).data i =
      editPixel a b c d (((Camera.mk (IntrinsicParametersOrthographic.ofParams o) e).worldToPixel w).data i) := by
  rw [ortho_worldToPixel, ortho_worldToPixel]
  generalize (e.worldToCamera w).data i = X at *
  funext k
  fin_cases k <;> simp [orthographic, editPixel, editOrthographic] <;> ring

/-- **C119**: rays of edited orthographic images. -/
theorem c119_edit_orthographic_rays (ha : a ≠ 0) (hc : c ≠ 0) (u : Pixels ℝ n) :
    (Camera.mk (IntrinsicParametersOrthographic.ofParams (editOrthographic a b c d o)) e).pixelToWorld
        ⟨fun i => editPixel a b c d (u.data i)⟩ =
      (Camera.mk (IntrinsicParametersOrthographic.ofParams o) e).pixelToWorld u := by
  simp only [Camera.pixelToWorld, IntrinsicParameters.pixelToCamera]
  congr 1
  rw [ortho_pixelToCamera, ortho_pixelToCamera]
  congr 1
  funext i
  have h1 : (editPixel a b c d (u.data i) 1 - (c * o.cy + d)) / (c * o.sy) = (u.data i 1 - o.cy) / o.sy := by
    rw [← mul_div_mul_left (u.data i 1 - o.cy) o.sy hc]
    simp [editPixel]
    ring
  have h0 : (editPixel a b c d (u.data i) 0 - (a * o.cx + b)) / (a * o.sx) = (u.data i 0 - o.cx) / o.sx := by
    rw [← mul_div_mul_left (u.data i 0 - o.cx) o.sx ha]
    simp [editPixel]
    ring
  simp only [IntrinsicParametersOrthographic.ofParams, editOrthographic]
  rw [h1, h0]

/-- A rotation that fixes the third axis. -/
theorem fixes_axis {Q : Matrix (Fin 3) (Fin 3) ℝ} (h1 : Qᵀ * Q = 1) (hd : Q.det = 1) (hz : Q *ᵥ ![0, 0, 1] = ![0, 0, 1]) :
    ∃ r s : ℝ, r ^ 2 + s ^ 2 = 1 ∧ ∀ X : Vec, Q *ᵥ X = ![r * X 0 - s * X 1, s * X 0 + r * X 1, X 2] := by
  have hz' : Qᵀ *ᵥ ![0, 0, 1] = ![0, 0, 1] := by
    conv_lhs => rw [← hz]
    rw [mulVec_mulVec, h1, one_mulVec]
  have c0 := congrFun hz 0
  have c1 := congrFun hz 1
  have c2 := congrFun hz 2
  have r0 := congrFun hz' 0
  have r1 := congrFun hz' 1
  simp [mulVec, dotProduct, Fin.sum_univ_three] at c0 c1 c2 r0 r1
  have e00 := congrFun (congrFun h1 0) 0
  have e01 := congrFun (congrFun h1 0) 1
  have e11 := congrFun (congrFun h1 1) 1
  simp [Matrix.mul_apply, Fin.sum_univ_three, r0, r1] at e00 e01 e11
  rw [det_fin_three, c0, c1, c2, r0, r1] at hd
  have hd' : Q 0 0 * Q 1 1 - Q 0 1 * Q 1 0 = 1 := by linarith
  have k1 : Q 1 1 = Q 0 0 := by linear_combination (-Q 1 1) * e00 + Q 1 0 * e01 + Q 0 0 * hd'
  have k2 : Q 0 1 = -Q 1 0 := by linear_combination (-Q 0 1) * e00 + Q 0 0 * e01 - Q 1 0 * hd'
  refine ⟨Q 0 0, Q 1 0, by linarith, fun X => ?_⟩
  funext k
  fin_cases k <;> simp [mulVec, dotProduct, Fin.sum_univ_three, c0, c1, c2, r0, r1, k1, k2]
  ring

/-- Cameras with the same centre and the same `forward()` differ by a rotation about the optical axis. -/
theorem roll (he : ValidExtrinsics e) (he' : ValidExtrinsics e') (hc : e'.camcenter = e.camcenter) (hf : e'.forward = e.forward) :
    ∃ r s : ℝ, r ^ 2 + s ^ 2 = 1 ∧ ∀ x : Vec, ∀ X, X = Matrix.of e.rotation *ᵥ (x - e.camcenter) →
      Matrix.of e'.rotation *ᵥ (x - e'.camcenter) = ![r * X 0 - s * X 1, s * X 0 + r * X 1, X 2] := by
  obtain ⟨o1, d1⟩ := rotation_isRotation he
  obtain ⟨o2, d2⟩ := rotation_isRotation he'
  have o1' : Matrix.of e.rotation * (Matrix.of e.rotation)ᵀ = 1 := mul_eq_one_comm.1 o1
  obtain ⟨r, s, h1, h2⟩ := fixes_axis (Q := Matrix.of e'.rotation * (Matrix.of e.rotation)ᵀ)
    (by rw [transpose_mul, transpose_transpose, Matrix.mul_assoc, ← Matrix.mul_assoc _ (Matrix.of e'.rotation), o2, Matrix.one_mul, o1'])
    (by rw [det_mul, det_transpose, d1, d2, _root_.mul_one])
    (by
      rw [← rotation_forward he, mulVec_mulVec, Matrix.mul_assoc, o1, Matrix.mul_one, ← hf, rotation_forward he', hf,
        rotation_forward he])
  refine ⟨r, s, h1, ?_⟩
  rintro x X rfl
  rw [← h2, mulVec_mulVec, Matrix.mul_assoc, o1, Matrix.mul_one, hc]

/-- **C119**: two cameras with the same centre and the same `forward()`, square pixels and no skew: the images differ by a
rotation about the principal point. -/
theorem c119_roll (he : ValidExtrinsics e) (he' : ValidExtrinsics e') (hc : e'.camcenter = e.camcenter)
    (hf : e'.forward = e.forward) (hp : p.fx = p.fy) (hs : p.skew = 0) :
    ∃ r s : ℝ, r ^ 2 + s ^ 2 = 1 ∧ ∀ x, depthOf e' x = depthOf e x ∧
      (depthOf e x ≠ 0 → centralImage p e' x = ![p.cx + r * (centralImage p e x 0 - p.cx) - s * (centralImage p e x 1 - p.cy),
        p.cy + s * (centralImage p e x 0 - p.cx) + r * (centralImage p e x 1 - p.cy)]) := by
  obtain ⟨r, s, h1, h2⟩ := roll he he' hc hf
  refine ⟨r, s, h1, fun x => ?_⟩
  have hX := h2 x _ rfl
  have hd : depthOf e' x = depthOf e x := by rw [depthOf_eq he, depthOf_eq he', hX]; rfl
  refine ⟨hd, fun hz => ?_⟩
  rw [centralImage_eq he hz, centralImage_eq he' (hd ▸ hz), hX]
  rw [depthOf_eq he] at hz
  generalize Matrix.of e.rotation *ᵥ (x - e.camcenter) = X at *
  funext k
  fin_cases k <;> simp [pinhole, hp, hs] <;> field_simp <;> ring

/-- **C119**: the same for orthographic cameras with equal scales. -/
theorem c119_roll_orthographic (he : ValidExtrinsics e) (he' : ValidExtrinsics e') (hc : e'.camcenter = e.camcenter)
    (hf : e'.forward = e.forward) (ho : o.sx = o.sy) :
    ∃ r s : ℝ, r ^ 2 + s ^ 2 = 1 ∧ ∀ x, parallelImage o e' x =
      ![o.cx + r * (parallelImage o e x 0 - o.cx) - s * (parallelImage o e x 1 - o.cy),
        o.cy + s * (parallelImage o e x 0 - o.cx) + r * (parallelImage o e x 1 - o.cy)] := by
  obtain ⟨r, s, h1, h2⟩ := roll he he' hc hf
  refine ⟨r, s, h1, fun x => ?_⟩
  have hX := h2 x _ rfl
  simp only [parallelImage, ortho_worldToPixel, worldToCamera_rot he, worldToCamera_rot he', Points.single]
  rw [hX]
  generalize Matrix.of e.rotation *ᵥ (x - e.camcenter) = X at *
  funext k
  fin_cases k <;> simp [orthographic, ho] <;> ring

end

/-! ### The theorems apply -/

/-- Two cameras at `(1, 2, 3)` with the same `forward()` and different rotations, square pixels and a point in front of them. -/
example (q q' : Quat ℝ) (hq : q = ⟨1, 0, 0, 0⟩) (hq' : q' = ⟨3 / 5, 0, 0, 4 / 5⟩) (e e' : ExtrinsicParameters ℝ)
    (h : e = fromRotationAndCamcenter q ![1, 2, 3]) (h' : e' = fromRotationAndCamcenter q' ![1, 2, 3]) :
    ValidExtrinsics e ∧ ValidExtrinsics e' ∧ e'.camcenter = e.camcenter ∧ e'.forward = e.forward ∧ e'.rotation ≠ e.rotation ∧
      depthOf e ![2, 2, 5] = 2 := by
  have u : UnitQuat q := by rw [hq]; unfold UnitQuat; norm_num
  have u' : UnitQuat q' := by rw [hq']; unfold UnitQuat; norm_num
  refine ⟨⟨_, _, u, h⟩, ⟨_, _, u', h'⟩, by rw [h, h', c04_camcenter, c04_camcenter], ?_, ?_, ?_⟩
  · rw [h, h', forward_eq u, forward_eq u', rotate_apply, rotate_apply, hq, hq']
    funext k
    fin_cases k <;> simp [Quat.inverse]
  · intro hr
    have h0 := congrFun (congrFun hr 0) 0
    rw [h, h'] at h0
    simp [ExtrinsicParameters.rotation, fromRotationAndCamcenter, Quat.toRotationMatrix, hq, hq'] at h0
    norm_num at h0
  · rw [depthOf, h, worldToCamera_row u, rotate_apply, hq]
    simp [Points.single]
    norm_num

/-- Half the size, then without the first 10 columns; and mirrored images of 640 columns. -/
example (p : PerspectiveParams ℝ) : editPerspective (1 / 2) (-10) (1 / 2) 0 p =
      ⟨p.fx / 2, p.fy / 2, p.skew / 2, p.cx / 2 - 10, p.cy / 2⟩ ∧
    editPerspective (-1) 639 1 0 p = ⟨-p.fx, p.fy, -p.skew, 639 - p.cx, p.cy⟩ := by
  constructor <;> ext <;> simp [editPerspective] <;> ring

end CamGeom
