import Verif.Props.Visibility

/-!
# C118: images of moving points and of moving cameras
-/

namespace CamGeom
open Spec Matrix ExtrinsicParameters

/-- How fast the depth of a point changes that moves with the velocity `v`. -/
noncomputable def depthRate (e : ExtrinsicParameters ℝ) (v : Vec) : ℝ := depthOf e (e.camcenter + v)

/-- The pixel of the direction `v`: the pixel of all points of the ray from the centre in the direction `v`. -/
noncomputable def directionPixel (p : PerspectiveParams ℝ) (e : ExtrinsicParameters ℝ) (v : Vec) : Fin 2 → ℝ :=
  centralImage p e (e.camcenter + v)

section
variable {p : PerspectiveParams ℝ} {o : OrthographicParams ℝ} {e e' : ExtrinsicParameters ℝ} {x v : Vec} {t : ℝ}

theorem depthRate_eq (he : ValidExtrinsics e) (v : Vec) : depthRate e v = (Matrix.of e.rotation *ᵥ v) 2 := by
  rw [depthRate, depthOf_eq he, add_sub_cancel_left]

theorem rotated_motion (e : ExtrinsicParameters ℝ) (x v : Vec) (t : ℝ) : Matrix.of e.rotation *ᵥ (x + t • v - e.camcenter) =
    Matrix.of e.rotation *ᵥ (x - e.camcenter) + t • (Matrix.of e.rotation *ᵥ v) := by
  rw [← mulVec_smul, ← mulVec_add]
  congr 1
  abel

/-- **C118**: the depth of a point moving uniformly changes uniformly. -/
theorem c118_depth (he : ValidExtrinsics e) (x v : Vec) (t : ℝ) : depthOf e (x + t • v) = depthOf e x + t * depthRate e v := by
  rw [depthOf_eq he, depthOf_eq he, depthRate_eq he, rotated_motion]
  rfl

/-- **C118**: the pixel of a point moving uniformly towards or away from the camera stays on a line through the pixel of its
direction of motion, and its distance from that pixel is inversely proportional to the depth. -/
theorem c118_flow (he : ValidExtrinsics e) (hv : depthRate e v ≠ 0) (h0 : depthOf e x ≠ 0) (ht : depthOf e (x + t • v) ≠ 0) :
    depthOf e (x + t • v) • (centralImage p e (x + t • v) - directionPixel p e v) =
      depthOf e x • (centralImage p e x - directionPixel p e v) := by
  have hv' : depthOf e (e.camcenter + v) ≠ 0 := hv
  rw [directionPixel, centralImage_eq he h0, centralImage_eq he ht, centralImage_eq he hv', add_sub_cancel_left]
  rw [depthOf_eq he] at h0
  rw [depthOf_eq he] at ht
  rw [depthRate_eq he] at hv
  rw [depthOf_eq he, depthOf_eq he]
  rw [rotated_motion] at ht ⊢
  generalize Matrix.of e.rotation *ᵥ (x - e.camcenter) = X at *
  generalize Matrix.of e.rotation *ᵥ v = V at *
  simp only [Pi.add_apply, Pi.smul_apply, smul_eq_mul] at ht
  funext i
  fin_cases i <;> simp [pinhole] <;> field_simp <;> ring

/-- **C118**: the time to contact. The point reaches the image plane through the centre exactly at the time `-z / w`, with `z` its
depth and `w` the rate of its change; the pixels alone determine that time. -/
theorem c118_contact (he : ValidExtrinsics e) (hv : depthRate e v ≠ 0) (h0 : depthOf e x ≠ 0) :
    let τ := -depthOf e x / depthRate e v
    (depthOf e (x + t • v) = 0 ↔ t = τ) ∧
    (t ≠ τ → centralImage p e (x + t • v) - directionPixel p e v = (τ / (τ - t)) • (centralImage p e x - directionPixel p e v)) ∧
    (centralImage p e x ≠ directionPixel p e v → t ≠ τ → ∀ s, t ≠ s →
      centralImage p e (x + t • v) - directionPixel p e v = (s / (s - t)) • (centralImage p e x - directionPixel p e v) →
      t ≠ 0 → s = τ) := by
  intro τ
  have hτ : depthOf e x = -(τ * depthRate e v) := by simp only [τ]; field_simp
  have hτ0 : τ ≠ 0 := by
    intro h
    rw [h, zero_mul, neg_zero] at hτ
    exact h0 hτ
  have hd : depthOf e (x + t • v) = -((τ - t) * depthRate e v) := by
    rw [c118_depth he, hτ]
    ring
  have hz : depthOf e (x + t • v) = 0 ↔ t = τ := by
    rw [hd, neg_eq_zero, mul_eq_zero, or_iff_left hv, sub_eq_zero, eq_comm]
  have hm : t ≠ τ → centralImage p e (x + t • v) - directionPixel p e v =
      (τ / (τ - t)) • (centralImage p e x - directionPixel p e v) := by
    intro ht
    have hdt : depthOf e (x + t • v) ≠ 0 := fun h => ht (hz.1 h)
    have hf := c118_flow (p := p) he hv h0 hdt
    have hs : τ - t ≠ 0 := sub_ne_zero.2 (Ne.symm ht)
    rw [hd, hτ] at hf
    have : centralImage p e (x + t • v) - directionPixel p e v = (-((τ - t) * depthRate e v))⁻¹ •
        ((-((τ - t) * depthRate e v)) • (centralImage p e (x + t • v) - directionPixel p e v)) := by
      rw [smul_smul, inv_mul_cancel₀ (neg_ne_zero.2 (mul_ne_zero hs hv)), one_smul]
    rw [this, hf, smul_smul]
    congr 1
    field_simp
  refine ⟨hz, hm, ?_⟩
  intro hne ht s hts hs ht0
  rw [hm ht] at hs
  have hk : τ / (τ - t) = s / (s - t) := smul_left_injective ℝ (sub_ne_zero.2 hne) hs
  rw [div_eq_div_iff (sub_ne_zero.2 (Ne.symm ht)) (sub_ne_zero.2 (Ne.symm hts))] at hk
  have : t * (s - τ) = 0 := by linarith
  rcases mul_eq_zero.1 this with h | h
  · exact absurd h ht0
  · linarith

/-- **C118**: the pixel of a point moving parallel to the image plane moves uniformly, at a speed inversely proportional to the
depth. -/
theorem c118_parallel (he : ValidExtrinsics e) (hv : depthRate e v = 0) (h0 : depthOf e x ≠ 0) :
    centralImage p e (x + t • v) = centralImage p e x +
      (t / depthOf e x) • (directionPixel p e (e.forward + v) - directionPixel p e e.forward) := by
  have hf := rotation_forward he
  have h1 : depthOf e (e.camcenter + (e.forward + v)) ≠ 0 := by
    rw [depthOf_eq he, add_sub_cancel_left, mulVec_add, hf]
    rw [depthRate_eq he] at hv
    simp [hv]
  have h2 : depthOf e (e.camcenter + e.forward) ≠ 0 := by
    rw [depthOf_eq he, add_sub_cancel_left, hf]
    simp
  have ht : depthOf e (x + t • v) ≠ 0 := by rwa [c118_depth he, hv, mul_zero, add_zero]
  rw [directionPixel, directionPixel, centralImage_eq he h0, centralImage_eq he ht, centralImage_eq he h1, centralImage_eq he h2,
    add_sub_cancel_left, add_sub_cancel_left, mulVec_add, hf, rotated_motion]
  rw [depthOf_eq he] at h0
  rw [depthRate_eq he] at hv
  rw [depthOf_eq he]
  generalize Matrix.of e.rotation *ᵥ (x - e.camcenter) = X at *
  generalize Matrix.of e.rotation *ᵥ v = V at *
  funext i
  fin_cases i <;> simp [pinhole, hv] <;> field_simp <;> ring

/-- **C118**: in an orthographic camera all points with the same velocity have the same, uniform motion. -/
theorem c118_orthographic (he : ValidExtrinsics e) (x v : Vec) (t : ℝ) :
    parallelImage o e (x + t • v) =
      parallelImage o e x + t • (parallelImage o e (e.camcenter + v) - parallelImage o e e.camcenter) := by
  simp only [parallelImage, ortho_worldToPixel, worldToCamera_rot he, Points.single]
  rw [rotated_motion, add_sub_cancel_left, sub_self, mulVec_zero]
  funext i
  fin_cases i <;> simp [orthographic] <;> ring

/-- **C118**: a camera moved by `t • w` without turning sees a point like the camera that stayed sees the point moved by
`-t • w`. -/
theorem c118_moving_camera (he : ValidExtrinsics e) (he' : ValidExtrinsics e') (hr : e'.rotation = e.rotation) {w : Vec}
    (hc : e'.camcenter = e.camcenter + t • w) (x : Vec) :
    depthOf e' x = depthOf e (x + t • -w) ∧ parallelImage o e' x = parallelImage o e (x + t • -w) ∧
      (depthOf e' x ≠ 0 → centralImage p e' x = centralImage p e (x + t • -w)) := by
  have h : x - e'.camcenter = x + t • -w - e.camcenter := by
    rw [hc, smul_neg]
    abel
  have hd : depthOf e' x = depthOf e (x + t • -w) := by rw [depthOf_eq he', depthOf_eq he, hr, h]
  refine ⟨hd, ?_, ?_⟩
  · simp only [parallelImage, ortho_worldToPixel, worldToCamera_rot he, worldToCamera_rot he', Points.single, hr, h]
  · intro hz
    rw [centralImage_eq he' hz, centralImage_eq he (hd ▸ hz), hr, h]

end

/-! ### The theorems apply -/

/-- A camera at the origin looking along +y and a point at `(1, 4, 1)`: with the velocity `(1, -2, 0)` it comes closer, its pixel is
not that of its direction of motion, and it arrives at the plane of the centre at the time 2; with the velocity `(1, 0, 2)` it moves
parallel to the image plane. -/
example (p : PerspectiveParams ℝ) (hp : p.fy ≠ 0) (e : ExtrinsicParameters ℝ) (h : e = fromRotationAndCamcenter exQuat 0) :
    ValidExtrinsics e ∧ depthOf e ![1, 4, 1] = 4 ∧ depthRate e ![1, -2, 0] = -2 ∧ depthRate e ![1, 0, 2] = 0 ∧
      -depthOf e ![1, 4, 1] / depthRate e ![1, -2, 0] = 2 ∧
      centralImage p e ![1, 4, 1] ≠ directionPixel p e ![1, -2, 0] := by
  have hd : ∀ x, depthOf e x = x 1 := by
    intro x
    rw [h]
    exact (sampleCamera_depth 0 x).trans (by simp)
  have hr : ∀ x, depthRate e x = x 1 := by
    intro x
    rw [depthRate, hd, h, c04_camcenter]
    simp
  have hi : ∀ x : Vec, x 1 ≠ 0 → centralImage p e x 1 = p.fy * (x 0 / x 1) + p.cy := by
    intro x hx
    have hz : (e.worldToCamera (.single x)).data 0 2 ≠ 0 := by
      have := hd x
      rw [depthOf] at this
      rwa [this]
    rw [centralImage, persp_worldToPixel p _ 0 hz, h, worldToCamera_row exQuat_unit, rotate_apply]
    simp [pinhole, exQuat, Points.single]
    ring_nf
    exact Or.inl trivial
  refine ⟨by rw [h]; exact ⟨_, _, exQuat_unit, rfl⟩, by rw [hd]; simp, by rw [hr]; simp, by rw [hr]; simp, ?_, ?_⟩
  · rw [hd, hr]
    norm_num
  · intro he
    have h1 := congrFun he 1
    have hc : e.camcenter = 0 := by rw [h, c04_camcenter]
    rw [directionPixel, hc, zero_add, hi _ (by simp), hi _ (by simp)] at h1
    simp at h1
    apply hp
    linarith

end CamGeom
