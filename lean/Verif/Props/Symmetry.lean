import Verif.Props.CameraRays

/-!
# C50 and C51: what an image depends on

Exact real arithmetic.
-/

namespace CamGeom
open Spec Matrix ExtrinsicParameters

/-- `world_to_camera` in terms of `rotation()` and `camcenter()`. -/
theorem worldToCamera_rot {e : ExtrinsicParameters ℝ} (h : ValidExtrinsics e) {n : ℕ}
    (w : Points WorldFrame ℝ n) (i : Fin n) :
    (e.worldToCamera w).data i = Matrix.of e.rotation *ᵥ (w.data i - e.camcenter) := by
  rw [(c05_accessors_agree h w i).2.2, (c05_translation_rotation h).1, mulVec_sub, sub_eq_add_neg]

/-- A rigid motion of the world moves a camera to the pose `e'`. -/
def MovedBy (M : Matrix (Fin 3) (Fin 3) ℝ) (t : Vec) (e e' : ExtrinsicParameters ℝ) : Prop :=
  e'.camcenter = M *ᵥ e.camcenter + t ∧ Matrix.of e'.rotation * M = Matrix.of e.rotation

/-- C50: moving the scene together with the camera leaves all camera coordinates unchanged. -/
theorem c50_world_to_camera {e e' : ExtrinsicParameters ℝ} (h : ValidExtrinsics e)
    (h' : ValidExtrinsics e') {M : Matrix (Fin 3) (Fin 3) ℝ} {t : Vec} (hm : MovedBy M t e e') {n : ℕ}
    (w : Points WorldFrame ℝ n) :
    e'.worldToCamera ⟨fun i => M *ᵥ w.data i + t⟩ = e.worldToCamera w := by
  ext1; funext i
  rw [worldToCamera_rot h', worldToCamera_rot h, hm.1, ← hm.2, ← mulVec_mulVec]
  congr 1
  rw [mulVec_sub]
  exact add_sub_add_right_eq_sub _ _ _

/-- C50: moving the scene together with the camera leaves the image unchanged, for any intrinsics. -/
theorem c50_world_to_pixel {I : Type} [IntrinsicParameters ℝ I] (k : I) {e e' : ExtrinsicParameters ℝ}
    (h : ValidExtrinsics e) (h' : ValidExtrinsics e') {M : Matrix (Fin 3) (Fin 3) ℝ} {t : Vec}
    (hm : MovedBy M t e e') {n : ℕ} (w : Points WorldFrame ℝ n) :
    (Camera.mk k e').worldToPixel ⟨fun i => M *ᵥ w.data i + t⟩ = (Camera.mk k e).worldToPixel w := by
  simp only [Camera.worldToPixel, c50_world_to_camera h h' hm]

theorem cameraToWorld_moved {e e' : ExtrinsicParameters ℝ} (h : ValidExtrinsics e)
    (h' : ValidExtrinsics e') {M : Matrix (Fin 3) (Fin 3) ℝ} {t : Vec} (hm : MovedBy M t e e') {n : ℕ}
    (x : Points CameraFrame ℝ n) (i : Fin n) :
    (e'.cameraToWorld x).data i = M *ᵥ (e.cameraToWorld x).data i + t := by
  have h1 := c50_world_to_camera h h' hm (e.cameraToWorld x)
  rw [c02_camera_world_camera h] at h1
  have h2 := congrArg e'.cameraToWorld h1
  rw [c02_world_camera_world h'] at h2
  rw [← h2]

/-- `camera_to_world` of differences is a change of direction. -/
theorem inverse_rotate_eq_sub {q : Quat ℝ} (hq : UnitQuat q) (c d : V3 ℝ) :
    q.inverse.rotate d = ((fromRotationAndCamcenter q c).cameraToWorld (.single d)).data 0 -
      ((fromRotationAndCamcenter q c).cameraToWorld (.single 0)).data 0 := by
  rw [cameraToWorld_row hq, cameraToWorld_row hq]
  simp [Points.single, rotate_zero]

theorem inverse_rotate_moved {q q' : Quat ℝ} {c c' : V3 ℝ} (hq : UnitQuat q) (hq' : UnitQuat q')
    {M : Matrix (Fin 3) (Fin 3) ℝ} {t : Vec}
    (hm : MovedBy M t (fromRotationAndCamcenter q c) (fromRotationAndCamcenter q' c')) (d : V3 ℝ) :
    q'.inverse.rotate d = M *ᵥ q.inverse.rotate d := by
  rw [inverse_rotate_eq_sub hq' c', inverse_rotate_eq_sub hq c,
    cameraToWorld_moved ⟨q, c, hq, rfl⟩ ⟨q', c', hq', rfl⟩ hm,
    cameraToWorld_moved ⟨q, c, hq, rfl⟩ ⟨q', c', hq', rfl⟩ hm, mulVec_sub]
  abel

/-- C50: the viewing rays of a moved perspective camera are the moved viewing rays. -/
theorem c50_perspective_rays (p : PerspectiveParams ℝ) {e e' : ExtrinsicParameters ℝ}
    (h : ValidExtrinsics e) (h' : ValidExtrinsics e') {M : Matrix (Fin 3) (Fin 3) ℝ} {t : Vec}
    (hm : MovedBy M t e e') {n : ℕ} (px : Pixels ℝ n) (i : Fin n) :
    let b := (Camera.mk (IntrinsicParametersPerspective.ofParams p) e).pixelToWorld px
    let b' := (Camera.mk (IntrinsicParametersPerspective.ofParams p) e').pixelToWorld px
    RayBundle.centers (B := SharedOriginRayBundle ℝ) b' i =
      M *ᵥ RayBundle.centers (B := SharedOriginRayBundle ℝ) b i + t ∧
    RayBundle.directions (B := SharedOriginRayBundle ℝ) b' i =
      M *ᵥ RayBundle.directions (B := SharedOriginRayBundle ℝ) b i := by
  obtain ⟨q, c, hq, rfl⟩ := h
  obtain ⟨q', c', hq', rfl⟩ := h'
  simp only [persp_pixelToWorld _ hq, persp_pixelToWorld _ hq', so_bundle_rows]
  have hc : c' = M *ᵥ c + t := hm.1
  refine ⟨?_, inverse_rotate_moved hq hq' hm _⟩
  rw [inverse_rotate_moved hq hq' hm, mulVec_add, hc]
  abel

/-- C50: the viewing rays of a moved orthographic camera are the moved viewing rays. -/
theorem c50_orthographic_rays (p : OrthographicParams ℝ) {e e' : ExtrinsicParameters ℝ}
    (h : ValidExtrinsics e) (h' : ValidExtrinsics e') {M : Matrix (Fin 3) (Fin 3) ℝ} {t : Vec}
    (hm : MovedBy M t e e') {n : ℕ} (px : Pixels ℝ n) (i : Fin n) :
    let b := (Camera.mk (IntrinsicParametersOrthographic.ofParams p) e).pixelToWorld px
    let b' := (Camera.mk (IntrinsicParametersOrthographic.ofParams p) e').pixelToWorld px
    RayBundle.centers (B := SharedDirectionRayBundle ℝ) b' i =
      M *ᵥ RayBundle.centers (B := SharedDirectionRayBundle ℝ) b i + t ∧
    RayBundle.directions (B := SharedDirectionRayBundle ℝ) b' i =
      M *ᵥ RayBundle.directions (B := SharedDirectionRayBundle ℝ) b i := by
  obtain ⟨q, c, hq, rfl⟩ := h
  obtain ⟨q', c', hq', rfl⟩ := h'
  simp only [ortho_pixelToWorld _ hq, ortho_pixelToWorld _ hq', sd_bundle_rows]
  have hc : c' = M *ᵥ c + t := hm.1
  refine ⟨?_, inverse_rotate_moved hq hq' hm _⟩
  rw [inverse_rotate_moved hq hq' hm, mulVec_add, hc]
  abel

/-- C50: the camera can be moved by every rotation (given as a unit quaternion `g`) and translation,
with `from_rotation_and_camcenter(q g⁻¹, g c + t)`; so the hypotheses above can be met. -/
theorem c50_move_exists {g : Quat ℝ} (hg : UnitQuat g) (t : Vec) {e : ExtrinsicParameters ℝ}
    (h : ValidExtrinsics e) :
    ValidExtrinsics (fromRotationAndCamcenter (e.rquat.mul g.inverse)
        (g.rotate e.camcenter + t)) ∧
      MovedBy (Matrix.of g.toRotationMatrix) t e
        (fromRotationAndCamcenter (e.rquat.mul g.inverse) (g.rotate e.camcenter + t)) := by
  obtain ⟨q, c, hq, rfl⟩ := h
  have hu := unitQuat_mul hq (unitQuat_inverse hg)
  have h1 : (fromRotationAndCamcenter q c).rquat = q := rfl
  have h2 : (fromRotationAndCamcenter q c).camcenter = c := rfl
  rw [h1, h2]
  refine ⟨⟨_, _, hu, rfl⟩, ?_, ?_⟩
  · rw [← mulVec3_eq, mulVec3_toRotationMatrix hg]; rfl
  · apply Matrix.ext_of_mulVec_single
    intro i
    rw [← mulVec_mulVec, ← mulVec3_eq, ← mulVec3_eq, ← mulVec3_eq]
    have e1 : ∀ q c, (fromRotationAndCamcenter q c : ExtrinsicParameters ℝ).rotation =
      q.toRotationMatrix := fun _ _ => rfl
    rw [e1, e1, mulVec3_toRotationMatrix hg, mulVec3_toRotationMatrix hu,
      mulVec3_toRotationMatrix hq, mul_rotate hq (unitQuat_inverse hg), inverse_rotate_rotate hg]

/-- C50 is not only about the identity motion. -/
example : Matrix.of exQuat.toRotationMatrix *ᵥ ![1, 0, 0] = ![0, 1, 0] := by
  rw [← mulVec3_eq, mulVec3_toRotationMatrix exQuat_unit, rotate_apply]
  funext a; fin_cases a <;> simp [exQuat] <;> norm_num

/-- C51: two extrinsics act alike on all points exactly if camera centre and rotation matrix agree. -/
theorem c51_same_iff {e e' : ExtrinsicParameters ℝ} (h : ValidExtrinsics e)
    (h' : ValidExtrinsics e') :
    (∀ x : Vec, (e.worldToCamera (.single x)).data 0 = (e'.worldToCamera (.single x)).data 0) ↔
      e.camcenter = e'.camcenter ∧ e.rotation = e'.rotation := by
  constructor
  · intro H
    have hc : e.camcenter = e'.camcenter := by
      have h1 := H e.camcenter
      have h2 := (c04_optical_centre h (.single e.camcenter) 0).2 rfl
      rw [h2] at h1
      exact (c04_optical_centre h' (.single e.camcenter) 0).1 h1.symm
    refine ⟨hc, ?_⟩
    apply Matrix.of.injective
    apply Matrix.ext_of_mulVec_single
    intro i
    have h1 := H (e.camcenter + Pi.single i 1)
    rw [worldToCamera_rot h, worldToCamera_rot h', ← hc] at h1
    simpa [Points.single] using h1
  · rintro ⟨hc, hr⟩ x
    rw [worldToCamera_rot h, worldToCamera_rot h', hc, hr]

/-- Products of components determine a unit quaternion up to sign. -/
theorem quat_eq_or_neg {a b : Fin 4 → ℝ} (h : ∀ i j, a i * a j = b i * b j) : a = b ∨ a = -b := by
  by_cases h0 : a = 0
  · left
    rw [h0]
    funext i
    have := h i i
    rw [h0] at this
    have : b i = 0 := by simpa using this
    exact this.symm
  · obtain ⟨i, hi⟩ := Function.ne_iff.1 h0
    have hii := h i i
    rcases mul_self_eq_mul_self_iff.1 hii with h1 | h1
    · left; funext j
      have := h i j
      rw [h1] at this
      exact mul_left_cancel₀ (by rw [← h1]; exact hi) this
    · right; funext j
      have h2 := h i j
      rw [h1] at h2
      have hb : b i ≠ 0 := fun hb => hi (by rw [h1, hb]; simp)
      apply mul_left_cancel₀ hb
      rw [Pi.neg_apply]; linarith

/-- C51: two unit quaternions give the same rotation matrix exactly if they are equal up to sign. -/
theorem c51_quaternion_sign {q q' : Quat ℝ} (hq : UnitQuat q) (hq' : UnitQuat q') (c : Vec) :
    (fromRotationAndCamcenter q c).rotation = (fromRotationAndCamcenter q' c).rotation ↔
      q' = q ∨ q' = ⟨-q.w, -q.i, -q.j, -q.k⟩ := by
  have e1 : ∀ q c, (fromRotationAndCamcenter q c : ExtrinsicParameters ℝ).rotation =
    q.toRotationMatrix := fun _ _ => rfl
  rw [e1, e1]
  constructor
  · intro H
    have e : ∀ a b, q.toRotationMatrix a b = q'.toRotationMatrix a b := fun a b => by rw [H]
    have h00 := e 0 0
    have h01 := e 0 1
    have h02 := e 0 2
    have h10 := e 1 0
    have h11 := e 1 1
    have h12 := e 1 2
    have h20 := e 2 0
    have h21 := e 2 1
    have h22 := e 2 2
    simp [Quat.toRotationMatrix] at h00 h01 h02 h10 h11 h12 h20 h21 h22
    unfold UnitQuat at hq hq'
    have key := quat_eq_or_neg (a := ![q'.w, q'.i, q'.j, q'.k]) (b := ![q.w, q.i, q.j, q.k]) (by
      intro i j
      fin_cases i <;> fin_cases j <;> simp <;> linarith)
    rcases key with h | h
    · left
      have g := fun i => congrFun h i
      ext
      · exact g 0
      · exact g 1
      · exact g 2
      · exact g 3
    · right
      have g := fun i => congrFun h i
      ext
      · exact g 0
      · exact g 1
      · exact g 2
      · exact g 3
  · rintro (rfl | rfl)
    · rfl
    · funext a b
      fin_cases a <;> fin_cases b <;> simp [Quat.toRotationMatrix]

/-- C51: `q` and `-q` give cameras which image every point alike. -/
theorem c51_negated_quaternion {I : Type} [IntrinsicParameters ℝ I] (k : I) (q : Quat ℝ)
    (c : Vec) {n : ℕ} (w : Points WorldFrame ℝ n) (x : Points CameraFrame ℝ n) :
    let q' : Quat ℝ := ⟨-q.w, -q.i, -q.j, -q.k⟩
    (Camera.mk k (fromRotationAndCamcenter q' c)).worldToPixel w =
      (Camera.mk k (fromRotationAndCamcenter q c)).worldToPixel w ∧
    (fromRotationAndCamcenter q' c).cameraToWorld x = (fromRotationAndCamcenter q c).cameraToWorld x := by
  intro q'
  have hm : q'.toRotationMatrix = q.toRotationMatrix := by
    funext a b
    fin_cases a <;> fin_cases b <;> simp [Quat.toRotationMatrix, q']
  have hr : ∀ v, q'.rotate v = q.rotate v := by
    intro v; rw [rotate_apply, rotate_apply]
    funext a; fin_cases a <;> simp [q'] <;> ring
  have hri : ∀ v, q'.inverse.rotate v = q.inverse.rotate v := by
    intro v; rw [rotate_apply, rotate_apply]
    funext a; fin_cases a <;> simp [q', Quat.inverse] <;> ring
  constructor
  · simp only [Camera.worldToPixel]
    congr 1
    ext1
    rw [worldToCamera_data, worldToCamera_data]
    funext i
    simp only [transformPoint_eq, fromRotationAndCamcenter, hr, hm]
  · ext1
    rw [cameraToWorld_data, cameraToWorld_data]
    funext i
    simp only [transformPoint_eq, fromRotationAndCamcenter, Isometry.inverse, hri, hm]

end CamGeom
