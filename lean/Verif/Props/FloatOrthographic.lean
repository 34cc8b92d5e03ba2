import Verif.Props.FloatTriangulation

/-!
# C88: orthographic `f64` cameras, and triangulation with cameras of both kinds

The orthographic counterpart of C85: the ray of a measured pixel runs along the optical axis, and cameras of both
kinds may be mixed in one intersection.
-/

namespace CamGeom
open Rounding ExtrinsicParameters Spec Matrix

/-- An orthographic camera and a pixel. -/
structure ParallelView (R : Type) where
  params : OrthographicParams R
  rotation : Quat R
  camcenter : V3 R
  pixel : Pixels R 1

section
variable {R : Type} [Scalar R] {fl : Rounding R}

/-- The camera. -/
def ParallelView.camera (o : ParallelView R) : Camera R (IntrinsicParametersOrthographic R) :=
  ⟨.ofParams o.params, fromRotationAndCamcenter o.rotation o.camcenter⟩

/-- The world ray of the pixel: `camera.pixel_to_world(&pixel).to_single_ray()`. -/
def ParallelView.ray (o : ParallelView R) : Ray WorldFrame R :=
  RayBundle.toSingleRay (B := SharedDirectionRayBundle R) (o.camera.pixelToWorld o.pixel)

/-- The computed origin in the camera frame. -/
def ParallelView.origin (o : ParallelView R) : V3 R :=
  ((IntrinsicParametersOrthographic.ofParams o.params).pixelToCamera o.pixel).data 0

theorem ParallelView.ray_eq (o : ParallelView R) :
    o.ray =
      { center := (fromRotationAndCamcenter o.rotation o.camcenter).cache.poseInv.transformPoint o.origin
        direction := (fromRotationAndCamcenter o.rotation o.camcenter).cache.poseInv.transformVector ![0, 0, 1] } := by
  unfold ParallelView.ray ParallelView.camera ParallelView.origin
  simp only [Camera.pixelToWorld, rayCameraToWorld, RayBundle.toPose, RayBundle.toSingleRay, Bundle.toSingleRay,
    Bundle.toPose, IntrinsicParameters.pixelToCamera, sd_toPose, SharedDirectionRayBundle.toSingleRay,
    ortho_pixelToCamera, SharedDirectionRayBundle.newPluszSharedDirection]

theorem rayOrigin_near {q : Quat R} {c v : V3 R} {ε M B : ℝ} (hε : |quatNormSq (fl.quat q) - 1| ≤ ε)
    (hc : ∀ a, |fl.val (c a)| ≤ M) (hv : ∀ a, |fl.val (v a)| ≤ B) (a : Fin 3)
    (hf : fl.isFinite ((fromRotationAndCamcenter q c).cache.poseInv.transformPoint v a)) :
    |fl.val ((fromRotationAndCamcenter q c).cache.poseInv.transformPoint v a) -
      ((fl.quat q).inverse.rotate (fl.vec v) a +
        (fl.quat q).inverse.rotate (-(fromRotationAndCamcenter (fl.quat q) (fl.vec c)).translation) a)| ≤
      ((1 + fl.u) ^ 15 - 1) * (rotMag (1 + ε) fl.ω B + rotMag (1 + ε) fl.ω (transMag (1 + ε) fl.ω M)) := by
  obtain ⟨hw, hi, hj, hk⟩ := comps_le hε
  have hq := QComp.of_val fl hw hi hj hk
  have h1 := hq.inverse.rotate' (v := v) (v' := fl.vec v) (fun b => Comp.of_le (hv b)) a
  have h2 := hq.inverse.rotate' (v := V3.neg (fromRotationAndCamcenter q c).translation)
    (v' := V3.neg (fromRotationAndCamcenter (fl.quat q) (fl.vec c)).translation)
    (fun b => (hq.translation' (c := c) (c' := fl.vec c) (fun b => Comp.of_le (hc b)) b).neg) a
  exact (((h1.mono (k' := 14) (by norm_num) le_rfl).add h2) hf).2

theorem rayOrigin_near_f64 (hu : fl.u = 1 / 2 ^ 53) (hω : fl.ω ≤ 1 / 10 ^ 100) {q : Quat R} {c v : V3 R} {M : ℝ}
    (hM : 1 ≤ M) (hε : |quatNormSq (fl.quat q) - 1| ≤ 1 / 10 ^ 15)
    (hc : ∀ a, |fl.val (c a)| ≤ M) (hv : ∀ a, |fl.val (v a)| ≤ 5 * M) (a : Fin 3)
    (hf : fl.isFinite ((fromRotationAndCamcenter q c).cache.poseInv.transformPoint v a)) :
    |fl.val ((fromRotationAndCamcenter q c).cache.poseInv.transformPoint v a) -
      ((fl.quat q).inverse.rotate (fl.vec v) a +
        (fl.quat q).inverse.rotate (-(fromRotationAndCamcenter (fl.quat q) (fl.vec c)).translation) a)| ≤
      4 / 10 ^ 13 * M := by
  have hω0 := fl.ω_nonneg
  refine (rayOrigin_near hε hc hv a hf).trans ?_
  rw [hu]
  unfold rotMag transMag
  have hq : (12 : ℝ) * (1 + 1 / 10 ^ 15) ^ 2 ≤ 121 / 10 := by norm_num
  have hq0 : (0 : ℝ) ≤ 12 * (1 + 1 / 10 ^ 15) ^ 2 := by norm_num
  generalize (12 : ℝ) * (1 + 1 / 10 ^ 15) ^ 2 = Q at hq hq0 ⊢
  have hk : ((1 : ℝ) + 1 / 2 ^ 53) ^ 15 - 1 ≤ 17 / 10 ^ 16 := by norm_num
  have hM0 : 0 ≤ M := by linarith
  calc _ ≤ 17 / 10 ^ 16 * (121 / 10 * (5 * M) + 5 * M + 1 / 10 ^ 100 * (15 * (1 + 1 / 10 ^ 15) + 3) +
        (121 / 10 * (121 / 10 * M + 1 / 10 ^ 100 * (18 * M + 3)) + (121 / 10 * M + 1 / 10 ^ 100 * (18 * M + 3)) +
          1 / 10 ^ 100 * (15 * (1 + 1 / 10 ^ 15) + 3))) := by gcongr
    _ ≤ _ := by norm_num; linarith

end

/-- The rotation of a unit vector by a nearly unit quaternion. -/
theorem len_rotate_ge {q : Quat ℝ} {ε : ℝ} (h : |quatNormSq q - 1| ≤ ε) (h1 : ε ≤ 1 / 1000) (v : Vec) :
    99 / 100 * len v ≤ len (q.inverse.rotate v) := by
  have hε : 0 ≤ ε := (abs_nonneg _).trans h
  have c : |quatNormSq q.inverse - 1| ≤ ε := by rw [quatNormSq_inverse]; exact h
  have e := len_defect_le c (by linarith) v
  rw [inverse_inverse] at e
  have e2 := len_rotate_le h (q.inverse.rotate v)
  have t := len_add_le (v - q.rotate (q.inverse.rotate v)) (q.rotate (q.inverse.rotate v))
  rw [sub_add_cancel, len_sub_comm] at t
  have hv := len_nonneg v
  have hw := len_nonneg (q.inverse.rotate v)
  have a1 := mul_le_mul_of_nonneg_right h1 hv
  have a2 := mul_le_mul_of_nonneg_right h1 hw
  rw [distance] at e
  linarith

/-- The size of a pixel near the projection of a point. -/
theorem pixel_le {v c s X σ M : ℝ} (hs : 0 < |s|) (hM : 0 ≤ M) (hc : |c| ≤ 10 * M * |s|)
    (hX : |X| ≤ 41 / 10 * M) (hv : |v - (s * X + c)| ≤ σ * M * |s|) (hσ : σ ≤ 1 / 100) : |v| ≤ 15 * M * |s| := by
  have e4 : σ * M * |s| ≤ 1 / 100 * M * |s| :=
    mul_le_mul_of_nonneg_right (mul_le_mul_of_nonneg_right hσ hM) hs.le
  have e1 : |s * X| ≤ 41 / 10 * M * |s| := by
    rw [abs_mul, mul_comm]; exact mul_le_mul_of_nonneg_right hX hs.le
  have e2 := abs_sub_abs_le_abs_sub v (s * X + c)
  have e3 := abs_add_le (s * X) c
  have ms := mul_nonneg hM hs.le
  nlinarith

/-- An offset computed from a pixel. -/
theorem offset_near {v c s X σ M d k ω : ℝ} (hs : 0 < |s|) (hM : 0 ≤ M) (hc : |c| ≤ 10 * M * |s|)
    (hX : |X| ≤ 41 / 10 * M) (hv : |v - (s * X + c)| ≤ σ * M * |s|) (hσ : σ ≤ 1 / 100) (hk0 : 0 ≤ k)
    (hd : |d - (v - c) / s| ≤ k * ((|v| + |c|) / |s| + ω)) :
    |d - X| ≤ σ * M + k * (25 * M + ω) := by
  have hs' : s ≠ 0 := abs_pos.1 hs
  have h1 : |(v - c) / s - X| ≤ σ * M := by
    rw [show (v - c) / s - X = (v - (s * X + c)) / s by field_simp; ring, abs_div, div_le_iff₀ hs]
    exact hv
  have h5 := pixel_le hs hM hc hX hv hσ
  have h2 : (|v| + |c|) / |s| ≤ 25 * M := by
    rw [div_le_iff₀ hs]
    linarith
  have h3 := abs_sub_le d ((v - c) / s) X
  have h4 := mul_le_mul_of_nonneg_left (add_le_add_left h2 ω) hk0
  linarith

section
variable {f : Format} {lib : Libm f}

/-- Exact camera coordinates of the point `x`. -/
noncomputable def ParallelView.position (o : ParallelView (RustFloat f lib)) (x : Vec) : Vec :=
  ((fromRotationAndCamcenter ((RustFloat.rounding f lib).quat o.rotation)
    ((RustFloat.rounding f lib).vec o.camcenter)).worldToCamera (.single x)).data 0

/-- The optical axis in world coordinates, the third row of the rotation matrix. -/
noncomputable def ParallelView.axis (o : ParallelView (RustFloat f lib)) : Vec :=
  fun j => ((RustFloat.rounding f lib).quat o.rotation).toRotationMatrix 2 j

/-- The exact pixel of the point `x`. -/
noncomputable def ParallelView.projection (o : ParallelView (RustFloat f lib)) (x : Vec) : Fin 2 → ℝ :=
  Spec.orthographic (Flt.val (f := f) o.params.sx) (Flt.val (f := f) o.params.sy)
    (Flt.val (f := f) o.params.cx) (Flt.val (f := f) o.params.cy) (o.position x)

/-- The pixel is finite and within the image of `σ M` units of the projection of the point. -/
structure MeasuredParallel (σ M : ℝ) (x : Vec) (o : ParallelView (RustFloat f lib)) : Prop where
  finite : ∀ a, Flt.isFinite (f := f) (o.pixel.data 0 a)
  u : |Flt.val (f := f) (o.pixel.data 0 0) - o.projection x 0| ≤ σ * M * |Flt.val (f := f) o.params.sx|
  v : |Flt.val (f := f) (o.pixel.data 0 1) - o.projection x 1| ≤ σ * M * |Flt.val (f := f) o.params.sy|

end

section
variable {lib : Libm Format.b64}

/-- Cameras that are covered: rotation of unit norm up to rounding, coordinates up to `M`, scales from `2^-20` to
`2^20` pixels per unit and an image centre that stands for at most `10 M` units. -/
structure GoodParallel (M : ℝ) (o : ParallelView (F64 lib)) : Prop where
  rotation : NearUnit lib (1 / 10 ^ 15) o.rotation
  center : ∀ a, Flt.Bounded (f := .b64) M (o.camcenter a)
  params : ∀ y ∈ [o.params.sx, o.params.sy, o.params.cx, o.params.cy], Flt.Bounded (f := .b64) (2 ^ 50) y
  sx : 1 / 2 ^ 20 ≤ |Flt.val (f := .b64) o.params.sx|
  sy : 1 / 2 ^ 20 ≤ |Flt.val (f := .b64) o.params.sy|
  sx_le : |Flt.val (f := .b64) o.params.sx| ≤ 2 ^ 20
  sy_le : |Flt.val (f := .b64) o.params.sy| ≤ 2 ^ 20
  cx : |Flt.val (f := .b64) o.params.cx| ≤ 10 * M * |Flt.val (f := .b64) o.params.sx|
  cy : |Flt.val (f := .b64) o.params.cy| ≤ 10 * M * |Flt.val (f := .b64) o.params.sy|

variable {M σ : ℝ} {x : Vec} {o : ParallelView (F64 lib)}

theorem MeasuredParallel.nonneg (h : MeasuredParallel σ M x o) (g : GoodParallel M o) (hM : 1 ≤ M) : 0 ≤ σ := by
  have h1 := (abs_nonneg _).trans h.u
  have h2 : 0 < M * |Flt.val (f := .b64) o.params.sx| :=
    mul_pos (by linarith) (lt_of_lt_of_le (by positivity) g.sx)
  rw [mul_assoc] at h1
  exact nonneg_of_mul_nonneg_left h1 h2

theorem GoodParallel.position_le (g : GoodParallel M o) (hx : ∀ a, |x a| ≤ M) (a : Fin 3) :
    |o.position x a| ≤ 4001 / 1000 * M := by
  set fl := RustFloat.rounding .b64 lib with hfl
  have hq : |quatNormSq (fl.quat o.rotation) - 1| ≤ 1 / 10 ^ 15 := g.rotation.quatNormSq
  have e := depth_le hq (fl.vec o.camcenter) x a
  rw [← pose_apply] at e
  have lx : len x ≤ 2 * M := len_le_entries hx
  have lc : len (fl.vec o.camcenter) ≤ 2 * M := len_le_entries fun a => (g.center a).2
  have hM0 : 0 ≤ M := (abs_nonneg _).trans (hx 0)
  have hL : distance x (fl.vec o.camcenter) ≤ 4 * M := by
    have := len_add_le x (-fl.vec o.camcenter)
    rw [len_neg, ← sub_eq_add_neg] at this
    exact this.trans (by linarith)
  refine e.trans ?_
  norm_num
  linarith

theorem MeasuredParallel.origin (h : MeasuredParallel σ M x o) (g : GoodParallel M o) (hσ : σ ≤ 1 / 100)
    (hM1 : 1 ≤ M) (hM2 : M ≤ 2 ^ 20) (hx : ∀ a, |x a| ≤ M) :
    (∀ a, Flt.isFinite (f := .b64) (o.origin a)) ∧
    |Flt.val (f := .b64) (o.origin 0) - o.position x 0| ≤ (σ + 8 / 10 ^ 15) * M ∧
    |Flt.val (f := .b64) (o.origin 1) - o.position x 1| ≤ (σ + 8 / 10 ^ 15) * M ∧
    Flt.val (f := .b64) (o.origin 2) = 0 := by
  set fl := RustFloat.rounding .b64 lib with hfl
  have eu : fl.u = 1 / 2 ^ 53 := Format.u_b64
  have hω : fl.ω ≤ 1 / 10 ^ 100 := Format.ω_b64
  have hM0 : 0 ≤ M := by linarith
  have s1 : 0 < |fl.val o.params.sx| := lt_of_lt_of_le (by positivity) g.sx
  have s2 : 0 < |fl.val o.params.sy| := lt_of_lt_of_le (by positivity) g.sy
  have X0 : |o.position x 0| ≤ 41 / 10 * M := (g.position_le hx 0).trans (by linarith)
  have X1 : |o.position x 1| ≤ 41 / 10 * M := (g.position_le hx 1).trans (by linarith)
  have k2 : ((1 : ℝ) + 1 / 2 ^ 53) ^ 2 - 1 ≤ 3 / 10 ^ 16 := by norm_num
  have k2' : 0 ≤ ((1 : ℝ) + 1 / 2 ^ 53) ^ 2 - 1 := by norm_num
  have big : ∀ {v s : ℝ}, |v| ≤ 15 * M * |s| → |s| ≤ 2 ^ 20 → |v| ≤ 2 ^ 50 := by
    intro v s h1 h2
    refine h1.trans ((mul_le_mul (mul_le_mul_of_nonneg_left hM2 (by norm_num)) h2 (abs_nonneg _) (by norm_num)).trans ?_)
    norm_num
  -- magnitude of the pixel
  have p0 := pixel_le (v := fl.val (o.pixel.data 0 0)) s1 hM0 g.cx X0 h.u hσ
  have p1 := pixel_le (v := fl.val (o.pixel.data 0 1)) s2 hM0 g.cy X1 h.v hσ
  have hpx : ∀ a, InRange fl 50 (o.pixel.data 0 a) := by
    intro a
    refine ⟨h.finite a, ?_⟩
    fin_cases a
    · exact big p0 g.sx_le
    · exact big p1 g.sy_le
  have hfin : ∀ a, fl.isFinite (o.origin a) := fun a =>
    (c77_orthographic_pixel_to_camera (m := 50) (l := 20) (RustFloat.range Format.b64 lib) o.params
      (fun y hy => (g.params y hy).inRange le_rfl) g.sx g.sy o.pixel 0 hpx (by show _ ≤ 1023; norm_num) a).1
  obtain ⟨d0, d1, d2⟩ := c48_orthographic_origin fl o.params o.pixel 0
  have d0 := d0 (g.params o.params.sx (by simp)).1 (hfin 0)
  have d1 := d1 (g.params o.params.sy (by simp)).1 (hfin 1)
  rw [eu] at d0 d1
  have r0 := (offset_near (v := fl.val (o.pixel.data 0 0)) s1 hM0 g.cx X0 h.u hσ k2' d0)
  have r1 := (offset_near (v := fl.val (o.pixel.data 0 1)) s2 hM0 g.cy X1 h.v hσ k2' d1)
  have fin : (((1 : ℝ) + 1 / 2 ^ 53) ^ 2 - 1) * (25 * M + fl.ω) ≤ 8 / 10 ^ 15 * M := by
    have : (((1 : ℝ) + 1 / 2 ^ 53) ^ 2 - 1) * (25 * M + fl.ω) ≤ 3 / 10 ^ 16 * (25 * M + 1 / 10 ^ 100) :=
      mul_le_mul k2 (by linarith) (add_nonneg (by linarith) fl.ω_nonneg) (by norm_num)
    norm_num at this ⊢
    linarith
  refine ⟨hfin, r0.trans (by linarith), r1.trans (by linarith), d2⟩

theorem axis_near {q : Quat ℝ} {ε : ℝ} (h : |quatNormSq q - 1| ≤ ε) :
    len (q.inverse.rotate ![0, 0, 1] - fun j => q.toRotationMatrix 2 j) ≤ ε := by
  have e := toRotationMatrix_defect q.inverse ![0, 0, 1]
  rw [quatNormSq_inverse, toRotationMatrix_inverse] at e
  have e2 : Mat.mulVec3 (Mat.transpose' q.toRotationMatrix) ![0, 0, 1] = fun j => q.toRotationMatrix 2 j := by
    funext j
    simp [Mat.mulVec3, Mat.transpose']
  rw [e2] at e
  rw [e, sub_add_cancel_left, ← neg_smul, len_smul, abs_neg]
  have : len ![(0 : ℝ), 0, 1] = 1 := by simp [len, Fin.sum_univ_three]
  rw [this, _root_.mul_one]
  exact h

/-- The computed ray of a measured pixel passes near the point, along the optical axis. -/
theorem MeasuredParallel.ray (h : MeasuredParallel σ M x o) (g : GoodParallel M o) (hσ : σ ≤ 1 / 100) (hM1 : 1 ≤ M)
    (hM2 : M ≤ 2 ^ 20) (hx : ∀ a, |x a| ≤ M) (r : Ray WorldFrame ℝ)
    (hr : r = vray (RustFloat.rounding .b64 lib) o.ray) :
    SafeRay (RustFloat.rounding .b64 lib) 500 o.ray ∧ (∀ a, |r.center a| ≤ 6 * M) ∧
    o.axis ≠ 0 ∧ r.direction ≠ 0 ∧
      distance x (r.center + o.position x 2 • r.direction) ≤ (13 * σ + 2 / 10 ^ 12) * M ∧
      len (r.direction - o.axis) ≤ 1 / 10 ^ 12 * len o.axis := by
  set fl := RustFloat.rounding .b64 lib with hfl
  have eu : fl.u = 1 / 2 ^ 53 := Format.u_b64
  have hω : fl.ω ≤ 1 / 10 ^ 100 := Format.ω_b64
  have hq : |quatNormSq (fl.quat o.rotation) - 1| ≤ 1 / 10 ^ 15 := g.rotation.quatNormSq
  have hσ0 := h.nonneg g hM1
  have hM0 : 0 ≤ M := by linarith
  have σM := mul_nonneg hσ0 hM0
  have σM' := mul_le_mul_of_nonneg_right hσ hM0
  obtain ⟨df, s0, s1, s2⟩ := h.origin g hσ hM1 hM2 hx
  have hX := fun a => g.position_le hx a
  set X := o.position x with hXd
  set c' := fl.vec o.camcenter with hc'
  set t := (fromRotationAndCamcenter (fl.quat o.rotation) c').translation with ht
  have eX : X = (fl.quat o.rotation).rotate x + t := pose_apply _ _ _
  have near : ∀ {d Y : ℝ}, |d - Y| ≤ (σ + 8 / 10 ^ 15) * M → |Y| ≤ 4001 / 1000 * M → |d| ≤ 5 * M := by
    intro d Y h1 h2
    have e := (abs_sub_abs_le_abs_sub d Y).trans h1
    norm_num at e
    linarith
  have hv : ∀ a, |fl.val (o.origin a)| ≤ 5 * M := by
    intro a
    fin_cases a
    · exact near s0 (hX 0)
    · exact near s1 (hX 1)
    · show |fl.val (o.origin 2)| ≤ 5 * M
      rw [show fl.val (o.origin 2) = 0 from s2, abs_zero]
      linarith
  have z : ∀ b, InRange fl 23 ((![0, 0, 1] : V3 (F64 lib)) b) := by
    intro b; fin_cases b
    · exact InRange.zero fl
    · exact InRange.zero fl
    · exact (InRange.one fl).mono (by omega)
  have zv : fl.vec (![0, 0, 1] : V3 (F64 lib)) = ![0, 0, 1] := by
    funext b; fin_cases b
    · exact fl.zero.2
    · exact fl.zero.2
    · exact fl.one.2
  have hin : ∀ a, InRange fl 23 (o.origin a) := fun a =>
    ⟨df a, (hv a).trans (le_trans (mul_le_mul_of_nonneg_left hM2 (by norm_num)) (by norm_num))⟩
  have hci : ∀ a, InRange fl 23 (o.camcenter a) := fun a => (g.center a).inRange (hM2.trans (by norm_num))
  have hqi := g.rotation.inRange (by norm_num)
  have hrc : ∀ a, InRange fl 38 (o.ray.center a) := by
    intro a
    rw [ParallelView.ray_eq]
    exact (hqi.poseInv (RustFloat.range .b64 lib) hci hin (by show _ ≤ 1023; norm_num) a).1
  have hrd : ∀ a, InRange fl 30 (o.ray.direction a) := by
    intro a
    rw [ParallelView.ray_eq]
    exact (hqi.poseInv (RustFloat.range .b64 lib) hci z (by show _ ≤ 1023; norm_num) a).2
  have ec : ∀ a, r.center a = fl.val (o.ray.center a) := fun a => by rw [hr]; rfl
  have ed : ∀ a, r.direction a = fl.val (o.ray.direction a) := fun a => by rw [hr]; rfl
  set v := fl.vec o.origin with hvd
  set w := (fl.quat o.rotation).inverse.rotate ![0, 0, 1] with hw
  have e1 : len (r.center - ((fl.quat o.rotation).inverse.rotate v + (fl.quat o.rotation).inverse.rotate (-t))) ≤
      2 * (4 / 10 ^ 13 * M) := by
    refine len_le_entries fun a => ?_
    have hf := (hrc a).1
    rw [Pi.sub_apply, ec]
    rw [ParallelView.ray_eq] at hf ⊢
    exact rayOrigin_near_f64 eu hω hM1 hq (fun a => (g.center a).2) hv a hf
  have e2 : len (r.direction - w) ≤ 2 * (12 / 10 ^ 14) := by
    refine len_le_entries fun a => ?_
    have hf := (hrd a).1
    rw [Pi.sub_apply, ed]
    rw [ParallelView.ray_eq] at hf ⊢
    have := rayDirection_near_f64 eu hω hq (by norm_num) (d := ![0, 0, 1]) (fun b => by
      have : fl.val ((![0, 0, 1] : V3 (F64 lib)) b) = (![0, 0, 1] : Vec) b := congrFun zv b
      rw [this]
      fin_cases b <;> norm_num) a hf
    rw [zv] at this
    exact this
  have e3 := ray_exact hq (by norm_num) t x (v + X 2 • ![0, 0, 1]) 1
  rw [← eX, one_smul, one_smul, rotate_add, rotate_smul, ← hw] at e3
  have e4 : len (v + X 2 • ![0, 0, 1] - X) ≤ (σ + 8 / 10 ^ 15) * M + (σ + 8 / 10 ^ 15) * M := by
    refine len_le_two ?_ ?_ ?_
    · show |v 0 + X 2 * 0 - X 0| ≤ _
      rw [MulZeroClass.mul_zero, _root_.add_zero]
      exact s0
    · show |v 1 + X 2 * 0 - X 1| ≤ _
      rw [MulZeroClass.mul_zero, _root_.add_zero]
      exact s1
    · show v 2 + X 2 * 1 - X 2 = 0
      rw [show v 2 = 0 from s2]; ring
  have lx : len x ≤ 2 * M := len_le_entries hx
  have hE : distance x (r.center + X 2 • r.direction) ≤
      (1 + 3 * (1 / 10 ^ 15)) * ((σ + 8 / 10 ^ 15) * M + (σ + 8 / 10 ^ 15) * M) +
        5 * (1 / 10 ^ 15) * (2 * M) + 2 * (4 / 10 ^ 13 * M) + 4001 / 1000 * M * (2 * (12 / 10 ^ 14)) := by
    have e : r.center + X 2 • r.direction - x =
        ((fl.quat o.rotation).inverse.rotate (-t) + ((fl.quat o.rotation).inverse.rotate v + X 2 • w) - x) +
        ((r.center - ((fl.quat o.rotation).inverse.rotate v + (fl.quat o.rotation).inverse.rotate (-t))) +
          X 2 • (r.direction - w)) := by
      rw [smul_sub]; abel
    rw [distance, len_sub_comm, e]
    refine (len_add_le _ _).trans ?_
    refine (add_le_add e3 (len_add_le _ _)).trans ?_
    rw [len_smul]
    have i1 := mul_le_mul (hX 2) e2 (len_nonneg _) (by linarith)
    have i2 := mul_le_mul_of_nonneg_left e4 (show (0 : ℝ) ≤ 1 + 3 * (1 / 10 ^ 15) by norm_num)
    have i3 := mul_le_mul_of_nonneg_left lx (show (0 : ℝ) ≤ 5 * (1 / 10 ^ 15) by norm_num)
    linarith
  have hE1 : distance x (r.center + X 2 • r.direction) ≤ (13 * σ + 2 / 10 ^ 12) * M := by
    refine hE.trans ?_
    norm_num
    linarith
  have hA : len (w - o.axis) ≤ 1 / 10 ^ 15 := axis_near hq
  have lw : 99 / 100 ≤ len w := by
    have := len_rotate_ge hq (by norm_num) ![0, 0, 1]
    have l1 : len ![(0 : ℝ), 0, 1] = 1 := by simp [len, Fin.sum_univ_three]
    rw [l1, _root_.mul_one] at this
    exact this
  have lw2 : len w ≤ 1 + 3 * (1 / 10 ^ 15) := by
    have c : |quatNormSq (fl.quat o.rotation).inverse - 1| ≤ 1 / 10 ^ 15 := by rw [quatNormSq_inverse]; exact hq
    have := len_rotate_le c ![0, 0, 1]
    have l1 : len ![(0 : ℝ), 0, 1] = 1 := by simp [len, Fin.sum_univ_three]
    rw [l1, _root_.mul_one] at this
    exact this
  have la : 98 / 100 ≤ len o.axis := by
    have t := len_add_le (w - o.axis) o.axis
    rw [sub_add_cancel] at t
    norm_num at hA
    linarith
  have ld : 98 / 100 ≤ len r.direction := by
    have t := len_add_le (w - r.direction) r.direction
    rw [sub_add_cancel, len_sub_comm] at t
    norm_num at e2
    linarith
  have ld2 : len r.direction ≤ 1001 / 1000 := by
    have t := len_add_le (r.direction - w) w
    rw [sub_add_cancel] at t
    norm_num at e2 lw2
    linarith
  have hDne : r.direction ≠ 0 := len_pos.1 (by linarith)
  refine ⟨⟨fun a => (hrc a).mono (by norm_num), fun a => (hrd a).mono (by norm_num), ?_, ?_⟩, fun a => ?_,
    len_pos.1 (by linarith), hDne, hE1, ?_⟩
  · by_contra hn
    push Not at hn
    exact hDne (funext fun a => (ed a).trans (hn a))
  · have : (fun a => fl.val (o.ray.direction a)) = r.direction := funext fun a => (ed a).symm
    rw [this]
    have i1 := pow_le_pow_left₀ (by norm_num) ld 2
    refine le_trans ?_ i1
    norm_num at hω ⊢
    linarith
  · have i1 := (abs_apply_le_len (r.center + X 2 • r.direction - x) a).trans ((len_sub_comm _ _).le.trans hE1)
    have i2 : (r.center + X 2 • r.direction - x) a = r.center a + X 2 * r.direction a - x a := rfl
    rw [i2] at i1
    have i3 : |X 2 * r.direction a| ≤ 4001 / 1000 * M * (1001 / 1000) := by
      rw [abs_mul]
      exact mul_le_mul (hX 2) ((abs_apply_le_len _ a).trans ld2) (abs_nonneg _) (by linarith)
    have i4 := abs_le.1 i1
    have i5 := abs_le.1 i3
    have i6 := abs_le.1 (hx a)
    rw [abs_le]
    norm_num at i4
    constructor <;> linarith
  · have t := len_add_le (r.direction - w) (w - o.axis)
    rw [sub_add_sub_cancel] at t
    refine t.trans ?_
    norm_num at e2 hA ⊢
    linarith

/-! ### The pixel computed for a point -/

theorem computed_offset {d X s c v D k K ω M : ℝ} (hs : 1 / 2 ^ 20 ≤ |s|) (hM : 1 ≤ M) (hc : |c| ≤ 10 * M * |s|)
    (hX : |X| ≤ 4001 / 1000 * M) (hd : |d - X| ≤ D) (hD : D ≤ 23 / 10 ^ 15 * M) (hω : ω ≤ 1 / 10 ^ 100)
    (hk : k ≤ 3 / 10 ^ 16) (hk0 : 0 ≤ k) (hK : K = |d * s| + |c| + ω) (hv : |v - (d * s + c)| ≤ k * K) :
    |v - (s * X + c)| ≤ 3 / 10 ^ 14 * M * |s| := by
  have hs0 : 0 < |s| := lt_of_lt_of_le (by positivity) hs
  have ms : 1 / 2 ^ 20 ≤ M * |s| := hs.trans (le_mul_of_one_le_left hs0.le hM)
  have h1 : |d * s - s * X| ≤ 23 / 10 ^ 15 * (M * |s|) := by
    rw [mul_comm d s, ← mul_sub, abs_mul]
    exact (mul_le_mul_of_nonneg_left (hd.trans hD) hs0.le).trans (le_of_eq (by ring))
  have h2 : |s * X| ≤ 4001 / 1000 * (M * |s|) := by
    rw [abs_mul]
    exact (mul_le_mul_of_nonneg_left hX hs0.le).trans (le_of_eq (by ring))
  have h3 := abs_sub_abs_le_abs_sub (d * s) (s * X)
  have h4 : K ≤ 15 * (M * |s|) := by
    rw [hK]
    rw [mul_assoc] at hc
    linarith
  have h5 : k * K ≤ 3 / 10 ^ 16 * (15 * (M * |s|)) :=
    (mul_le_mul_of_nonneg_left h4 hk0).trans (mul_le_mul_of_nonneg_right hk (by linarith [show (0 : ℝ) ≤ 1 / 2 ^ 20 by positivity]))
  have h6 := abs_add_le (v - (d * s + c)) (d * s - s * X)
  rw [show v - (d * s + c) + (d * s - s * X) = v - (s * X + c) by ring] at h6
  rw [mul_assoc]
  linarith

/-- C88: the pixel that an orthographic camera computes for an `f64` point is finite, and within the image of
`3e-14 M` units of the exact projection. -/
theorem c88_f64_world_to_pixel (g : GoodParallel M o) (hM1 : 1 ≤ M) (hM2 : M ≤ 2 ^ 20) (w : Points WorldFrame (F64 lib) 1)
    (hw : ∀ a, Flt.Bounded (f := .b64) M (w.data 0 a)) (hx : x = (RustFloat.rounding .b64 lib).vec (w.data 0))
    (hp : o.pixel = o.camera.worldToPixel w) : MeasuredParallel (3 / 10 ^ 14) M x o := by
  set fl := RustFloat.rounding .b64 lib with hfl
  have eu : fl.u = 1 / 2 ^ 53 := Format.u_b64
  have hω : fl.ω ≤ 1 / 10 ^ 100 := Format.ω_b64
  have hω0 := fl.ω_nonneg
  have hX : o.position x = ((fromRotationAndCamcenter (fl.quat o.rotation) (fl.vec o.camcenter)).worldToCamera
      ⟨fun i => fl.vec (w.data i)⟩).data 0 := by
    rw [hx]; rfl
  have hxM : ∀ a, |x a| ≤ M := fun a => by rw [hx]; exact (hw a).2
  have k8 : ((1 : ℝ) + 1 / 2 ^ 53) ^ 8 - 1 ≤ 89 / 10 ^ 17 := by norm_num
  have k8' : 0 ≤ ((1 : ℝ) + 1 / 2 ^ 53) ^ 8 - 1 := by norm_num
  have k2 : ((1 : ℝ) + 1 / 2 ^ 53) ^ 2 - 1 ≤ 3 / 10 ^ 16 := by norm_num
  have k2' : 0 ≤ ((1 : ℝ) + 1 / 2 ^ 53) ^ 2 - 1 := by norm_num
  have hwc := c77_world_to_camera (k := 20) (RustFloat.range .b64 lib) (g.rotation.inRange (by norm_num))
    (fun a => (g.center a).inRange hM2) w 0 (fun a => (hw a).inRange hM2) (by show _ ≤ 1023; norm_num)
  have hfin := c77_orthographic_camera_to_pixel (m := 50) (k := 28) (RustFloat.range .b64 lib) o.params
    (fun y hy => (g.params y hy).inRange le_rfl)
    ((fromRotationAndCamcenter o.rotation o.camcenter).worldToCamera w) 0 hwc (by show _ ≤ 1023; norm_num)
  obtain ⟨q1, q2, q3, q4⟩ := g.rotation.comps
  have hQ : (1 : ℝ) + 1 / 10 ^ 15 ≤ 1001 / 1000 := by norm_num
  have hδM : (((1 : ℝ) + fl.u) ^ 8 - 1) *
      ((24 * (1001 / 1000 : ℝ) ^ 2 + 1) * M + fl.ω * (18 * M + 15 * (1001 / 1000) + 6)) ≤ 23 / 10 ^ 15 * M := by
    rw [eu]
    have : (((1 : ℝ) + 1 / 2 ^ 53) ^ 8 - 1) *
      ((24 * (1001 / 1000 : ℝ) ^ 2 + 1) * M + fl.ω * (18 * M + 15 * (1001 / 1000) + 6)) ≤
        89 / 10 ^ 17 * ((24 * (1001 / 1000 : ℝ) ^ 2 + 1) * M + 1 / 10 ^ 100 * (18 * M + 15 * (1001 / 1000) + 6)) := by gcongr
    refine this.trans ?_
    norm_num
    linarith
  have herr := fun a => c47_world_to_camera fl o.rotation o.camcenter (1001 / 1000) M (q1.trans hQ) (q2.trans hQ)
    (q3.trans hQ) (q4.trans hQ) (fun a => (g.center a).2) w 0 (fun a => (hw a).2) a (hwc a).1
  rw [← hX] at herr
  have ep : o.pixel = (IntrinsicParametersOrthographic.ofParams o.params).cameraToPixel
    ((fromRotationAndCamcenter o.rotation o.camcenter).worldToCamera w) := hp
  obtain ⟨pu, pv⟩ := c48_orthographic fl o.params ((fromRotationAndCamcenter o.rotation o.camcenter).worldToCamera w) 0
    _ _ rfl rfl
  have pu := pu (hfin 0).1
  have pv := pv (hfin 1).1
  rw [← ep] at hfin pu pv
  rw [eu] at pu pv
  exact ⟨fun a => (hfin a).1,
    computed_offset g.sx hM1 g.cx (g.position_le hxM 0) (herr 0) hδM hω k2 k2' rfl pu,
    computed_offset g.sy hM1 g.cy (g.position_le hxM 1) (herr 1) hδM hω k2 k2' rfl pv⟩

/-- C88: the round trip from a pixel to a point on its ray and back: finite, and within the image of `2e-10 M` units
of the pixel. -/
theorem c88_f64_roundtrip (g : GoodParallel M o) (hM1 : 1 ≤ M) (hM2 : M ≤ 2 ^ 20)
    (hf : ∀ a, Flt.isFinite (f := .b64) (o.pixel.data 0 a)) (s t : F64 lib) (a : Fin 2)
    (hs : s = ![o.params.sx, o.params.sy] a) (ht : t = ![o.params.cx, o.params.cy] a)
    (hu : |Flt.val (f := .b64) (o.pixel.data 0 0)| ≤ 15 * M * |Flt.val (f := .b64) o.params.sx|)
    (hv : |Flt.val (f := .b64) (o.pixel.data 0 1)| ≤ 15 * M * |Flt.val (f := .b64) o.params.sy|) :
    Flt.isFinite (f := .b64) ((o.camera.worldToPixel (o.camera.pixelToWorld o.pixel).pointOnRay).data 0 a) ∧
    |Flt.val (f := .b64) ((o.camera.worldToPixel (o.camera.pixelToWorld o.pixel).pointOnRay).data 0 a) -
      Flt.val (f := .b64) (o.pixel.data 0 a)| ≤ 2 / 10 ^ 10 * M * |Flt.val (f := .b64) s| := by
  set fl := RustFloat.rounding .b64 lib with hfl
  have eu : fl.u = 1 / 2 ^ 53 := Format.u_b64
  have hω : fl.ω ≤ 1 / 10 ^ 100 := Format.ω_b64
  have hω0 := fl.ω_nonneg
  have hM0 : 0 ≤ M := by linarith
  have k2 : ((1 : ℝ) + 1 / 2 ^ 53) ^ 2 - 1 ≤ 3 / 10 ^ 16 := by norm_num
  have k2' : 0 ≤ ((1 : ℝ) + 1 / 2 ^ 53) ^ 2 - 1 := by norm_num
  have s1 : 0 < |fl.val o.params.sx| := lt_of_lt_of_le (by positivity) g.sx
  have s2 : 0 < |fl.val o.params.sy| := lt_of_lt_of_le (by positivity) g.sy
  have big : ∀ {v s : ℝ}, |v| ≤ 15 * M * |s| → |s| ≤ 2 ^ 20 → |v| ≤ 2 ^ 50 := by
    intro v s h1 h2
    refine h1.trans ((mul_le_mul (mul_le_mul_of_nonneg_left hM2 (by norm_num)) h2 (abs_nonneg _) (by norm_num)).trans ?_)
    norm_num
  have hpx : ∀ a, InRange fl 50 (o.pixel.data 0 a) := by
    intro a
    refine ⟨hf a, ?_⟩
    fin_cases a
    · exact big hu g.sx_le
    · exact big hv g.sy_le
  have hfin : ∀ a, fl.isFinite (o.origin a) := fun a =>
    (c77_orthographic_pixel_to_camera (m := 50) (l := 20) (RustFloat.range Format.b64 lib) o.params
      (fun y hy => (g.params y hy).inRange le_rfl) g.sx g.sy o.pixel 0 hpx (by show _ ≤ 1023; norm_num) a).1
  obtain ⟨d0, d1, d2⟩ := c48_orthographic_origin fl o.params o.pixel 0
  have d0 := d0 (g.params o.params.sx (by simp)).1 (hfin 0)
  have d1 := d1 (g.params o.params.sy (by simp)).1 (hfin 1)
  rw [eu] at d0 d1
  have size : ∀ {d v c s : ℝ}, 0 < |s| → |v| ≤ 15 * M * |s| → |c| ≤ 10 * M * |s| →
      |d - (v - c) / s| ≤ (((1 : ℝ) + 1 / 2 ^ 53) ^ 2 - 1) * ((|v| + |c|) / |s| + fl.ω) → |d| ≤ 26 * M := by
    intro d v c s h1 h2 h3 h4
    have e1 : (|v| + |c|) / |s| ≤ 25 * M := by
      rw [div_le_iff₀ h1]; linarith
    have e2 : |(v - c) / s| ≤ 25 * M := by
      rw [abs_div]
      exact (div_le_div_of_nonneg_right (abs_sub v c) h1.le).trans e1
    have e3 := abs_sub_abs_le_abs_sub d ((v - c) / s)
    have e4 : (((1 : ℝ) + 1 / 2 ^ 53) ^ 2 - 1) * ((|v| + |c|) / |s| + fl.ω) ≤ 3 / 10 ^ 16 * (25 * M + 1 / 10 ^ 100) :=
      mul_le_mul k2 (by linarith) (add_nonneg (div_nonneg (add_nonneg (abs_nonneg _) (abs_nonneg _)) h1.le) hω0) (by norm_num)
    have e5 : 3 / 10 ^ 16 * (25 * M + 1 / 10 ^ 100) ≤ M := by norm_num; linarith
    linarith
  have hd : ∀ a, |fl.val (o.origin a)| ≤ 26 * M := by
    intro a
    fin_cases a
    · exact size s1 hu g.cx d0
    · exact size s2 hv g.cy d1
    · show |fl.val (o.origin 2)| ≤ 26 * M
      rw [show fl.val (o.origin 2) = 0 from d2, abs_zero]
      linarith
  have hq : |quatNormSq (fl.quat o.rotation) - 1| ≤ 1 / 10 ^ 15 := g.rotation.quatNormSq
  have fin := (c77_orthographic_roundtrip (m := 50) (k := 25) (RustFloat.range .b64 lib) o.params
    (fun y hy => (g.params y hy).inRange le_rfl) (g.rotation.inRange (by norm_num))
    (fun a => (g.center a).inRange (hM2.trans (by norm_num))) o.pixel 0
    (fun a => ⟨hfin a, (hd a).trans (le_trans (mul_le_mul_of_nonneg_left hM2 (by norm_num)) (by norm_num))⟩)
    o.camera rfl (by show _ ≤ 1023; norm_num) a).1
  refine ⟨fin, ?_⟩
  have main := c67_orthographic fl o.params o.rotation o.camcenter (1 / 10 ^ 15) (26 * M) hq
    (fun a => (g.center a).2.trans (by linarith)) o.pixel 0 hd (by linarith) o.camera rfl _ rfl a s t hs ht fin
  have hb := c67_f64_bound hω0 hω (ε := 1 / 10 ^ 15) (M := 26 * M) (by positivity) le_rfl (by linarith)
  rw [eu] at main
  set δ := tripBound (1 / 2 ^ 53) fl.ω (1 / 10 ^ 15) (26 * M) with hδ
  have sa : 1 / 2 ^ 20 ≤ |fl.val s| := by
    subst hs; fin_cases a
    · exact g.sx
    · exact g.sy
  have ta : |fl.val t| ≤ 10 * M * |fl.val s| := by
    subst hs ht; fin_cases a
    · exact g.cx
    · exact g.cy
  have pa : |fl.val (o.pixel.data 0 a)| ≤ 15 * M * |fl.val s| := by
    subst hs; fin_cases a
    · exact hu
    · exact hv
  refine main.trans ?_
  show _ ≤ 2 / 10 ^ 10 * M * |fl.val s|
  generalize |fl.val s| = S at *
  generalize |fl.val t| = T at *
  generalize |fl.val (o.pixel.data 0 a)| = P at *
  have S0 : 0 < S := lt_of_lt_of_le (by positivity) sa
  have MS : S ≤ M * S := le_mul_of_one_le_left S0.le hM1
  have b1 : δ * S ≤ 182 / 10 ^ 12 * (M * S) :=
    (mul_le_mul_of_nonneg_right hb S0.le).trans (le_of_eq (by ring))
  have b2 : (26 * M + δ + fl.ω) * S ≤ 27 * (M * S) := by
    have : 26 * M + δ + fl.ω ≤ 27 * M := by
      norm_num at hb hω
      linarith
    exact (mul_le_mul_of_nonneg_right this S0.le).trans (le_of_eq (by ring))
  have b3 : (26 * M + δ + fl.ω) * S + P + 2 * T + fl.ω ≤ 63 * (M * S) := by
    rw [mul_assoc] at ta pa
    linarith
  have b4 : (((1 : ℝ) + 1 / 2 ^ 53) ^ 2 - 1) * ((26 * M + δ + fl.ω) * S + P + 2 * T + fl.ω) ≤ 3 / 10 ^ 16 * (63 * (M * S)) :=
    (mul_le_mul_of_nonneg_left b3 k2').trans (mul_le_mul_of_nonneg_right k2 (by linarith))
  rw [mul_assoc]
  linarith

/-! ### Cameras of both kinds -/

/-- A camera of either kind and a pixel. -/
inductive View (R : Type) where
  | perspective (o : Observation R)
  | orthographic (o : ParallelView R)

/-- The ray the crate computes for the pixel. -/
def View.ray {R : Type} [Scalar R] : View R → Ray WorldFrame R
  | .perspective o => o.ray
  | .orthographic o => o.ray

/-- The direction in which the camera sees the point. -/
noncomputable def View.sight {f : Format} {lib : Libm f} (x : Vec) : View (RustFloat f lib) → Vec
  | .perspective o => x - o.center
  | .orthographic o => o.axis

/-- The cameras covered. -/
def View.Good (M : ℝ) (x : Vec) : View (F64 lib) → Prop
  | .perspective o => GoodView M x o
  | .orthographic o => GoodParallel M o

/-- The pixel is near the projection of the point. -/
def View.Measured {f : Format} {lib : Libm f} (σ M : ℝ) (x : Vec) : View (RustFloat f lib) → Prop
  | .perspective o => CamGeom.Measured σ x o
  | .orthographic o => MeasuredParallel σ M x o

/-- The pixel is the one `world_to_pixel` computes for the point. -/
def View.Computed {R : Type} [Scalar R] (w : Points WorldFrame R 1) : View R → Prop
  | .perspective o => o.pixel = (Camera.mk (IntrinsicParametersPerspective.ofParams o.params)
      (fromRotationAndCamcenter o.rotation o.camcenter)).worldToPixel w
  | .orthographic o => o.pixel = (Camera.mk (IntrinsicParametersOrthographic.ofParams o.params)
      (fromRotationAndCamcenter o.rotation o.camcenter)).worldToPixel w

theorem View.Measured.facts {o : View (F64 lib)} (h : o.Measured σ M x) (g : o.Good M x) (hσ : σ ≤ 1 / 100)
    (hM1 : 1 ≤ M) (hM2 : M ≤ 2 ^ 20) (hx : ∀ a, |x a| ≤ M) (r : Ray WorldFrame ℝ)
    (hr : r = vray (RustFloat.rounding .b64 lib) o.ray) :
    0 ≤ σ ∧ SafeRay (RustFloat.rounding .b64 lib) 500 o.ray ∧ (∀ a, |r.center a| ≤ 6 * M) ∧
    o.sight x ≠ 0 ∧ r.direction ≠ 0 ∧
      (∃ Z : ℝ, distance x (r.center + Z • r.direction) ≤ (13 * σ + 2 / 10 ^ 12) * M) ∧
      ∃ Z : ℝ, Z ≠ 0 ∧ len (Z • r.direction - o.sight x) ≤ (31 / 10 * σ + 2 / 10 ^ 10) * len (o.sight x) := by
  cases o with
  | perspective o =>
    have hσ0 := CamGeom.Measured.nonneg h g
    obtain ⟨h1, h2, h3, h4, Z, h5, h6, h7⟩ := CamGeom.Measured.ray h g hσ hM1 hM2 hx r hr
    exact ⟨hσ0, h1, fun a => (h2 a).trans (by norm_num; linarith), h3, h4, ⟨Z, h6⟩, Z, h5, h7⟩
  | orthographic o =>
    have hσ0 := MeasuredParallel.nonneg h g hM1
    obtain ⟨h1, h2, h3, h4, h5, h6⟩ := MeasuredParallel.ray h g hσ hM1 hM2 hx r hr
    refine ⟨hσ0, h1, h2, h3, h4, ⟨_, h5⟩, 1, one_ne_zero, ?_⟩
    rw [one_smul]
    exact h6.trans (mul_le_mul_of_nonneg_right (by norm_num; linarith) (len_nonneg _))

/-- C88: a point seen by several `f64` cameras, perspective and orthographic, is recovered from measured pixels.  Two
of the cameras see it at the angle `θ`; `κ = 1 - |cos θ| - 13 σ - 1.5e-6 N`, `ρ = (13 σ + 2e-12) M √(N / κ)`: the
point found is within `ρ + 1.6e-6 N / κ * (6 M + |x| + ρ)` of the true one. -/
theorem c88_f64_measured {lib' : Libm Format.b64} {os : List (View (F64 lib))} (h2 : 2 ≤ os.length)
    (hM1 : 1 ≤ M) (hM2 : M ≤ 2 ^ 20) (hσ : σ ≤ 1 / 100) (hx : ∀ a, |x a| ≤ M)
    (hg : ∀ o ∈ os, o.Good M x) (hm : ∀ o ∈ os, o.Measured σ M x)
    {a b : View (F64 lib)} (ha : a ∈ os) (hb : b ∈ os) {κ ρ : ℝ}
    (hκ : κ = 1 - absCos (a.sight x) (b.sight x) - 13 * σ - 15 / 10000000 * os.length)
    (hκ0 : 101 / 1000000000 < κ) (hρ : ρ = (13 * σ + 2 / 10 ^ 12) * M * √(os.length / κ)) :
    ∃ pt, bestIntersectionOfRays (Svd3.svd : TrySvd (F64 lib')) (os.map View.ray) = .ok pt ∧
      (∀ j, Flt.isFinite (f := .b64) (pt.data 0 j)) ∧
      distance (fun j => Flt.val (f := .b64) (pt.data 0 j)) x ≤
        ρ + 16 / 10000000 * os.length / κ * (6 * M + (len x + ρ)) := by
  set fl := RustFloat.rounding .b64 lib with hfl
  have hN : (2 : ℝ) ≤ os.length := by exact_mod_cast h2
  have hR : ∀ o (ho : o ∈ os), _ := fun o ho => (hm o ho).facts (hg o ho) hσ hM1 hM2 hx _ rfl
  have hlen : (os.map View.ray).length = os.length := List.length_map ..
  obtain ⟨hσ0, -, -, na, da, -, Za, za, la⟩ := hR a ha
  obtain ⟨-, -, -, nb, db, -, Zb, zb, lb⟩ := hR b hb
  have hcos := absCos_near na nb (smul_ne_zero za da) (smul_ne_zero zb db) la lb
  rw [absCos_smul za zb] at hcos
  set c := absCos (vray fl a.ray).direction (vray fl b.ray).direction with hc
  have τ0 : 0 ≤ (13 * σ + 2 / 10 ^ 12) * M := mul_nonneg (by linarith [show (0 : ℝ) ≤ 2 / 10 ^ 12 by norm_num]) (by linarith)
  have hκ' : κ ≤ 1 - c - 14 / 10000000 * os.length := by
    rw [hκ]
    norm_num at hcos
    linarith
  obtain ⟨pt, p1, p2, p3⟩ := c84_f64_near_point (lib' := lib') (rays := os.map View.ray) (by rw [hlen]; exact h2)
    (fun r hr => by
      obtain ⟨o, ho, rfl⟩ := List.mem_map.1 hr
      exact (hR o ho).2.1)
    (M := 6 * M) (le_trans (by rw [div_le_one (by positivity)]; exact one_le_pow₀ (by norm_num)) (hM1.trans (by linarith)))
    (fun r hr i => by
      obtain ⟨o, ho, rfl⟩ := List.mem_map.1 hr
      exact (hR o ho).2.2.1 i)
    (List.mem_map_of_mem ha) (List.mem_map_of_mem hb) hc (κ := 1 - c - 14 / 10000000 * os.length) (by rw [hlen])
    (by linarith) (x := x) (τ := (13 * σ + 2 / 10 ^ 12) * M) (fun r hr => by
      obtain ⟨o, ho, rfl⟩ := List.mem_map.1 hr
      obtain ⟨-, -, -, -, -, ⟨Z, h⟩, -⟩ := hR o ho
      exact (distTo_le (show _ ∈ line _ _ from ⟨Z, rfl⟩)).trans h) rfl
  refine ⟨pt, p1, p2, p3.trans ?_⟩
  rw [hlen]
  have κ0 : 0 < κ := by linarith
  have l0 := len_nonneg x
  have r1 : (13 * σ + 2 / 10 ^ 12) * M * √(os.length / (1 - c)) ≤ ρ := by
    rw [hρ]
    refine mul_le_mul_of_nonneg_left (Real.sqrt_le_sqrt ?_) τ0
    exact div_le_div_of_nonneg_left (by linarith) κ0 (by linarith)
  have r0 : 0 ≤ (13 * σ + 2 / 10 ^ 12) * M * √(os.length / (1 - c)) := mul_nonneg τ0 (Real.sqrt_nonneg _)
  have r2 : 16 / 10000000 * (os.length : ℝ) / (1 - c - 14 / 10000000 * os.length) ≤ 16 / 10000000 * os.length / κ :=
    div_le_div_of_nonneg_left (by linarith) κ0 hκ'
  refine add_le_add r1 (mul_le_mul r2 (by linarith) (by linarith) (div_nonneg (by linarith) κ0.le))

/-- C88 for pixels computed by the crate: within `1.7e-6 N / (1 - |cos θ| - 1.6e-6 N) * (6 M + |x|)`. -/
theorem c88_f64_triangulation {lib' : Libm Format.b64} {os : List (View (F64 lib))} (h2 : 2 ≤ os.length)
    (hM1 : 1 ≤ M) (hM2 : M ≤ 2 ^ 20) (w : Points WorldFrame (F64 lib) 1)
    (hw : ∀ a, Flt.Bounded (f := .b64) M (w.data 0 a)) (hx : x = (RustFloat.rounding .b64 lib).vec (w.data 0))
    (hg : ∀ o ∈ os, o.Good M x) (hp : ∀ o ∈ os, o.Computed w)
    {a b : View (F64 lib)} (ha : a ∈ os) (hb : b ∈ os) {κ : ℝ}
    (hκ : κ = 1 - absCos (a.sight x) (b.sight x) - 16 / 10000000 * os.length)
    (hκ0 : 101 / 1000000000 < κ) :
    ∃ pt, bestIntersectionOfRays (Svd3.svd : TrySvd (F64 lib')) (os.map View.ray) = .ok pt ∧
      (∀ j, Flt.isFinite (f := .b64) (pt.data 0 j)) ∧
      distance (fun j => Flt.val (f := .b64) (pt.data 0 j)) x ≤ 17 / 10000000 * os.length / κ * (6 * M + len x) := by
  have hN : (2 : ℝ) ≤ os.length := by exact_mod_cast h2
  have hcos : 0 ≤ absCos (a.sight x) (b.sight x) :=
    div_nonneg (abs_nonneg _) (mul_nonneg (len_nonneg _) (len_nonneg _))
  have hm : ∀ o ∈ os, o.Measured (11 / 10 ^ 11) M x := by
    intro o ho
    have g := hg o ho
    have p := hp o ho
    cases o with
    | perspective o => exact computed_measured g (by norm_num) hM1 hM2 w hw hx p
    | orthographic o =>
      have := c88_f64_world_to_pixel g hM1 hM2 w hw hx p
      have m : ∀ {s : ℝ}, 0 ≤ s → 3 / 10 ^ 14 * M * s ≤ 11 / 10 ^ 11 * M * s := fun hs =>
        mul_le_mul_of_nonneg_right (mul_le_mul_of_nonneg_right (by norm_num) (by linarith)) hs
      exact ⟨this.finite, this.u.trans (m (abs_nonneg _)), this.v.trans (m (abs_nonneg _))⟩
  obtain ⟨pt, p1, p2, p3⟩ := c88_f64_measured (lib' := lib') (σ := 11 / 10 ^ 11) h2 hM1 hM2 (by norm_num)
    (fun a => by rw [hx]; exact (hw a).2) hg hm ha hb
    rfl (by norm_num at hκ hκ0 ⊢; linarith) rfl
  refine ⟨pt, p1, p2, p3.trans ?_⟩
  generalize hk : 1 - absCos (a.sight x) (b.sight x) - 13 * (11 / 10 ^ 11) - 15 / 10000000 * (os.length : ℝ) = κ'
  have hkk : κ ≤ κ' := by rw [← hk, hκ]; norm_num; linarith
  have κ0 : 0 < κ := by linarith
  have t1 : (os.length : ℝ) / κ' ≤ os.length / κ := div_le_div_of_nonneg_left (by linarith) κ0 hkk
  have t2 : 1 ≤ (os.length : ℝ) / κ := by rw [one_le_div κ0]; linarith
  have t3 : (os.length : ℝ) / κ ≤ (2500000 : ℝ) ^ 2 := by
    rw [div_le_iff₀ κ0]; norm_num; linarith
  have t4 : √(os.length / κ') ≤ os.length / κ := by
    refine (Real.sqrt_le_sqrt t1).trans ?_
    rw [Real.sqrt_le_left (by linarith)]
    nlinarith
  have t5 : √(os.length / κ') ≤ 2500000 := Real.sqrt_le_left (by norm_num) |>.2 (t1.trans t3)
  have t0 := Real.sqrt_nonneg (os.length / κ')
  generalize √(os.length / κ') = s at *
  have l0 := len_nonneg x
  have r1 : (13 * (11 / 10 ^ 11) + 2 / 10 ^ 12) * M * s ≤ 144 / 10 ^ 11 * (os.length / κ * M) := by
    have := mul_le_mul_of_nonneg_right t4 (show 0 ≤ M by linarith)
    have u0 := mul_nonneg t0 (show 0 ≤ M by linarith)
    norm_num at this u0 ⊢
    linarith
  have r2 : (13 * (11 / 10 ^ 11) + 2 / 10 ^ 12) * M * s ≤ 1 / 100 * M := by
    have := mul_le_mul_of_nonneg_right t5 (show 0 ≤ M by linarith)
    norm_num at this ⊢
    linarith
  have r3 := mul_le_mul t1 (show 6 * M + (len x + (13 * (11 / 10 ^ 11) + 2 / 10 ^ 12) * M * s) ≤
    101 / 100 * (6 * M + len x) by linarith) (by positivity) (by linarith)
  have r4 : (os.length : ℝ) / κ * M ≤ os.length / κ * (6 * M + len x) := mul_le_mul_of_nonneg_left (by linarith) (by linarith)
  have r5 := mul_nonneg (show 0 ≤ (os.length : ℝ) / κ by linarith) (show 0 ≤ 6 * M + len x by linarith)
  have r6 : (13 * (11 / 10 ^ 11) + 2 / 10 ^ 12) * M * s + 16 / 10000000 * ((os.length : ℝ) / κ' *
      (6 * M + (len x + (13 * (11 / 10 ^ 11) + 2 / 10 ^ 12) * M * s))) ≤ 17 / 10000000 * (os.length / κ * (6 * M + len x)) := by
    rw [show (os.length : ℝ) / κ * (101 / 100 * (6 * M + len x)) = 101 / 100 * (os.length / κ * (6 * M + len x)) by ring] at r3
    norm_num at r1 r3 r5 ⊢
    linarith
  exact le_of_eq_of_le (by ring) (r6.trans (le_of_eq (by ring)))

/-! ### A concrete pair of cameras -/

/-- Scales 1, image centre (1, 0), no rotation, centre (0, 0, 0), pixel `(p, 0)`. -/
noncomputable def sampleParallel (lib : Libm Format.b64) (p : Fin 10) : ParallelView (F64 lib) where
  params := ⟨digit lib 1, digit lib 1, digit lib 1, digit lib 0⟩
  rotation := ⟨digit lib 1, digit lib 0, digit lib 0, digit lib 0⟩
  camcenter := ![digit lib 0, digit lib 0, digit lib 0]
  pixel := ⟨fun _ => ![digit lib p, digit lib 0]⟩

theorem sampleParallel_quat (p : Fin 10) :
    (RustFloat.rounding .b64 lib).quat (sampleParallel lib p).rotation = ⟨1, 0, 0, 0⟩ := by
  have h0 : Flt.val (f := .b64) (digit lib 0) = 0 := (val_digit lib _).trans (by norm_num)
  have h1 : Flt.val (f := .b64) (digit lib 1) = 1 := (val_digit lib _).trans (by norm_num)
  show Quat.mk (Flt.val (f := .b64) (digit lib 1)) (Flt.val (f := .b64) (digit lib 0))
    (Flt.val (f := .b64) (digit lib 0)) (Flt.val (f := .b64) (digit lib 0)) = _
  rw [h0, h1]

theorem sampleParallel_position (p : Fin 10) (x : Vec) : (sampleParallel lib p).position x = x :=
  (sampleView_position (lib := lib) 0 0 x).trans (by
    funext j; fin_cases j <;> simp)

theorem sampleParallel_axis (p : Fin 10) : (sampleParallel lib p).axis = ![0, 0, 1] := by
  unfold ParallelView.axis
  rw [sampleParallel_quat]
  funext j
  fin_cases j <;> simp [Quat.toRotationMatrix]

theorem sampleParallel_good (p : Fin 10) : GoodParallel 8 (sampleParallel lib p) := by
  have b : ∀ (k : Fin 10) {B : ℝ}, ((k : ℕ) : ℝ) ≤ B → Flt.Bounded (f := .b64) B (digit lib k) := fun k B hk =>
    ⟨trivial, by rw [val_digit lib, abs_of_nonneg (Nat.cast_nonneg _)]; exact hk⟩
  have v1 : Flt.val (f := .b64) (digit lib 1) = 1 := (val_digit lib _).trans (by norm_num)
  have v0 : Flt.val (f := .b64) (digit lib 0) = 0 := (val_digit lib _).trans (by norm_num)
  have e1 : Flt.val (f := .b64) (sampleParallel lib p).params.sx = 1 := v1
  have e2 : Flt.val (f := .b64) (sampleParallel lib p).params.sy = 1 := v1
  have e3 : Flt.val (f := .b64) (sampleParallel lib p).params.cx = 1 := v1
  have e4 : Flt.val (f := .b64) (sampleParallel lib p).params.cy = 0 := v0
  refine ⟨⟨trivial, trivial, trivial, trivial, ?_⟩, ?_, ?_, ?_, ?_, ?_, ?_, ?_, ?_⟩
  · show |Flt.val (f := .b64) (digit lib 1) ^ 2 + Flt.val (f := .b64) (digit lib 0) ^ 2 +
      Flt.val (f := .b64) (digit lib 0) ^ 2 + Flt.val (f := .b64) (digit lib 0) ^ 2 - 1| ≤ _
    rw [v1, v0]
    norm_num
  · intro a
    fin_cases a <;> exact b 0 (by norm_num)
  · intro y hy
    simp only [List.mem_cons, List.not_mem_nil, or_false] at hy
    rcases hy with rfl | rfl | rfl | rfl
    · exact b 1 (by norm_num)
    · exact b 1 (by norm_num)
    · exact b 1 (by norm_num)
    · exact b 0 (by norm_num)
  · rw [e1]; norm_num
  · rw [e2]; norm_num
  · rw [e1]; norm_num
  · rw [e2]; norm_num
  · rw [e1, e3]; norm_num
  · rw [e2, e4]; norm_num

/-- The pixel (5, 0) is the image of (4, 0, 4). -/
theorem sampleParallel_measured : MeasuredParallel (1 / 1000) 8 ![4, 0, 4] (sampleParallel lib 5) := by
  have v1 : Flt.val (f := .b64) (digit lib 1) = 1 := (val_digit lib _).trans (by norm_num)
  have v0 : Flt.val (f := .b64) (digit lib 0) = 0 := (val_digit lib _).trans (by norm_num)
  have v5 : Flt.val (f := .b64) (digit lib 5) = 5 := (val_digit lib _).trans (by norm_num)
  have e1 : Flt.val (f := .b64) (sampleParallel lib 5).params.sx = 1 := v1
  have e2 : Flt.val (f := .b64) (sampleParallel lib 5).params.sy = 1 := v1
  have e3 : Flt.val (f := .b64) (sampleParallel lib 5).params.cx = 1 := v1
  have e4 : Flt.val (f := .b64) (sampleParallel lib 5).params.cy = 0 := v0
  have e5 : Flt.val (f := .b64) ((sampleParallel lib 5).pixel.data 0 0) = 5 := v5
  have e6 : Flt.val (f := .b64) ((sampleParallel lib 5).pixel.data 0 1) = 0 := v0
  refine ⟨fun a => ?_, ?_, ?_⟩
  · fin_cases a <;> exact trivial
  · rw [ParallelView.projection, e1, e2, e3, e4, e5, sampleParallel_position]
    norm_num [Spec.orthographic]
  · rw [ParallelView.projection, e1, e2, e3, e4, e6, sampleParallel_position]
    norm_num [Spec.orthographic]

theorem sampleParallel_angle :
    absCos ((View.perspective (sampleView lib 0 2)).sight ![4, 0, 4])
      ((View.orthographic (sampleParallel lib 5)).sight ![4, 0, 4]) ≤ 3 / 4 := by
  show absCos (![4, 0, 4] - (sampleView lib 0 2).center) (sampleParallel lib 5).axis ≤ 3 / 4
  rw [sampleView_center, sampleParallel_axis, absCos, vec3_dotProduct]
  have e : (![4, 0, 4] - ![(((0 : Fin 10) : ℕ) : ℝ), 0, 0] : Vec) = ![4, 0, 4] := by
    funext j; fin_cases j <;> simp
  have l1 : len ![(0 : ℝ), 0, 1] = 1 := by simp [len, Fin.sum_univ_three]
  have l2 : 16 / 3 ≤ len ![(4 : ℝ), 0, 4] := by
    rw [len]
    refine Real.le_sqrt_of_sq_le ?_
    simp [Fin.sum_univ_three]
    norm_num
  rw [e, l1, _root_.mul_one]
  rw [div_le_iff₀ (by linarith)]
  simp only [Matrix.cons_val]
  norm_num
  linarith

/-- Non-vacuity of C88: a perspective and an orthographic camera see the point (4, 0, 4). -/
example {lib' : Libm Format.b64} :
    ∃ pt, bestIntersectionOfRays (Svd3.svd : TrySvd (F64 lib'))
        [(sampleView lib 0 2).ray, (sampleParallel lib 5).ray] = .ok pt ∧
      (∀ j, Flt.isFinite (f := .b64) (pt.data 0 j)) ∧
      distance (fun j => Flt.val (f := .b64) (pt.data 0 j)) ![4, 0, 4] ≤ 1 / 3 := by
  have ang := sampleParallel_angle (lib := lib)
  obtain ⟨pt, p1, p2, p3⟩ := c88_f64_measured (lib' := lib')
    (os := [.perspective (sampleView lib 0 2), .orthographic (sampleParallel lib 5)])
    (M := 8) (σ := 1 / 1000) (x := ![4, 0, 4]) (by simp) (by norm_num) (by norm_num) (by norm_num)
    (fun a => by fin_cases a <;> norm_num)
    (fun o ho => by
      simp only [List.mem_cons, List.not_mem_nil, or_false] at ho
      rcases ho with rfl | rfl
      · exact sampleView_good 0 2 (Or.inl rfl)
      · exact sampleParallel_good 5)
    (fun o ho => by
      simp only [List.mem_cons, List.not_mem_nil, or_false] at ho
      rcases ho with rfl | rfl
      · exact sampleView_measured (Or.inl ⟨rfl, rfl⟩)
      · exact sampleParallel_measured)
    (a := .perspective (sampleView lib 0 2)) (b := .orthographic (sampleParallel lib 5)) (by simp) (by simp) rfl
    (by
      simp only [List.length_cons, List.length_nil]
      norm_num
      linarith) rfl
  refine ⟨pt, p1, p2, p3.trans ?_⟩
  have l : len ![(4 : ℝ), 0, 4] ≤ 2 * 4 := len_le_entries fun a => by fin_cases a <;> norm_num
  have l0 := len_nonneg ![(4 : ℝ), 0, 4]
  have n : (([.perspective (sampleView lib 0 2), .orthographic (sampleParallel lib 5)] :
    List (View (F64 lib))).length : ℝ) = 2 := by simp
  rw [n]
  generalize hk : (1 : ℝ) - absCos ((View.perspective (sampleView lib 0 2)).sight ![4, 0, 4])
    ((View.orthographic (sampleParallel lib 5)).sight ![4, 0, 4]) - 13 * (1 / 1000) - 15 / 10000000 * 2 = κ
  have hκ : 23 / 100 ≤ κ := by rw [← hk]; norm_num; linarith
  have hκ0 : 0 < κ := by linarith
  have q1 : 2 / κ ≤ 9 := by rw [div_le_iff₀ hκ0]; linarith
  have q : √(2 / κ) ≤ 3 := by
    rw [Real.sqrt_le_left (by norm_num)]
    linarith
  have q0 := Real.sqrt_nonneg (2 / κ)
  generalize √(2 / κ) = s at *
  have q2 : 16 / 10000000 * 2 / κ ≤ 144 / 10000000 := by rw [mul_div_assoc]; linarith
  refine (add_le_add (mul_le_mul_of_nonneg_left q (by norm_num)) (mul_le_mul q2 (add_le_add_right
    (add_le_add l (mul_le_mul_of_nonneg_left q (by norm_num))) _) (by norm_num; positivity) (by norm_num))).trans ?_
  norm_num

/-- Non-vacuity of C88 for computed pixels: the camera above sees the point (4, 0, 4). -/
example (w : Points WorldFrame (F64 lib) 1) (hw : w = ⟨fun _ => ![digit lib 4, digit lib 0, digit lib 4]⟩)
    (o : ParallelView (F64 lib)) (ho : o = { sampleParallel lib 0 with pixel := (sampleParallel lib 0).camera.worldToPixel w }) :
    |Flt.val (f := .b64) (o.pixel.data 0 0) - 5| ≤ 1 / 10 ^ 12 := by
  have b : ∀ (k : Fin 10) {B : ℝ}, ((k : ℕ) : ℝ) ≤ B → Flt.Bounded (f := .b64) B (digit lib k) := fun k B hk =>
    ⟨trivial, by rw [val_digit lib, abs_of_nonneg (Nat.cast_nonneg _)]; exact hk⟩
  have hx : ![4, 0, 4] = (RustFloat.rounding .b64 lib).vec (w.data 0) := by
    rw [hw]
    funext j
    fin_cases j
    · exact ((val_digit lib 4).trans (by norm_num)).symm
    · exact ((val_digit lib 0).trans (by norm_num)).symm
    · exact ((val_digit lib 4).trans (by norm_num)).symm
  have h := c88_f64_world_to_pixel (o := o) (M := 8) (x := ![4, 0, 4])
    (by rw [ho]; exact { sampleParallel_good 0 with }) (by norm_num) (by norm_num) w
    (fun j => by
      rw [hw]
      fin_cases j
      · exact b 4 (by norm_num)
      · exact b 0 (by norm_num)
      · exact b 4 (by norm_num)) hx (by rw [ho]; rfl)
  have v1 : Flt.val (f := .b64) (digit lib 1) = 1 := (val_digit lib _).trans (by norm_num)
  have e1 : Flt.val (f := .b64) o.params.sx = 1 := by rw [ho]; exact v1
  have e3 : Flt.val (f := .b64) o.params.cx = 1 := by rw [ho]; exact v1
  have e : o.projection ![4, 0, 4] 0 = 5 := by
    have hp : o.position ![4, 0, 4] = ![4, 0, 4] := by rw [ho]; exact sampleParallel_position 0 _
    rw [ParallelView.projection, hp, e1, e3]
    norm_num [Spec.orthographic]
  have := h.u
  rw [e, e1] at this
  refine this.trans ?_
  norm_num

/-- Non-vacuity of the round trip of C88: the pixel (5, 0) of the camera above. -/
example : |Flt.val (f := .b64) (((sampleParallel lib 5).camera.worldToPixel
      ((sampleParallel lib 5).camera.pixelToWorld (sampleParallel lib 5).pixel).pointOnRay).data 0 0) - 5| ≤ 1 / 10 ^ 8 := by
  have v1 : Flt.val (f := .b64) (digit lib 1) = 1 := (val_digit lib _).trans (by norm_num)
  have v0 : Flt.val (f := .b64) (digit lib 0) = 0 := (val_digit lib _).trans (by norm_num)
  have v5 : Flt.val (f := .b64) (digit lib 5) = 5 := (val_digit lib _).trans (by norm_num)
  have e1 : Flt.val (f := .b64) (sampleParallel lib 5).params.sx = 1 := v1
  have e2 : Flt.val (f := .b64) (sampleParallel lib 5).params.sy = 1 := v1
  have e5 : Flt.val (f := .b64) ((sampleParallel lib 5).pixel.data 0 0) = 5 := v5
  have e6 : Flt.val (f := .b64) ((sampleParallel lib 5).pixel.data 0 1) = 0 := v0
  have h := (c88_f64_roundtrip (sampleParallel_good (lib := lib) 5) (by norm_num) (by norm_num)
    (fun a => by fin_cases a <;> exact trivial) _ _ 0 rfl rfl (by rw [e1, e5]; norm_num) (by rw [e2, e6]; norm_num)).2
  rw [e5] at h
  refine h.trans ?_
  show 2 / 10 ^ 10 * 8 * |Flt.val (f := .b64) (sampleParallel lib 5).params.sx| ≤ _
  rw [e1]
  norm_num

end

end CamGeom
