import Verif.Props.FloatPose
import Verif.Props.FloatCamera

/-!
# C102: pixels of perspective cameras in `f64` and `f32`, at any scale

The error of `world_to_pixel` grows with the ratio of the coordinates to the depth of the point; the round trip from a
pixel to a point on its ray and back loses accuracy with the distance of the camera from the origin.
-/

namespace CamGeom
open Rounding ExtrinsicParameters Spec Matrix

/-- Several roundings, to first order. -/
theorem pow_sub_one_le_mul {u : ℝ} (h0 : 0 ≤ u) (n : ℕ) : (1 + u) ^ n - 1 ≤ n * u * (1 + u) ^ n := by
  induction n with
  | zero => simp
  | succ n ih =>
    have h1 : (1 : ℝ) ≤ 1 + u := by linarith
    have h2 : (1 + u) ^ n ≤ (1 + u) ^ (n + 1) := pow_le_pow_right₀ h1 (Nat.le_succ n)
    have h3 : (0 : ℝ) ≤ ((n + 1 : ℕ) : ℝ) * u := by positivity
    have h4 := mul_le_mul_of_nonneg_left h2 h3
    have h5 : (1 + u) ^ (n + 1) = (1 + u) ^ n + u * (1 + u) ^ n := by ring
    push_cast at h4 ⊢
    linarith

theorem roundings_le {u : ℝ} (h0 : 0 ≤ u) (hu : u ≤ 1 / 2 ^ 24) {n : ℕ} (hn : n ≤ 15) :
    (1 + u) ^ n - 1 ≤ n * (100001 / 100000 * u) := by
  refine (pow_sub_one_le_mul h0 n).trans ?_
  have h1 : (1 + u) ^ n ≤ 100001 / 100000 :=
    (pow_le_pow_right₀ (by linarith) hn).trans ((pow_le_pow_left₀ (by linarith) (by linarith : 1 + u ≤ 1 + 1 / 2 ^ 24) 15).trans
      (by norm_num))
  calc n * u * (1 + u) ^ n ≤ n * u * (100001 / 100000) := mul_le_mul_of_nonneg_left h1 (by positivity)
    _ = _ := by ring

section
variable {R : Type} [Scalar R] {fl : Rounding R} {r : RoundingRange fl} {q : Quat R} {c : V3 R} {ε M F S s : ℝ} {k m l n : ℕ}

theorem PoseRange.coord_le (h : PoseRange r q c ε M k) {x : Vec} (hx : ∀ a, |x a| ≤ M) (a : Fin 3) :
    |((fl.quat q).rotate x + (fromRotationAndCamcenter (fl.quat q) (fl.vec c)).translation) a| ≤ (4 + 14 * ε) * M := by
  have h0 := h.nonneg
  have h1 := (abs_apply_le_len _ a).trans (len_add_le ((fl.quat q).rotate x)
    (fromRotationAndCamcenter (fl.quat q) (fl.vec c)).translation)
  have h2 := len_rotate_le h.quat x
  have h3 := len_translation_le h.quat (fl.vec c)
  have h4 : len x ≤ 2 * M := len_le_entries hx
  have h5 : len (fl.vec c) ≤ 2 * M := len_le_entries h.bound
  have h6 := mul_le_mul_of_nonneg_left h4 (by linarith : 0 ≤ 1 + 3 * ε)
  have h7 := mul_le_mul_of_nonneg_left h5 (by linarith : 0 ≤ 1 + 4 * ε)
  linarith

/-- The final estimate for a projected coordinate.  `y` is the ratio of coordinates and depth. -/
theorem scale_bound {k4 u ω A P y e z : ℝ} (hu : 0 ≤ u) (h4 : k4 ≤ 4 * (100001 / 100000 * u)) (hA : 1 ≤ A)
    (hω : 0 ≤ ω) (hω' : ω ≤ 1 / 10 ^ 30) (hz : 0 < z) (hy : 1 ≤ 4001 / 1000 * y) (hyz : 1 / z ≤ y) (hP0 : 0 ≤ P)
    (hP : P ≤ 2 * A) (he : e ≤ k4 * (2 * P + A + 6 * ω / z + ω) + 2 * (581 / 10 * u * y) * P) : e ≤ 320 * u * A * y := by
  have hy0 : 0 < y := by linarith
  have h1 : 6 * ω / z ≤ A * y := by
    have : 6 * ω / z = 6 * ω * (1 / z) := by ring
    rw [this]
    have h2 : 6 * ω * (1 / z) ≤ 1 * y := mul_le_mul (by linarith [show (6 : ℝ) * (1 / 10 ^ 30) ≤ 1 by norm_num])
      hyz (by positivity) (by norm_num)
    nlinarith
  have h3 : A ≤ 4001 / 1000 * (A * y) := by nlinarith
  have h4' : ω ≤ 1 / 1000 * (A * y) := by
    have : (1 : ℝ) / 10 ^ 30 ≤ 1 / 10000 := by norm_num
    linarith
  have h5 : k4 * (2 * P + A + 6 * ω / z + ω) ≤ 4 * (100001 / 100000 * u) * (2102 / 100 * (A * y)) :=
    mul_le_mul h4 (by linarith) (by positivity) (by positivity)
  have h6 : 2 * (581 / 10 * u * y) * P ≤ 2 * (581 / 10 * u * y) * (2 * A) :=
    mul_le_mul_of_nonneg_left hP (by positivity)
  have h7 : 0 ≤ u * (A * y) := by positivity
  have e1 : 320 * u * A * y = 320 * (u * (A * y)) := by ring
  have e2 : 2 * (581 / 10 * u * y) * (2 * A) = 2324 / 10 * (u * (A * y)) := by ring
  have e3 : 4 * (100001 / 100000 * u) * (2102 / 100 * (A * y)) = 4 * (100001 / 100000) * (2102 / 100) * (u * (A * y)) := by
    ring
  rw [e1]
  rw [e2] at h6
  rw [e3] at h5
  norm_num at h5
  linarith

set_option maxHeartbeats 1000000 in
theorem scale_world_to_pixel (h : PoseRange r q c ε M k) (hε : ε ≤ 1 / 10 ^ 6) (hu : fl.u ≤ 1 / 2 ^ 24)
    (hω : fl.ω ≤ 1 / 10 ^ 30) (hM : 1 ≤ M) (p : PerspectiveParams R)
    (hp : ∀ x ∈ [p.fx, p.fy, p.skew, p.cx, p.cy], fl.isFinite x ∧ |fl.val x| ≤ F) (hF : 1 ≤ F) (hFm : F ≤ 2 ^ m)
    (w : Points WorldFrame R n) (i : Fin n) (hx : ∀ a, fl.isFinite (w.data i a) ∧ |fl.val (w.data i a)| ≤ M)
    (X : V3 ℝ) (hX : X = ((fromRotationAndCamcenter (fl.quat q) (fl.vec c)).worldToCamera
      ⟨fun i => fl.vec (w.data i)⟩).data i)
    (hZ : 120 * fl.u * M ≤ |X 2|) (hl : 1 / 2 ^ l ≤ |X 2|) (h0 : |X 0 / X 2| ≤ s) (h1 : |X 1 / X 2| ≤ s)
    (ht : m + k + l + 12 ≤ r.top) (a : Fin 2) :
    fl.isFinite (((Camera.mk (IntrinsicParametersPerspective.ofParams p) (fromRotationAndCamcenter q c)).worldToPixel w).data i a) ∧
    |fl.val (((Camera.mk (IntrinsicParametersPerspective.ofParams p) (fromRotationAndCamcenter q c)).worldToPixel w).data i a) -
      Spec.pinhole (fl.val p.fx) (fl.val p.fy) (fl.val p.skew) (fl.val p.cx) (fl.val p.cy) X a| ≤
      320 * fl.u * (F * (s + 1)) * (M / |X 2|) := by
  have hu0 := fl.u_nonneg
  have hω0 := fl.ω_nonneg
  have hε0 := h.nonneg
  have hM0 : 0 ≤ M := by linarith
  have hz : 0 < |X 2| := lt_of_lt_of_le (by positivity) hl
  have hZ0 : X 2 ≠ 0 := abs_pos.1 hz
  have eX : X = (fl.quat q).rotate (fl.vec (w.data i)) +
      (fromRotationAndCamcenter (fl.quat q) (fl.vec c)).translation := by
    rw [hX, worldToCamera_data]
    rfl
  have hδ : ((1 + fl.u) ^ 8 - 1) * (rotTight (1 + ε) fl.ω M + transTight (1 + ε) fl.ω M) ≤ 581 / 10 * fl.u * M := by
    have e1 := roundings_le hu0 hu (n := 8) (by norm_num)
    have e2 := tight8_le (by linarith : 0 ≤ 1 + ε) (by linarith) hω hM hM0
    have e3 : 0 ≤ rotTight (1 + ε) fl.ω M + transTight (1 + ε) fl.ω M := by unfold rotTight transTight; positivity
    refine (mul_le_mul e1 e2 e3 (by positivity)).trans ?_
    have e4 : 0 ≤ fl.u * M := by positivity
    push_cast
    linarith
  have g := h.worldToCamera h.pow hδ w i hx
  rw [← eX] at g
  have hfin : fl.isFinite (((Camera.mk (IntrinsicParametersPerspective.ofParams p)
      (fromRotationAndCamcenter q c)).worldToPixel w).data i a) := by
    have g2 := (g 2).2
    have e : 1 / 2 ^ (l + 1) ≤ |fl.val (((fromRotationAndCamcenter q c).worldToCamera w).data i 2)| := by
      have e1 := abs_sub_abs_le_abs_sub (X 2) (fl.val (((fromRotationAndCamcenter q c).worldToCamera w).data i 2))
      rw [abs_sub_comm] at e1
      have e2 : (1 : ℝ) / 2 ^ (l + 1) = 1 / 2 ^ l / 2 := by rw [pow_succ]; field_simp
      rw [e2]
      linarith [mul_nonneg hu0 hM0]
    exact (c77_camera_to_pixel (m := m) (k := k + 8) (l := l + 1) r p (fun x hx => ⟨(hp x hx).1, (hp x hx).2.trans hFm⟩)
      ((fromRotationAndCamcenter q c).worldToCamera w) i
      (fun a => c77_world_to_camera r h.inRange (fun a => ⟨h.finite a, (h.bound a).trans h.pow⟩) w i
        (fun a => ⟨(hx a).1, (hx a).2.trans h.pow⟩) (by omega) a) e (by omega) a).1
  refine ⟨hfin, ?_⟩
  obtain ⟨hU, hV⟩ := worldToPixel_of_error p q c w i X (fun b _ => (g b).2) hZ0 (by linarith)
  have hs : 0 ≤ s := (abs_nonneg _).trans h0
  have hA : 1 ≤ F * (s + 1) := by nlinarith
  have hy : 1 ≤ 4001 / 1000 * (M / |X 2|) := by
    rw [← mul_div_assoc, le_div_iff₀ hz, _root_.one_mul]
    have := h.coord_le (x := fl.vec (w.data i)) (fun a => (hx a).2) 2
    rw [← eX] at this
    refine this.trans (mul_le_mul_of_nonneg_right (by linarith) hM0)
  have hyz : 1 / |X 2| ≤ M / |X 2| := div_le_div_of_nonneg_right hM hz.le
  have h4 := roundings_le hu0 hu (n := 4) (by norm_num)
  have h4' : 0 ≤ (1 + fl.u) ^ 4 - 1 := by linarith [one_le_pow fl 4]
  have h34 : (1 + fl.u) ^ 3 - 1 ≤ (1 + fl.u) ^ 4 - 1 := by
    have := pow_le_pow_right₀ (by linarith : 1 ≤ 1 + fl.u) (by norm_num : 3 ≤ 4)
    linarith
  push_cast at h4
  have hpf : ∀ {f t : ℝ}, |f| ≤ F → |t| ≤ s → |f| * (|t| + 1) ≤ F * (s + 1) := fun hf ht =>
    mul_le_mul hf (by linarith) (by positivity) (by linarith)
  have bx := hpf (hp p.fx (by simp)).2 h0
  have by' := hpf (hp p.fy (by simp)).2 h1
  have bs := hpf (hp p.skew (by simp)).2 h1
  have FA : F ≤ F * (s + 1) := by nlinarith
  have cx := (hp p.cx (by simp)).2
  have cy := (hp p.cy (by simp)).2
  have eδ : 2 * (581 / 10 * fl.u * M) / |X 2| = 2 * (581 / 10 * fl.u * (M / |X 2|)) := by ring
  fin_cases a
  · refine scale_bound hu0 h4 hA hω0 hω hz hy hyz (P := |fl.val p.fx| * (|X 0 / X 2| + 1) +
      |fl.val p.skew| * (|X 1 / X 2| + 1)) (by positivity) (by linarith) ((hU hfin).trans ?_)
    rw [eδ]
    refine add_le_add (mul_le_mul_of_nonneg_left ?_ h4') le_rfl
    linarith
  · refine scale_bound hu0 h4 hA hω0 hω hz hy hyz (P := |fl.val p.fy| * (|X 1 / X 2| + 1)) (by positivity)
      (by linarith) ((hV hfin).trans ?_)
    rw [eδ]
    have e4 : 4 * fl.ω / |X 2| ≤ 6 * fl.ω / |X 2| := div_le_div_of_nonneg_right (by linarith) hz.le
    refine add_le_add (mul_le_mul h34 ?_ (by positivity) h4') le_rfl
    linarith

/-! ### The round trip -/

/-- From the errors of the ray and of `world_to_camera` to the error of the round trip in camera coordinates. -/
theorem trip_point_real {q : Quat ℝ} {ε M S E₁ E₂ E₃ E₄ : ℝ} (h : |quatNormSq q - 1| ≤ ε) (hε : ε ≤ 1 / 1000) {c d o g P X : Vec}
    {t : Vec} (ht : t = (fromRotationAndCamcenter q c).translation) (hc : ∀ a, |c a| ≤ M) (hd : ∀ a, |d a| ≤ S)
    (ho : ∀ a, |o a - q.inverse.rotate (-t) a| ≤ E₁) (hg : ∀ a, |g a - q.inverse.rotate d a| ≤ E₂)
    (hP : ∀ a, |P a - (o a + g a)| ≤ E₃) (hX : ∀ a, |X a - (q.rotate P + t) a| ≤ E₄) (a : Fin 3) :
    |X a - d a| ≤ E₄ + (1 + 3 * ε) * (2 * (E₁ + E₂ + E₃)) + 5 * ε * (2 * S + (1 + 4 * ε) * (2 * M)) := by
  have hε0 : 0 ≤ ε := (abs_nonneg _).trans h
  have e1 : len (P - q.inverse.rotate (d - t)) ≤ 2 * (E₁ + E₂ + E₃) := by
    refine len_le_entries fun b => ?_
    have e : q.inverse.rotate (d - t) = q.inverse.rotate d + q.inverse.rotate (-t) := by
      rw [← rotate_add, sub_eq_add_neg]
    rw [e]
    have h1 := ho b
    have h2 := hg b
    have h3 := hP b
    simp only [Pi.sub_apply, Pi.add_apply]
    rw [abs_le] at h1 h2 h3 ⊢
    constructor <;> linarith
  have e2 : len (d - t) ≤ 2 * S + (1 + 4 * ε) * (2 * M) := by
    have h1 := len_add_le d (-t)
    rw [← sub_eq_add_neg, len_neg] at h1
    have h2 : len d ≤ 2 * S := len_le_entries hd
    have h3 := len_translation_le h c
    rw [← ht] at h3
    have h4 : len c ≤ 2 * M := len_le_entries hc
    have h5 := mul_le_mul_of_nonneg_left h4 (by linarith : 0 ≤ 1 + 4 * ε)
    linarith
  have e3 := (abs_apply_le_len _ a).trans (trip_exact h (by linarith) t d P)
  have e4 := mul_le_mul_of_nonneg_left e1 (by linarith : 0 ≤ 1 + 3 * ε)
  have e5 := mul_le_mul_of_nonneg_left e2 (by linarith : 0 ≤ 5 * ε)
  have e6 := hX a
  simp only [Pi.sub_apply, Pi.add_apply] at e3 e6
  rw [abs_le] at e3 e6 ⊢
  constructor <;> linarith

theorem zeros_eq : (![Scalar.lit 0, Scalar.lit 0, Scalar.lit 0] : V3 R) = fun _ => Scalar.lit 0 := by
  funext j; fin_cases j <;> rfl

/-- The point on the ray of a pixel. -/
theorem pointOnRay_data (p : PerspectiveParams R) (px : Pixels R n) (i : Fin n)
    (cam : Camera R (IntrinsicParametersPerspective R)) (hcam : cam = ⟨.ofParams p, fromRotationAndCamcenter q c⟩) (b : Fin 3) :
    (cam.pixelToWorld px).pointOnRay.data i b =
      (fromRotationAndCamcenter q c).cache.poseInv.transformPoint (fun _ => Scalar.lit 0) b +
      (fromRotationAndCamcenter q c).cache.poseInv.transformVector
        (((IntrinsicParametersPerspective.ofParams p).pixelToCamera px).data i) b := by
  subst hcam
  simp only [Camera.pixelToWorld, rayCameraToWorld, RayBundle.toPose, RayBundle.pointOnRay,
    Bundle.toPose, Bundle.pointOnRay, IntrinsicParameters.pixelToCamera, so_toPose, so_pointOnRay,
    persp_pixelToCamera, SharedOriginRayBundle.newSharedZeroOrigin, zeros_eq]

set_option maxHeartbeats 1000000 in
/-- A point on the ray of a pixel, seen again by the camera. -/
theorem scale_trip_point (h : PoseRange r q c ε M k) (hε : ε ≤ 1 / 10 ^ 6) (hu : fl.u ≤ 1 / 2 ^ 24)
    (hω : fl.ω ≤ 1 / 10 ^ 30) (hM : 1 ≤ M) (p : PerspectiveParams R) (px : Pixels R n) (i : Fin n) (d : V3 R)
    (hd : d = ((IntrinsicParametersPerspective.ofParams p).pixelToCamera px).data i) (hdf : ∀ a, fl.isFinite (d a))
    (hS : ∀ a, |fl.val (d a)| ≤ S) (hS1 : 1 ≤ S) (hSk : S ≤ 2 ^ k) (hk : k + 24 ≤ r.top)
    (cam : Camera R (IntrinsicParametersPerspective R)) (hcam : cam = ⟨.ofParams p, fromRotationAndCamcenter q c⟩) (a : Fin 3) :
    InRange fl (k + 24) ((cam.extrinsics.worldToCamera (cam.pixelToWorld px).pointOnRay).data i a) ∧
    |fl.val ((cam.extrinsics.worldToCamera (cam.pixelToWorld px).pointOnRay).data i a) - fl.val (d a)| ≤
      (445 * fl.u + 101 / 10 * ε) * M + (133 * fl.u + 101 / 10 * ε) * S := by
  have hu0 := fl.u_nonneg
  have hω0 := fl.ω_nonneg
  have hε0 := h.nonneg
  have hM0 : 0 ≤ M := by linarith
  have hS0 : 0 ≤ S := by linarith
  have uM : 0 ≤ fl.u * M := by positivity
  have uS : 0 ≤ fl.u * S := by positivity
  have εM : 0 ≤ ε * M := by positivity
  have εS : 0 ≤ ε * S := by positivity
  have hn0 : 0 ≤ 1 + ε := by linarith
  have hn1 : 1 + ε ≤ 1 + 1 / 10 ^ 6 := by linarith
  have hr := fun b => c77_perspective_ray_point r p h.inRange (fun a => ⟨h.finite a, (h.bound a).trans h.pow⟩) px i
    (fun a => by rw [← hd]; exact ⟨hdf a, (hS a).trans hSk⟩) cam hcam hk b
  refine ⟨(hr a).2, ?_⟩
  have eP := fun b => pointOnRay_data (q := q) (c := c) p px i cam hcam b
  rw [← hd] at eP
  set o := (fromRotationAndCamcenter q c).cache.poseInv.transformPoint (fun _ => Scalar.lit 0 : V3 R) with ho
  set g := (fromRotationAndCamcenter q c).cache.poseInv.transformVector d with hg
  set P := (cam.pixelToWorld px).pointOnRay.data i with hP
  set t := (fromRotationAndCamcenter (fl.quat q) (fl.vec c)).translation with ht
  have fP : ∀ b, fl.isFinite (o b + g b) := fun b => by rw [← eP b]; exact (hr b).1.1
  have add := fun b => fl.add (fP b)
  have E1 : ∀ b, |fl.val (o b) - (fl.quat q).inverse.rotate (-t) b| ≤ 192 * fl.u * M := by
    intro b
    refine (rayCenter_tight h.quat h.bound b (add b).1).trans ?_
    have e1 := roundings_le hu0 hu (n := 15) (by norm_num)
    have e2 := tight15_le hn0 hn1 hω0 hω hM (B := 0) le_rfl
    have e3 : 0 ≤ rotTight (1 + ε) fl.ω 0 + rotTight (1 + ε) fl.ω (transTight (1 + ε) fl.ω M) := by
      unfold rotTight transTight; positivity
    refine (mul_le_mul e1 e2 e3 (by positivity)).trans ?_
    push_cast
    linarith
  have E2 : ∀ b, |fl.val (g b) - (fl.quat q).inverse.rotate (fl.vec d) b| ≤ 30 * fl.u * S := by
    intro b
    refine (rayDirection_tight h.quat hS b (add b).2.1).trans ?_
    have e1 := roundings_le hu0 hu (n := 7) (by norm_num)
    have e2 : rotTight (1 + ε) fl.ω S ≤ 42501 / 10000 * S := by
      have b1 : (13 / 4 * (1 + ε) + 1) * S ≤ (13 / 4 * (1 + 1 / 10 ^ 6) + 1) * S :=
        mul_le_mul_of_nonneg_right (by linarith) (by linarith)
      have b2 : fl.ω * (15 * (1 + ε) + 18) ≤ 1 / 10 ^ 30 * 40 :=
        mul_le_mul hω (by norm_num at hε; linarith) (by linarith) (by norm_num)
      unfold rotTight
      norm_num at b1 b2 ⊢
      linarith
    have e3 : 0 ≤ rotTight (1 + ε) fl.ω S := by unfold rotTight; positivity
    refine (mul_le_mul e1 e2 e3 (by positivity)).trans ?_
    push_cast
    linarith
  have mo : ∀ b, |fl.val (o b)| ≤ 1001 / 1000 * M := by
    intro b
    have e1 := E1 b
    have e2 := (abs_apply_le_len _ b).trans (center_exact h.quat (by linarith [h.small]) (fl.vec c))
    have e3 : len (fl.vec c) ≤ 2 * M := len_le_entries h.bound
    have e4 := mul_le_mul_of_nonneg_left e3 (by linarith : 0 ≤ 7 * ε)
    have e5 := h.bound b
    have e6 : 192 * fl.u * M ≤ 192 * (1 / 2 ^ 24) * M := by gcongr
    have e7 : 7 * ε * (2 * M) ≤ 7 * (1 / 10 ^ 6) * (2 * M) := by gcongr
    have e8 : fl.vec c b = fl.val (c b) := rfl
    rw [Pi.sub_apply, e8] at e2
    norm_num at e6 e7
    rw [abs_le] at e1 e2 e5 ⊢
    constructor <;> linarith
  have mg : ∀ b, |fl.val (g b)| ≤ 2001 / 1000 * S := by
    intro b
    have e1 := E2 b
    have e2 := (abs_apply_le_len _ b).trans (len_rotate_le h.inverse (fl.vec d))
    have e3 : len (fl.vec d) ≤ 2 * S := len_le_entries hS
    have e4 := mul_le_mul_of_nonneg_left e3 (by linarith : 0 ≤ 1 + 3 * ε)
    have e6 : 30 * fl.u * S ≤ 30 * (1 / 2 ^ 24) * S := by gcongr
    have e7 : 3 * ε * (2 * S) ≤ 3 * (1 / 10 ^ 6) * (2 * S) := by gcongr
    norm_num at e6 e7
    rw [abs_le] at e1 e2 ⊢
    constructor <;> linarith
  have E3 : ∀ b, |fl.val (P b) - (fl.val (o b) + fl.val (g b))| ≤ fl.u * (1001 / 1000 * M + 2001 / 1000 * S) := by
    intro b
    rw [eP b]
    refine (add b).2.2.trans (mul_le_mul_of_nonneg_left ?_ hu0)
    exact (abs_add_le _ _).trans (add_le_add (mo b) (mg b))
  have mP : ∀ b, |fl.val (P b)| ≤ 1002 / 1000 * M + 2002 / 1000 * S := by
    intro b
    have e1 := E3 b
    have e2 := mo b
    have e3 := mg b
    have e4 : fl.u * (1001 / 1000 * M + 2001 / 1000 * S) ≤ 1 / 2 ^ 24 * (1001 / 1000 * M + 2001 / 1000 * S) := by gcongr
    norm_num at e4
    rw [abs_le] at e1 e2 e3 ⊢
    constructor <;> linarith
  have ecam : cam.extrinsics = fromRotationAndCamcenter q c := by rw [hcam]
  have E4 : ∀ b, |fl.val ((cam.extrinsics.worldToCamera (cam.pixelToWorld px).pointOnRay).data i b) -
      ((fl.quat q).rotate (fl.vec P) + t) b| ≤ fl.u * (581 / 10 * M + 681 / 10 * S) := by
    intro b
    have hf := (hr b).2.1
    rw [ecam] at hf ⊢
    have e0 := worldToCamera_tight h.quat h.bound (cam.pixelToWorld px).pointOnRay i mP b hf
    rw [worldToCamera_data (fromRotationAndCamcenter (fl.quat q) (fl.vec c))] at e0
    refine e0.trans ?_
    have e1 := roundings_le hu0 hu (n := 8) (by norm_num)
    have e2 := tight8_le hn0 hn1 hω hM (B := 1002 / 1000 * M + 2002 / 1000 * S) (by positivity)
    have e3 : 0 ≤ rotTight (1 + ε) fl.ω (1002 / 1000 * M + 2002 / 1000 * S) + transTight (1 + ε) fl.ω M := by
      unfold rotTight transTight; positivity
    refine (mul_le_mul e1 e2 e3 (by positivity)).trans ?_
    push_cast
    linarith
  have fin := trip_point_real h.quat (by linarith [h.small]) ht h.bound hS E1 E2 E3
    (X := fun b => fl.val ((cam.extrinsics.worldToCamera (cam.pixelToWorld px).pointOnRay).data i b)) E4 a
  refine fin.trans ?_
  have f1 : 3 * ε * (2 * (192 * fl.u * M + 30 * fl.u * S + fl.u * (1001 / 1000 * M + 2001 / 1000 * S))) ≤
      3 * (1 / 10 ^ 6) * (2 * (192 * fl.u * M + 30 * fl.u * S + fl.u * (1001 / 1000 * M + 2001 / 1000 * S))) := by gcongr
  have f2 : 5 * ε * (4 * ε * (2 * M)) ≤ 5 * ε * (4 * (1 / 10 ^ 6) * (2 * M)) := by gcongr
  norm_num at f1 f2
  linarith

set_option maxHeartbeats 1000000 in
theorem scale_roundtrip (h : PoseRange r q c ε M k) (hε : ε ≤ 1 / 10 ^ 6) (hu : fl.u ≤ 1 / 2 ^ 24)
    (hω : fl.ω ≤ 1 / 10 ^ 30) (hM : 1 ≤ M) (p : PerspectiveParams R)
    (hp : ∀ x ∈ [p.fx, p.fy, p.skew, p.cx, p.cy], fl.isFinite x ∧ |fl.val x| ≤ F) (hF : 1 ≤ F) (hFm : F ≤ 2 ^ m)
    (hfx : 1 / 2 ^ l ≤ |fl.val p.fx|) (hfy : 1 / 2 ^ l ≤ |fl.val p.fy|) (px : Pixels R n) (i : Fin n)
    (hpx : ∀ a, fl.isFinite (px.data i a) ∧ |fl.val (px.data i a)| ≤ F)
    (hS : ∀ a, |fl.val (((IntrinsicParametersPerspective.ofParams p).pixelToCamera px).data i a)| ≤ S) (hSk : S ≤ 2 ^ k)
    {δ : ℝ} (hδ : δ = (445 * fl.u + 101 / 10 * ε) * M + (133 * fl.u + 101 / 10 * ε) * S) (hδ2 : δ ≤ 1 / 2)
    (ht : 2 * m + 2 * l + 3 ≤ r.top) (ht' : m + k + 28 ≤ r.top)
    (cam : Camera R (IntrinsicParametersPerspective R)) (hcam : cam = ⟨.ofParams p, fromRotationAndCamcenter q c⟩) (a : Fin 2) :
    fl.isFinite ((cam.worldToPixel (cam.pixelToWorld px).pointOnRay).data i a) ∧
    |fl.val ((cam.worldToPixel (cam.pixelToWorld px).pointOnRay).data i a) - fl.val (px.data i a)| ≤
      F * (S + 1) * (4 * δ + 27 * fl.u) := by
  have hu0 := fl.u_nonneg
  have hω0 := fl.ω_nonneg
  have hp' : ∀ x ∈ [p.fx, p.fy, p.skew, p.cx, p.cy], InRange fl m x := fun x hx => ⟨(hp x hx).1, (hp x hx).2.trans hFm⟩
  have hd := fun b => c77_pixel_to_camera r p hp' hfx hfy px i (fun a => ⟨(hpx a).1, (hpx a).2.trans hFm⟩) ht b
  set d := ((IntrinsicParametersPerspective.ofParams p).pixelToCamera px).data i with hdd
  have d2 : fl.val (d 2) = 1 := by
    rw [hdd, persp_pixelToCamera]; exact fl.lit_one.2
  have hS1 : 1 ≤ S := by
    have := hS 2
    rwa [d2, abs_one] at this
  have g := fun b => scale_trip_point h hε hu hω hM p px i d hdd (fun a => (hd a).1) hS hS1 hSk (by omega) cam hcam b
  rw [← hδ] at g
  have hδ0 : 0 ≤ δ := (abs_nonneg _).trans (g 0).2
  have hfin : fl.isFinite ((cam.worldToPixel (cam.pixelToWorld px).pointOnRay).data i a) := by
    have e : 1 / 2 ^ 1 ≤ |fl.val ((cam.extrinsics.worldToCamera (cam.pixelToWorld px).pointOnRay).data i 2)| := by
      have e1 := (g 2).2
      rw [d2] at e1
      have e2 := abs_sub_abs_le_abs_sub 1 (fl.val ((cam.extrinsics.worldToCamera (cam.pixelToWorld px).pointOnRay).data i 2))
      rw [abs_one, abs_sub_comm] at e2
      norm_num
      linarith
    have := (c77_camera_to_pixel (m := m) (k := k + 24) (l := 1) r p hp'
      (cam.extrinsics.worldToCamera (cam.pixelToWorld px).pointOnRay) i (fun b => (g b).1) e (by omega) a).1
    rw [hcam] at this ⊢
    exact this
  refine ⟨hfin, ?_⟩
  obtain ⟨hU, hV⟩ := c67_perspective_of_error fl p q c px i d hdd cam hcam δ (fun b _ => (g b).2) hδ2
  have hF0 : 0 ≤ F := by linarith
  have A1 : 1 ≤ F * (S + 1) := by nlinarith
  have h4 := roundings_le hu0 hu (n := 4) (by norm_num)
  have h4' : 0 ≤ (1 + fl.u) ^ 4 - 1 := by linarith [one_le_pow fl 4]
  have h34 : (1 + fl.u) ^ 3 - 1 ≤ (1 + fl.u) ^ 4 - 1 := by
    have := pow_le_pow_right₀ (by linarith : 1 ≤ 1 + fl.u) (by norm_num : 3 ≤ 4)
    linarith
  push_cast at h4
  have hpf : ∀ {f t : ℝ}, |f| ≤ F → |t| ≤ S → |f| * (|t| + 1) ≤ F * (S + 1) := fun hf ht =>
    mul_le_mul hf (by linarith) (by positivity) hF0
  have bx := hpf (hp p.fx (by simp)).2 (hS 0)
  have by' := hpf (hp p.fy (by simp)).2 (hS 1)
  have bs := hpf (hp p.skew (by simp)).2 (hS 1)
  have cx := (hp p.cx (by simp)).2
  have cy := (hp p.cy (by simp)).2
  have fx := (hp p.fx (by simp)).2
  have fy := (hp p.fy (by simp)).2
  have sd : |fl.val p.skew * fl.val (d 1)| ≤ F * S := by
    rw [abs_mul]
    exact mul_le_mul (hp p.skew (by simp)).2 (hS 1) (abs_nonneg _) hF0
  have FS : F ≤ F * S := by nlinarith
  have wf : ∀ {f : ℝ}, |f| ≤ F → fl.ω * (|f| + 9) ≤ 1 / 1000 * F := by
    intro f hf
    have : fl.ω * (|f| + 9) ≤ 1 / 10 ^ 30 * (F + 9) := mul_le_mul hω (by linarith) (by positivity) (by norm_num)
    norm_num at this
    linarith
  have K1 : ((1 + fl.u) ^ 4 - 1) * (4 * (F * (S + 1)) + (3 * F + 2 * (F * S) + 1 / 1000 * F)) ≤
      4 * (100001 / 100000 * fl.u) * (4 * (F * (S + 1)) + (3 * F + 2 * (F * S) + 1 / 1000 * F)) :=
    mul_le_mul_of_nonneg_right h4 (by positivity)
  have K2 : 4 * (100001 / 100000 * fl.u) * (4 * (F * (S + 1)) + (3 * F + 2 * (F * S) + 1 / 1000 * F)) ≤
      F * (S + 1) * (27 * fl.u) := by
    have : fl.u * F ≤ fl.u * (F * S) := mul_le_mul_of_nonneg_left FS hu0
    have : 0 ≤ fl.u * (F * S) := by positivity
    linarith
  fin_cases a
  · refine (hU hfin).trans ?_
    have e1 : (((1 + fl.u) ^ 4 - 1) + δ) * (2 * |fl.val p.fx| * (|fl.val (d 0)| + 1) +
        2 * |fl.val p.skew| * (|fl.val (d 1)| + 1)) ≤ (((1 + fl.u) ^ 4 - 1) + δ) * (4 * (F * (S + 1))) :=
      mul_le_mul_of_nonneg_left (by linarith) (by linarith)
    have e2 : ((1 + fl.u) ^ 4 - 1) * (|fl.val (px.data i 0)| + 2 * |fl.val p.skew * fl.val (d 1)| +
        2 * |fl.val p.cx| + fl.ω * (|fl.val p.fx| + 9)) ≤
        ((1 + fl.u) ^ 4 - 1) * (3 * F + 2 * (F * S) + 1 / 1000 * F) :=
      mul_le_mul_of_nonneg_left (by linarith [(hpx 0).2, wf fx]) h4'
    linarith
  · refine (hV hfin).trans ?_
    have e1 : (((1 + fl.u) ^ 3 - 1) + δ) * (2 * |fl.val p.fy| * (|fl.val (d 1)| + 1)) ≤
        (((1 + fl.u) ^ 4 - 1) + δ) * (4 * (F * (S + 1))) :=
      mul_le_mul (by linarith) (by linarith) (by positivity) (by linarith)
    have e2 : ((1 + fl.u) ^ 3 - 1) * (|fl.val (px.data i 1)| + 2 * |fl.val p.cy| + fl.ω * (|fl.val p.fy| + 5)) ≤
        ((1 + fl.u) ^ 4 - 1) * (3 * F + 2 * (F * S) + 1 / 1000 * F) := by
      have w5 : fl.ω * (|fl.val p.fy| + 5) ≤ fl.ω * (|fl.val p.fy| + 9) :=
        mul_le_mul_of_nonneg_left (by linarith) hω0
      have : 0 ≤ F * S := by positivity
      exact mul_le_mul h34 (by linarith [(hpx 1).2, wf fy]) (by positivity) h4'
    linarith

end

/-! ### `f64` -/

section
variable {lib : Libm Format.b64} {q : Quat (F64 lib)} {c : V3 (F64 lib)} {M F S s : ℝ} {n : ℕ}

/-- **C102** for `f64`: `world_to_pixel` at any scale. -/
theorem c102_f64_world_to_pixel (hq : NearUnit lib (1 / 10 ^ 15) q) (hM : 1 ≤ M) (hM2 : M ≤ 2 ^ 500)
    (hc : ∀ a, Flt.Bounded (f := .b64) M (c a)) (p : PerspectiveParams (F64 lib)) (hF : 1 ≤ F) (hF2 : F ≤ 2 ^ 400)
    (hp : ∀ x ∈ [p.fx, p.fy, p.skew, p.cx, p.cy], Flt.Bounded (f := .b64) F x)
    (w : Points WorldFrame (F64 lib) n) (i : Fin n) (hx : ∀ a, Flt.Bounded (f := .b64) M (w.data i a)) (X : V3 ℝ)
    (hX : X = ((fromRotationAndCamcenter ((RustFloat.rounding .b64 lib).quat q)
        ((RustFloat.rounding .b64 lib).vec c)).worldToCamera
          ⟨fun i => (RustFloat.rounding .b64 lib).vec (w.data i)⟩).data i)
    (hZ : 2 / 10 ^ 14 * M ≤ |X 2|) (h0 : |X 0 / X 2| ≤ s) (h1 : |X 1 / X 2| ≤ s) (a : Fin 2) :
    Flt.isFinite (f := .b64) (((Camera.mk (IntrinsicParametersPerspective.ofParams p)
        (fromRotationAndCamcenter q c)).worldToPixel w).data i a) ∧
    |Flt.val (f := .b64) (((Camera.mk (IntrinsicParametersPerspective.ofParams p)
        (fromRotationAndCamcenter q c)).worldToPixel w).data i a) -
      Spec.pinhole (Flt.val (f := .b64) p.fx) (Flt.val (f := .b64) p.fy) (Flt.val (f := .b64) p.skew)
        (Flt.val (f := .b64) p.cx) (Flt.val (f := .b64) p.cy) X a| ≤ 36 / 10 ^ 15 * (F * (s + 1)) * (M / |X 2|) := by
  have eu : (RustFloat.rounding .b64 lib).u = 1 / 2 ^ 53 := Format.u_b64
  have hs : 0 ≤ s := (abs_nonneg _).trans h0
  have hZ1 : 2 / 10 ^ 14 ≤ |X 2| := le_trans (by linarith) hZ
  have h := scale_world_to_pixel (m := 400) (l := 47) (poseRange_b64 hq hc (k := 500) hM2 (by norm_num)) (by norm_num)
    (by rw [eu]; norm_num) (ω_small_b64 lib) hM p hp hF hF2 w i hx X hX
    (le_trans (mul_le_mul_of_nonneg_right (by rw [eu]; norm_num) (by linarith)) hZ)
    (le_trans (by norm_num) hZ1) h0 h1 (by show _ ≤ 1023; norm_num) a
  refine ⟨h.1, h.2.trans ?_⟩
  have e1 : 320 * (RustFloat.rounding .b64 lib).u ≤ 36 / 10 ^ 15 := by rw [eu]; norm_num
  have e2 : 0 ≤ F * (s + 1) := by positivity
  have e3 : 0 ≤ M / |X 2| := by positivity
  exact mul_le_mul_of_nonneg_right (mul_le_mul_of_nonneg_right e1 e2) e3

/-- **C102** for `f64`: from a pixel to a point on its ray and back. -/
theorem c102_f64_roundtrip (hq : NearUnit lib (1 / 10 ^ 15) q) (hM : 1 ≤ M)
    (hc : ∀ a, Flt.Bounded (f := .b64) M (c a)) (p : PerspectiveParams (F64 lib)) (hF : 1 ≤ F) (hF2 : F ≤ 2 ^ 400)
    (hp : ∀ x ∈ [p.fx, p.fy, p.skew, p.cx, p.cy], Flt.Bounded (f := .b64) F x)
    (hfx : 1 / 2 ^ 100 ≤ |Flt.val (f := .b64) p.fx|) (hfy : 1 / 2 ^ 100 ≤ |Flt.val (f := .b64) p.fy|)
    (px : Pixels (F64 lib) n) (i : Fin n) (hpx : ∀ a, Flt.Bounded (f := .b64) F (px.data i a))
    (hS : ∀ a, |Flt.val (f := .b64) (((IntrinsicParametersPerspective.ofParams p).pixelToCamera px).data i a)| ≤ S)
    (hMS : M + S ≤ 8 * 10 ^ 12) (cam : Camera (F64 lib) (IntrinsicParametersPerspective (F64 lib)))
    (hcam : cam = ⟨.ofParams p, fromRotationAndCamcenter q c⟩) (a : Fin 2) :
    Flt.isFinite (f := .b64) ((cam.worldToPixel (cam.pixelToWorld px).pointOnRay).data i a) ∧
    |Flt.val (f := .b64) ((cam.worldToPixel (cam.pixelToWorld px).pointOnRay).data i a) -
      Flt.val (f := .b64) (px.data i a)| ≤ 25 / 10 ^ 14 * (F * (S + 1)) * (M + S) := by
  have eu : (RustFloat.rounding .b64 lib).u = 1 / 2 ^ 53 := Format.u_b64
  have hS0 : 0 ≤ S := (abs_nonneg _).trans (hS 0)
  have h := scale_roundtrip (m := 400) (l := 100) (S := S) (poseRange_b64 hq hc (k := 43) (le_trans (by linarith) (hMS.trans (by norm_num)))
    (by norm_num)) (by norm_num) (by rw [eu]; norm_num) (ω_small_b64 lib) hM p hp hF hF2 hfx hfy px i hpx hS
    (le_trans (by linarith) (hMS.trans (by norm_num))) rfl (by rw [eu]; norm_num; linarith) (by show _ ≤ 1023; norm_num)
    (by show _ ≤ 1023; norm_num) cam hcam a
  refine ⟨h.1, h.2.trans ?_⟩
  have e2 : 0 ≤ F * (S + 1) := by positivity
  rw [mul_comm _ (F * (S + 1)), mul_assoc (F * (S + 1)) _ (M + S)]
  refine mul_le_mul_of_nonneg_left ?_ e2
  rw [eu]
  norm_num
  linarith

end

/-! ### `f32` -/

section
variable {lib : Libm Format.b32} {q : Quat (F32 lib)} {c : V3 (F32 lib)} {M F S s : ℝ} {n : ℕ}

/-- **C102** for `f32`: `world_to_pixel` at any scale. -/
theorem c102_f32_world_to_pixel (hq : NearUnit lib (1 / 10 ^ 6) q) (hM : 1 ≤ M) (hM2 : M ≤ 2 ^ 60)
    (hc : ∀ a, Flt.Bounded (f := .b32) M (c a)) (p : PerspectiveParams (F32 lib)) (hF : 1 ≤ F) (hF2 : F ≤ 2 ^ 30)
    (hp : ∀ x ∈ [p.fx, p.fy, p.skew, p.cx, p.cy], Flt.Bounded (f := .b32) F x)
    (w : Points WorldFrame (F32 lib) n) (i : Fin n) (hx : ∀ a, Flt.Bounded (f := .b32) M (w.data i a)) (X : V3 ℝ)
    (hX : X = ((fromRotationAndCamcenter ((RustFloat.rounding .b32 lib).quat q)
        ((RustFloat.rounding .b32 lib).vec c)).worldToCamera
          ⟨fun i => (RustFloat.rounding .b32 lib).vec (w.data i)⟩).data i)
    (hZ : 1 / 10 ^ 5 * M ≤ |X 2|) (h0 : |X 0 / X 2| ≤ s) (h1 : |X 1 / X 2| ≤ s) (a : Fin 2) :
    Flt.isFinite (f := .b32) (((Camera.mk (IntrinsicParametersPerspective.ofParams p)
        (fromRotationAndCamcenter q c)).worldToPixel w).data i a) ∧
    |Flt.val (f := .b32) (((Camera.mk (IntrinsicParametersPerspective.ofParams p)
        (fromRotationAndCamcenter q c)).worldToPixel w).data i a) -
      Spec.pinhole (Flt.val (f := .b32) p.fx) (Flt.val (f := .b32) p.fy) (Flt.val (f := .b32) p.skew)
        (Flt.val (f := .b32) p.cx) (Flt.val (f := .b32) p.cy) X a| ≤ 2 / 10 ^ 5 * (F * (s + 1)) * (M / |X 2|) := by
  have eu : (RustFloat.rounding .b32 lib).u = 1 / 2 ^ 24 := Format.u_b32
  have hs : 0 ≤ s := (abs_nonneg _).trans h0
  have hZ1 : 1 / 10 ^ 5 ≤ |X 2| := le_trans (by linarith) hZ
  have h := scale_world_to_pixel (m := 30) (l := 17) (poseRange_b32 hq hc (k := 60) hM2 (by norm_num)) (by norm_num)
    eu.le (ω_small_b32 lib) hM p hp hF hF2 w i hx X hX
    (le_trans (mul_le_mul_of_nonneg_right (by rw [eu]; norm_num) (by linarith)) hZ)
    (le_trans (by norm_num) hZ1) h0 h1 (by show _ ≤ 127; norm_num) a
  refine ⟨h.1, h.2.trans ?_⟩
  have e1 : 320 * (RustFloat.rounding .b32 lib).u ≤ 2 / 10 ^ 5 := by rw [eu]; norm_num
  have e2 : 0 ≤ F * (s + 1) := by positivity
  have e3 : 0 ≤ M / |X 2| := by positivity
  exact mul_le_mul_of_nonneg_right (mul_le_mul_of_nonneg_right e1 e2) e3

/-- **C102** for `f32`: from a pixel to a point on its ray and back. -/
theorem c102_f32_roundtrip (hq : NearUnit lib (1 / 10 ^ 6) q) (hM : 1 ≤ M)
    (hc : ∀ a, Flt.Bounded (f := .b32) M (c a)) (p : PerspectiveParams (F32 lib)) (hF : 1 ≤ F) (hF2 : F ≤ 2 ^ 40)
    (hp : ∀ x ∈ [p.fx, p.fy, p.skew, p.cx, p.cy], Flt.Bounded (f := .b32) F x)
    (hfx : 1 / 2 ^ 20 ≤ |Flt.val (f := .b32) p.fx|) (hfy : 1 / 2 ^ 20 ≤ |Flt.val (f := .b32) p.fy|)
    (px : Pixels (F32 lib) n) (i : Fin n) (hpx : ∀ a, Flt.Bounded (f := .b32) F (px.data i a))
    (hS : ∀ a, |Flt.val (f := .b32) (((IntrinsicParametersPerspective.ofParams p).pixelToCamera px).data i a)| ≤ S)
    (hMS : M + S ≤ 13000) (cam : Camera (F32 lib) (IntrinsicParametersPerspective (F32 lib)))
    (hcam : cam = ⟨.ofParams p, fromRotationAndCamcenter q c⟩) (a : Fin 2) :
    Flt.isFinite (f := .b32) ((cam.worldToPixel (cam.pixelToWorld px).pointOnRay).data i a) ∧
    |Flt.val (f := .b32) ((cam.worldToPixel (cam.pixelToWorld px).pointOnRay).data i a) -
      Flt.val (f := .b32) (px.data i a)| ≤ 15 / 10 ^ 5 * (F * (S + 1)) * (M + S) := by
  have eu : (RustFloat.rounding .b32 lib).u = 1 / 2 ^ 24 := Format.u_b32
  have hS0 : 0 ≤ S := (abs_nonneg _).trans (hS 0)
  have h := scale_roundtrip (m := 40) (l := 20) (S := S) (poseRange_b32 hq hc (k := 14) (le_trans (by linarith) (hMS.trans (by norm_num)))
    (by norm_num)) (by norm_num) eu.le (ω_small_b32 lib) hM p hp hF hF2 hfx hfy px i hpx hS
    (le_trans (by linarith) (hMS.trans (by norm_num))) rfl (by rw [eu]; norm_num; linarith) (by show _ ≤ 127; norm_num)
    (by show _ ≤ 127; norm_num) cam hcam a
  refine ⟨h.1, h.2.trans ?_⟩
  have e2 : 0 ≤ F * (S + 1) := by positivity
  rw [mul_comm _ (F * (S + 1)), mul_assoc (F * (S + 1)) _ (M + S)]
  refine mul_le_mul_of_nonneg_left ?_ e2
  rw [eu]
  norm_num
  linarith

end

/-! ### The theorems apply -/

section
variable {f : Format} {lib : Libm f}

/-- A camera at `(1, 0, 1)` looking along the negative z-axis: the exact camera-frame coordinates of `(1, 1, 0)`. -/
theorem halfTurn_sees (i : Fin 1) :
    ((fromRotationAndCamcenter ((RustFloat.rounding f lib).quat ⟨0, 1, 0, 0⟩)
      ((RustFloat.rounding f lib).vec ![1, 0, 1])).worldToCamera
        ⟨fun i => (RustFloat.rounding f lib).vec ((⟨![![1, 1, 0]]⟩ : Points WorldFrame (RustFloat f lib) 1).data i)⟩).data i =
      ![0, -1, 1] := by
  have v0 : (RustFloat.rounding f lib).val 0 = 0 := (is_zero (f := f) (lib := lib)).2
  have v1 : (RustFloat.rounding f lib).val 1 = 1 := (is_one (f := f) (lib := lib)).2
  have e1 : (RustFloat.rounding f lib).quat ⟨0, 1, 0, 0⟩ = ⟨0, 1, 0, 0⟩ := by
    show Quat.mk ((RustFloat.rounding f lib).val 0) ((RustFloat.rounding f lib).val 1)
      ((RustFloat.rounding f lib).val 0) ((RustFloat.rounding f lib).val 0) = _
    rw [v0, v1]
  have e2 : (RustFloat.rounding f lib).vec ![1, 0, 1] = ![1, 0, 1] := by
    ext a
    fin_cases a <;> [exact v1; exact v0; exact v1]
  have e3 : (RustFloat.rounding f lib).vec ![1, 1, 0] = ![1, 1, 0] := by
    ext a
    fin_cases a <;> [exact v1; exact v1; exact v0]
  rw [e1, e2, worldToCamera_row (by simp [UnitQuat]), Subsingleton.elim i 0]
  show Quat.rotate _ ((RustFloat.rounding f lib).vec ![1, 1, 0] - _) = _
  rw [e3, rotate_apply]
  ext a
  fin_cases a <;> simp
  all_goals norm_num [Matrix.cons_val]

/-- Parameters that are zero or one. -/
theorem params_one (p : PerspectiveParams (RustFloat f lib)) (h : ∀ x ∈ [p.fx, p.fy, p.skew, p.cx, p.cy], x = 0 ∨ x = 1) :
    ∀ x ∈ [p.fx, p.fy, p.skew, p.cx, p.cy], Flt.Bounded (f := f) 1 x := by
  intro x hx
  rcases h x hx with e | e <;> rw [e]
  · exact ⟨is_zero.1, by rw [is_zero.2]; norm_num⟩
  · exact ⟨is_one.1, by rw [is_one.2]; norm_num⟩

end

/-- The hypotheses of `world_to_pixel` hold for the point `(1, 1, 0)`, one unit in front of that camera, with unit focal
lengths and no skew. -/
example (lib : Libm Format.b64) :
    |Flt.val (f := .b64) (((Camera.mk (IntrinsicParametersPerspective.ofParams (R := F64 lib) ⟨1, 1, 0, 1, 1⟩)
      (fromRotationAndCamcenter ⟨0, 1, 0, 0⟩ ![1, 0, 1])).worldToPixel (⟨![![1, 1, 0]]⟩ : Points WorldFrame (F64 lib) 1)).data 0 1)
      - 0| ≤ 72 / 10 ^ 15 := by
  have z : (![0, -1, 1] : V3 ℝ) 2 = 1 := rfl
  have h := (c102_f64_world_to_pixel (lib := lib) (F := 1) (M := 1) (s := 1)
    (halfTurn_near (f := .b64) (lib := lib) _ (by norm_num)) le_rfl (one_le_pow₀ (by norm_num)) (c := ![1, 0, 1])
    (bounded_one le_rfl _ (by intro a; fin_cases a <;> simp)) ⟨1, 1, 0, 1, 1⟩ le_rfl (one_le_pow₀ (by norm_num))
    (params_one _ (by simp)) ⟨![![1, 1, 0]]⟩ 0 (bounded_one le_rfl _ (by intro a; fin_cases a <;> simp)) ![0, -1, 1]
    (halfTurn_sees 0).symm (by rw [z]; norm_num) (by rw [z]; norm_num) (by rw [z]; norm_num) 1).2
  refine le_of_eq_of_le ?_ (h.trans (by rw [z]; norm_num))
  have v1 : Flt.val (f := .b64) (1 : F64 lib) = 1 := is_one.2
  have e2 : Spec.pinhole (Flt.val (f := .b64) (1 : F64 lib)) (Flt.val (f := .b64) (1 : F64 lib))
      (Flt.val (f := .b64) (0 : F64 lib)) (Flt.val (f := .b64) (1 : F64 lib)) (Flt.val (f := .b64) (1 : F64 lib)) ![0, -1, 1] 1 = 0 := by
    rw [v1]
    simp only [Spec.pinhole, z]
    norm_num
  exact congrArg (fun t => |_ - t|) e2.symm

/-- The hypotheses of the round trip hold for the pixel `(1, 1)`, whose ray direction is `(1, 1, 1)`. -/
example (lib : Libm Format.b32) (cam : Camera (F32 lib) (IntrinsicParametersPerspective (F32 lib)))
    (hcam : cam = ⟨.ofParams ⟨1, 1, 0, 0, 0⟩, fromRotationAndCamcenter ⟨0, 1, 0, 0⟩ ![1, 0, 1]⟩) :
    |Flt.val (f := .b32) ((cam.worldToPixel (cam.pixelToWorld ⟨![![1, 1]]⟩).pointOnRay).data (0 : Fin 1) 0) - 1| ≤ 60 / 10 ^ 5 := by
  have h0 := is_zero (f := .b32) (lib := lib)
  have h1 := is_one (f := .b32) (lib := lib)
  have v1 : Flt.val (f := .b32) (1 : F32 lib) = 1 := h1.2
  have hb : ∀ {x : F32 lib}, Is x 1 → |Flt.val (f := .b32) x| ≤ 1 := fun h => by rw [h.2, abs_one]
  have hy : Is (lib := lib) (((1 : F32 lib) - 0) / 1) 1 := (h1.sub_zero h0).div_one h1
  have h := (c102_f32_roundtrip (lib := lib) (F := 1) (M := 1) (S := 1) (n := 1)
    (halfTurn_near (f := .b32) (lib := lib) _ (by norm_num)) le_rfl (c := ![1, 0, 1])
    (bounded_one le_rfl _ (by intro a; fin_cases a <;> simp)) ⟨1, 1, 0, 0, 0⟩ le_rfl (by norm_num)
    (params_one _ (by simp)) (by show _ ≤ |Flt.val (f := .b32) (1 : F32 lib)|; rw [v1]; norm_num)
    (by show _ ≤ |Flt.val (f := .b32) (1 : F32 lib)|; rw [v1]; norm_num) ⟨![![1, 1]]⟩ 0
    (by intro a; fin_cases a <;> exact ⟨h1.1, le_of_eq (by show |Flt.val (f := .b32) (1 : F32 lib)| = 1; rw [v1, abs_one])⟩)
    (by
      intro a
      rw [persp_pixelToCamera]
      fin_cases a
      · exact hb (((h1.sub_zero (h0.zero_mul hy)).sub_zero h0).div_one h1)
      · exact hb hy
      · exact hb is_lit_one)
    (by norm_num) cam hcam 0).2
  refine le_of_eq_of_le ?_ (h.trans (by norm_num))
  exact congrArg (fun t => |_ - t|) v1.symm

end CamGeom
