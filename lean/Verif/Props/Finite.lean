import Verif.Lemmas.InRange
import Verif.Lemmas.FloatRange
import Verif.Props.RoundingCamera
import Verif.Props.RoundingPixel

/-!
# C77: ordinary inputs never give NaN or infinity

The error bounds C44, C47 to C49 and C67 speak about finite results.  Here: the results *are* finite, with
explicit ranges for the inputs, and the bounds hold without that proviso for the IEEE 754 types.
-/

namespace CamGeom
open ExtrinsicParameters

variable {R : Type} [Scalar R] {n : ℕ} {fl : Rounding R} {k l m : ℕ}

namespace InRange

theorem cross (r : RoundingRange fl) {a b : V3 R} {j : ℕ} (ha : ∀ i, InRange fl j (a i))
    (hb : ∀ i, InRange fl k (b i)) (hk : j + k + 1 ≤ r.top) (i : Fin 3) :
    InRange fl (j + k + 1) (V3.cross a b i) := by
  fin_cases i
  · exact ((ha 1).mul r (hb 2) (by omega)).sub r ((ha 2).mul r (hb 1) (by omega)) hk
  · exact ((ha 2).mul r (hb 0) (by omega)).sub r ((ha 0).mul r (hb 2) (by omega)) hk
  · exact ((ha 0).mul r (hb 1) (by omega)).sub r ((ha 1).mul r (hb 0) (by omega)) hk

end InRange

/-- The components of a rotation are finite and at most 2. -/
structure QInRange (fl : Rounding R) (q : Quat R) : Prop where
  w : InRange fl 1 q.w
  i : InRange fl 1 q.i
  j : InRange fl 1 q.j
  k : InRange fl 1 q.k

namespace QInRange

variable {q : Quat R}

theorem vector (hq : QInRange fl q) (a : Fin 3) : InRange fl 1 (q.vector a) := by
  fin_cases a
  · exact hq.i
  · exact hq.j
  · exact hq.k

theorem inverse (r : RoundingRange fl) (hq : QInRange fl q) : QInRange fl q.inverse :=
  ⟨hq.w, hq.i.neg r, hq.j.neg r, hq.k.neg r⟩

theorem rotate (r : RoundingRange fl) (hq : QInRange fl q) {v : V3 R} (hv : ∀ a, InRange fl k (v a))
    (hk : k + 7 ≤ r.top) (a : Fin 3) : InRange fl (k + 7) (q.rotate v a) := by
  have hc := fun a => InRange.cross r hq.vector hv (by omega) a
  have ht : ∀ a, InRange fl (k + 3) (V3.scale (V3.cross q.vector v) (Scalar.lit 2) a) := fun a =>
    ((hc a).mul r (InRange.lit_two fl) (by omega)).mono (by omega)
  have hcc := fun a => InRange.cross r hq.vector ht (by omega) a
  have h1 := ((ht a).mul r hq.w (by omega)).mono (k := k + 5) (by omega)
  have h2 := h1.add r ((hcc a).mono (k := k + 5) (by omega)) (by omega)
  exact h2.add r ((hv a).mono (by omega)) (by omega)

theorem rotationMatrix (r : RoundingRange fl) (hq : QInRange fl q) (hk : 5 ≤ r.top) (a b : Fin 3) :
    InRange fl 5 (q.toRotationMatrix a b) := by
  have sq : ∀ {x y : R}, InRange fl 1 x → InRange fl 1 y → InRange fl 2 (x * y) := fun hx hy =>
    hx.mul r hy (by omega)
  have tw : ∀ {x y : R}, InRange fl 1 x → InRange fl 1 y → InRange fl 3 (x * y * Scalar.lit 2) :=
    fun hx hy => (sq hx hy).mul r (InRange.lit_two fl) (by omega)
  have up : ∀ {x : R} {j : ℕ}, InRange fl j x → ∀ m, InRange fl (j + m) x :=
    fun h m => h.mono (by omega)
  have ww := sq hq.w hq.w
  have ii := sq hq.i hq.i
  have jj := sq hq.j hq.j
  have kk := sq hq.k hq.k
  have ij := tw hq.i hq.j
  have wk := tw hq.w hq.k
  have wj := tw hq.w hq.j
  have ik := tw hq.i hq.k
  have jk := tw hq.j hq.k
  have wi := tw hq.w hq.i
  fin_cases a <;> fin_cases b
  · exact ((ww.add r ii (by omega)).sub r (up jj 1) (by omega)).sub r (up kk 2) (by omega)
  · exact (ij.sub r wk (by omega)).mono (by norm_num)
  · exact (wj.add r ik (by omega)).mono (by norm_num)
  · exact (wk.add r ij (by omega)).mono (by norm_num)
  · exact ((ww.sub r ii (by omega)).add r (up jj 1) (by omega)).sub r (up kk 2) (by omega)
  · exact (jk.sub r wi (by omega)).mono (by norm_num)
  · exact (ik.sub r wj (by omega)).mono (by norm_num)
  · exact (wi.add r jk (by omega)).mono (by norm_num)
  · exact ((ww.sub r ii (by omega)).sub r (up jj 1) (by omega)).add r (up kk 2) (by omega)

theorem translation (r : RoundingRange fl) (hq : QInRange fl q) {c : V3 R}
    (hc : ∀ a, InRange fl k (c a)) (hk : k + 7 ≤ r.top) (a : Fin 3) :
    InRange fl (k + 7) ((fromRotationAndCamcenter q c).translation a) := by
  have h : ∀ b, InRange fl (5 + k) (q.toRotationMatrix a b * c b) := fun b =>
    (hq.rotationMatrix r (by omega) a b).mul r (hc b) (by omega)
  exact ((((h 0).add r (h 1) (by omega)).add r ((h 2).mono (by omega)) (by omega)).neg r).mono (by omega)

end QInRange

/-- C77: camera coordinates of a world point are finite. -/
theorem c77_world_to_camera (r : RoundingRange fl) {q : Quat R} (hq : QInRange fl q) {c : V3 R}
    (hc : ∀ a, InRange fl k (c a)) (w : Points WorldFrame R n) (i : Fin n)
    (hx : ∀ a, InRange fl k (w.data i a)) (hk : k + 8 ≤ r.top) (a : Fin 3) :
    InRange fl (k + 8) (((fromRotationAndCamcenter q c).worldToCamera w).data i a) := by
  rw [worldToCamera_data]
  exact (hq.rotate r hx (by omega) a).add r (hq.translation r hc (by omega) a) hk

/-- C77: world coordinates of a camera-frame point are finite. -/
theorem c77_camera_to_world (r : RoundingRange fl) {q : Quat R} (hq : QInRange fl q) {c : V3 R}
    (hc : ∀ a, InRange fl k (c a)) (w : Points CameraFrame R n) (i : Fin n)
    (hx : ∀ a, InRange fl k (w.data i a)) (hk : k + 15 ≤ r.top) (a : Fin 3) :
    InRange fl (k + 15) (((fromRotationAndCamcenter q c).cameraToWorld w).data i a) := by
  rw [cameraToWorld_data]
  have h1 := (hq.inverse r).rotate r hx (by omega) a
  have h2 := (hq.inverse r).rotate r (v := V3.neg (fromRotationAndCamcenter q c).translation)
    (fun b => (hq.translation r hc (by omega) b).neg r) (by omega) a
  exact (h1.mono (by omega)).add r h2 hk

/-- C77: pixels of a camera-frame point off the principal plane are finite. -/
theorem c77_camera_to_pixel (r : RoundingRange fl) (p : PerspectiveParams R)
    (hp : ∀ x ∈ [p.fx, p.fy, p.skew, p.cx, p.cy], InRange fl m x) (w : Points CameraFrame R n)
    (i : Fin n) (hx : ∀ a, InRange fl k (w.data i a)) (hz : 1 / 2 ^ l ≤ |fl.val (w.data i 2)|)
    (hk : m + k + 3 + l ≤ r.top) (a : Fin 2) :
    InRange fl (m + k + 3 + l)
      (((IntrinsicParametersPerspective.ofParams p).cameraToPixel w).data i a) := by
  simp only [List.mem_cons, List.not_mem_nil, or_false, forall_eq_or_imp, forall_eq] at hp
  obtain ⟨b1, b2, b3, b4, b5⟩ := hp
  obtain ⟨hd, ed⟩ := depth_exact fl (hx 0).1 (hx 1).1 (hx 2).1
  have e0 : InRange fl (m + k + 2) (Scalar.lit 0 * 1 : R) :=
    ((InRange.lit_zero (k := 0) fl).mul r (InRange.one fl) (by omega)).mono (by omega)
  have ez : InRange fl (m + k) (Scalar.lit 0 * w.data i 0) :=
    ((InRange.lit_zero (k := m) fl).mul r (hx 0) (by omega)).mono (by omega)
  rw [persp_cameraToPixel]
  rw [← ed] at hz
  fin_cases a
  · exact (((((b1.mul r (hx 0) (by omega)).add r (b3.mul r (hx 1) (by omega)) (by omega)).add r
      ((b4.mul r (hx 2) (by omega)).mono (by omega)) (by omega)).add r e0 (by omega)).div r hd hz hk)
  · exact ((((ez.add r (b2.mul r (hx 1) (by omega)) (by omega)).add r
      ((b5.mul r (hx 2) (by omega)).mono (by omega)) (by omega)).add r e0 (by omega)).div r hd hz hk)

/-- C77: ray directions of pixels are finite when the focal lengths are not tiny. -/
theorem c77_pixel_to_camera (r : RoundingRange fl) (p : PerspectiveParams R)
    (hp : ∀ x ∈ [p.fx, p.fy, p.skew, p.cx, p.cy], InRange fl m x)
    (hfx : 1 / 2 ^ l ≤ |fl.val p.fx|) (hfy : 1 / 2 ^ l ≤ |fl.val p.fy|) (px : Pixels R n) (i : Fin n)
    (hx : ∀ a, InRange fl m (px.data i a)) (hk : 2 * m + 2 * l + 3 ≤ r.top) (a : Fin 3) :
    InRange fl (2 * m + 2 * l + 3)
      (((IntrinsicParametersPerspective.ofParams p).pixelToCamera px).data i a) := by
  simp only [List.mem_cons, List.not_mem_nil, or_false, forall_eq_or_imp, forall_eq] at hp
  obtain ⟨b1, b2, b3, b4, b5⟩ := hp
  rw [persp_pixelToCamera]
  have hy : InRange fl (m + 1 + l) ((px.data i 1 - p.cy) / p.fy) :=
    ((hx 1).sub r b5 (by omega)).div r b2.1 hfy (by omega)
  fin_cases a
  · have h1 := (b3.mul r hy (by omega))
    have h2 := (((hx 0).mono (by omega)).sub r h1 (by omega)).sub r (b4.mono (by omega)) (by omega)
    exact (h2.div r b1.1 hfx (by omega)).mono (by omega)
  · exact hy.mono (by omega)
  · exact (InRange.lit_one fl).mono (by omega)

/-- C77: orthographic pixels are finite. -/
theorem c77_orthographic_camera_to_pixel (r : RoundingRange fl) (p : OrthographicParams R)
    (hp : ∀ x ∈ [p.sx, p.sy, p.cx, p.cy], InRange fl m x) (w : Points CameraFrame R n)
    (i : Fin n) (hx : ∀ a, InRange fl k (w.data i a)) (hk : m + k + 1 ≤ r.top) (a : Fin 2) :
    InRange fl (m + k + 1)
      (((IntrinsicParametersOrthographic.ofParams p).cameraToPixel w).data i a) := by
  simp only [List.mem_cons, List.not_mem_nil, or_false, forall_eq_or_imp, forall_eq] at hp
  obtain ⟨b1, b2, b3, b4⟩ := hp
  rw [ortho_cameraToPixel]
  fin_cases a
  · exact (((hx 0).mul r b1 (by omega)).mono (by omega)).add r (b3.mono (by omega)) hk
  · exact (((hx 1).mul r b2 (by omega)).mono (by omega)).add r (b4.mono (by omega)) hk

/-- C77: orthographic ray origins are finite when the scales are not tiny. -/
theorem c77_orthographic_pixel_to_camera (r : RoundingRange fl) (p : OrthographicParams R)
    (hp : ∀ x ∈ [p.sx, p.sy, p.cx, p.cy], InRange fl m x)
    (hsx : 1 / 2 ^ l ≤ |fl.val p.sx|) (hsy : 1 / 2 ^ l ≤ |fl.val p.sy|) (px : Pixels R n) (i : Fin n)
    (hx : ∀ a, InRange fl m (px.data i a)) (hk : m + 1 + l ≤ r.top) (a : Fin 3) :
    InRange fl (m + 1 + l)
      (((IntrinsicParametersOrthographic.ofParams p).pixelToCamera px).data i a) := by
  simp only [List.mem_cons, List.not_mem_nil, or_false, forall_eq_or_imp, forall_eq] at hp
  obtain ⟨b1, b2, b3, b4⟩ := hp
  rw [ortho_pixelToCamera]
  fin_cases a
  · exact ((hx 0).sub r b3 (by omega)).div r b1.1 hsx hk
  · exact ((hx 1).sub r b4 (by omega)).div r b2.1 hsy hk
  · exact InRange.lit_zero fl

/-- The two summands of a point on a ray in world coordinates. -/
theorem QInRange.poseInv (r : RoundingRange fl) {q : Quat R} (hq : QInRange fl q) {c : V3 R}
    (hc : ∀ a, InRange fl k (c a)) {v : V3 R} (hv : ∀ a, InRange fl k (v a)) (hk : k + 15 ≤ r.top)
    (a : Fin 3) :
    InRange fl (k + 15) ((fromRotationAndCamcenter q c).cache.poseInv.transformPoint v a) ∧
    InRange fl (k + 7) ((fromRotationAndCamcenter q c).cache.poseInv.transformVector v a) := by
  have h1 := (hq.inverse r).rotate r hv (by omega) a
  have h2 := (hq.inverse r).rotate r (v := V3.neg (fromRotationAndCamcenter q c).translation)
    (fun b => (hq.translation r hc (by omega) b).neg r) (by omega) a
  exact ⟨(h1.mono (by omega)).add r h2 hk, h1⟩

/-- C77: a point on the ray of a pixel, converted back to the camera frame, is finite. -/
theorem c77_perspective_ray_point (r : RoundingRange fl) (p : PerspectiveParams R) {q : Quat R}
    (hq : QInRange fl q) {c : V3 R} (hc : ∀ a, InRange fl k (c a)) (px : Pixels R n) (i : Fin n)
    (hd : ∀ a, InRange fl k (((IntrinsicParametersPerspective.ofParams p).pixelToCamera px).data i a))
    (cam : Camera R (IntrinsicParametersPerspective R))
    (hcam : cam = ⟨.ofParams p, fromRotationAndCamcenter q c⟩) (hk : k + 24 ≤ r.top) (a : Fin 3) :
    InRange fl (k + 16) ((cam.pixelToWorld px).pointOnRay.data i a) ∧
    InRange fl (k + 24)
      ((cam.extrinsics.worldToCamera (cam.pixelToWorld px).pointOnRay).data i a) := by
  have z : ∀ b, InRange fl k ((![Scalar.lit 0, Scalar.lit 0, Scalar.lit 0] : V3 R) b) := by
    intro b; fin_cases b <;> exact InRange.lit_zero fl
  have e : ∀ b, (cam.pixelToWorld px).pointOnRay.data i b =
      (fromRotationAndCamcenter q c).cache.poseInv.transformPoint
        ![Scalar.lit 0, Scalar.lit 0, Scalar.lit 0] b +
      (fromRotationAndCamcenter q c).cache.poseInv.transformVector
        (((IntrinsicParametersPerspective.ofParams p).pixelToCamera px).data i) b := by
    intro b
    subst hcam
    simp only [Camera.pixelToWorld, rayCameraToWorld, RayBundle.toPose, RayBundle.pointOnRay,
      Bundle.toPose, Bundle.pointOnRay, IntrinsicParameters.pixelToCamera, so_toPose, so_pointOnRay,
      persp_pixelToCamera, SharedOriginRayBundle.newSharedZeroOrigin]
  have h : ∀ b, InRange fl (k + 16) ((cam.pixelToWorld px).pointOnRay.data i b) := by
    intro b
    rw [e]
    exact (hq.poseInv r hc z (by omega) b).1.add r
      ((hq.poseInv r hc hd (by omega) b).2.mono (by omega)) (by omega)
  refine ⟨h a, ?_⟩
  have := c77_world_to_camera r hq (fun b => (hc b).mono (by omega)) (cam.pixelToWorld px).pointOnRay i h
    (by omega) a
  rw [hcam] at this ⊢
  exact this

/-- C77: the same for orthographic cameras. -/
theorem c77_orthographic_ray_point (r : RoundingRange fl) (p : OrthographicParams R) {q : Quat R}
    (hq : QInRange fl q) {c : V3 R} (hc : ∀ a, InRange fl k (c a)) (px : Pixels R n) (i : Fin n)
    (hd : ∀ a, InRange fl k (((IntrinsicParametersOrthographic.ofParams p).pixelToCamera px).data i a))
    (cam : Camera R (IntrinsicParametersOrthographic R))
    (hcam : cam = ⟨.ofParams p, fromRotationAndCamcenter q c⟩) (hk : k + 24 ≤ r.top) (a : Fin 3) :
    InRange fl (k + 16) ((cam.pixelToWorld px).pointOnRay.data i a) ∧
    InRange fl (k + 24)
      ((cam.extrinsics.worldToCamera (cam.pixelToWorld px).pointOnRay).data i a) := by
  have z : ∀ b, InRange fl k ((![0, 0, 1] : V3 R) b) := by
    intro b; fin_cases b
    · exact InRange.zero fl
    · exact InRange.zero fl
    · exact (InRange.one fl).mono (by omega)
  have e : ∀ b, (cam.pixelToWorld px).pointOnRay.data i b =
      (fromRotationAndCamcenter q c).cache.poseInv.transformVector ![0, 0, 1] b +
      (fromRotationAndCamcenter q c).cache.poseInv.transformPoint
        (((IntrinsicParametersOrthographic.ofParams p).pixelToCamera px).data i) b := by
    intro b
    subst hcam
    simp only [Camera.pixelToWorld, rayCameraToWorld, RayBundle.toPose, RayBundle.pointOnRay,
      Bundle.toPose, Bundle.pointOnRay, IntrinsicParameters.pixelToCamera, sd_toPose, sd_pointOnRay,
      ortho_pixelToCamera, SharedDirectionRayBundle.newPluszSharedDirection]
  have h : ∀ b, InRange fl (k + 16) ((cam.pixelToWorld px).pointOnRay.data i b) := by
    intro b
    rw [e]
    exact ((hq.poseInv r hc z (by omega) b).2.mono (by omega)).add r
      (hq.poseInv r hc hd (by omega) b).1 (by omega)
  refine ⟨h a, ?_⟩
  have := c77_world_to_camera r hq (fun b => (hc b).mono (by omega)) (cam.pixelToWorld px).pointOnRay i h
    (by omega) a
  rw [hcam] at this ⊢
  exact this

/-- C77: `world_to_pixel` of a point that is not within rounding error of the principal plane is finite.
`X` is the exact camera-frame position and `δ` the error bound of C47. -/
theorem c77_world_to_pixel (r : RoundingRange fl) (p : PerspectiveParams R)
    (hp : ∀ x ∈ [p.fx, p.fy, p.skew, p.cx, p.cy], InRange fl m x) {q : Quat R} (hq : QInRange fl q)
    {c : V3 R} (hc : ∀ a, InRange fl k (c a)) (w : Points WorldFrame R n) (i : Fin n)
    (hx : ∀ a, InRange fl k (w.data i a)) (X : V3 ℝ)
    (hX : X = ((fromRotationAndCamcenter (fl.quat q) (fl.vec c)).worldToCamera
          ⟨fun i => fl.vec (w.data i)⟩).data i)
    (hδ : ((1 + fl.u) ^ 8 - 1) * (97 * 2 ^ k + fl.ω * (18 * 2 ^ k + 36)) ≤ |X 2| / 2)
    (hZ : 1 / 2 ^ l ≤ |X 2|) (hk : m + k + l + 12 ≤ r.top) (a : Fin 2) :
    InRange fl (m + k + l + 12) (((Camera.mk (IntrinsicParametersPerspective.ofParams p)
        (fromRotationAndCamcenter q c)).worldToPixel w).data i a) := by
  have hf := c77_world_to_camera r hq hc w i hx (by omega)
  have h2 := c47_world_to_camera fl q c 2 (2 ^ k) (by simpa using hq.w.2) (by simpa using hq.i.2)
    (by simpa using hq.j.2) (by simpa using hq.k.2) (fun a => (hc a).2) w i (fun a => (hx a).2) 2 (hf 2).1
  rw [← hX] at h2
  have h3 : |fl.val (((fromRotationAndCamcenter q c).worldToCamera w).data i 2) - X 2| ≤ |X 2| / 2 :=
    h2.trans (le_trans (le_of_eq (by ring)) hδ)
  have h4 : 1 / 2 ^ (l + 1) ≤ |fl.val (((fromRotationAndCamcenter q c).worldToCamera w).data i 2)| := by
    have h5 := abs_sub_abs_le_abs_sub (X 2)
      (fl.val (((fromRotationAndCamcenter q c).worldToCamera w).data i 2))
    rw [abs_sub_comm] at h5
    have e : (1 : ℝ) / 2 ^ (l + 1) = 1 / 2 ^ l / 2 := by rw [pow_succ]; field_simp
    rw [e]
    linarith
  exact (c77_camera_to_pixel r p hp ((fromRotationAndCamcenter q c).worldToCamera w) i hf h4 (by omega)
    a).mono (by omega)

/-- C77: the full round trip from a pixel to a point on its ray and back is finite.  The hypothesis on
`tripBound` (C67) says that rounding cannot bring the point to the principal plane. -/
theorem c77_perspective_roundtrip (r : RoundingRange fl) (p : PerspectiveParams R)
    (hp : ∀ x ∈ [p.fx, p.fy, p.skew, p.cx, p.cy], InRange fl m x) {q : Quat R} (hq : QInRange fl q)
    {c : V3 R} {ε : ℝ} (hε : |quatNormSq (fl.quat q) - 1| ≤ ε)
    (hc : ∀ a, InRange fl k (c a)) (px : Pixels R n) (i : Fin n)
    (hd : ∀ a, InRange fl k (((IntrinsicParametersPerspective.ofParams p).pixelToCamera px).data i a))
    (hδ : tripBound fl.u fl.ω ε (2 ^ k) ≤ 1 / 2) (cam : Camera R (IntrinsicParametersPerspective R))
    (hcam : cam = ⟨.ofParams p, fromRotationAndCamcenter q c⟩) (hk : m + k + 28 ≤ r.top) (a : Fin 2) :
    InRange fl (m + k + 28) ((cam.worldToPixel (cam.pixelToWorld px).pointOnRay).data i a) := by
  have hf := fun b => (c77_perspective_ray_point r p hq hc px i hd cam hcam (by omega) b).2
  have h2 := c67_perspective_point fl p q c ε (2 ^ k) hε (fun a => (hc a).2) px i _ rfl
    (fun a => (hd a).2) cam hcam 2 (hf 2).1
  have e2 : fl.val (((IntrinsicParametersPerspective.ofParams p).pixelToCamera px).data i 2) = 1 := by
    rw [persp_pixelToCamera]; exact fl.lit_one.2
  rw [e2] at h2
  have h3 : 1 / 2 ^ 1 ≤ |fl.val ((cam.extrinsics.worldToCamera
      (cam.pixelToWorld px).pointOnRay).data i 2)| := by
    have h4 := abs_le.1 (h2.trans hδ)
    refine le_trans ?_ (le_abs_self _)
    norm_num
    linarith [h4.1]
  have := c77_camera_to_pixel r p hp _ i hf h3 (by omega) a
  rw [hcam] at this ⊢
  exact this.mono (by omega)

/-- C77: the orthographic round trip is finite. -/
theorem c77_orthographic_roundtrip (r : RoundingRange fl) (p : OrthographicParams R)
    (hp : ∀ x ∈ [p.sx, p.sy, p.cx, p.cy], InRange fl m x) {q : Quat R} (hq : QInRange fl q)
    {c : V3 R} (hc : ∀ a, InRange fl k (c a)) (px : Pixels R n) (i : Fin n)
    (hd : ∀ a, InRange fl k (((IntrinsicParametersOrthographic.ofParams p).pixelToCamera px).data i a))
    (cam : Camera R (IntrinsicParametersOrthographic R))
    (hcam : cam = ⟨.ofParams p, fromRotationAndCamcenter q c⟩) (hk : m + k + 25 ≤ r.top) (a : Fin 2) :
    InRange fl (m + k + 25) ((cam.worldToPixel (cam.pixelToWorld px).pointOnRay).data i a) := by
  have hf := fun b => (c77_orthographic_ray_point r p hq hc px i hd cam hcam (by omega) b).2
  have := c77_orthographic_camera_to_pixel r p hp _ i hf (by omega) a
  rw [hcam] at this ⊢
  exact this.mono (by omega)

/-- Non-vacuity of C77 for `f64` (identity rotation, centre and point (1, 1, 1)); see also
`Verif/Props/FloatCamera.lean`. -/
example (lib : Libm Format.b64) (a : Fin 3) : InRange (RustFloat.rounding .b64 lib) 8
    (((fromRotationAndCamcenter (⟨1, 0, 0, 0⟩ : Quat (F64 lib)) fun _ => 1).worldToCamera
      (⟨fun _ _ => 1⟩ : Points WorldFrame (F64 lib) 1)).data 0 a) :=
  c77_world_to_camera (k := 0) (RustFloat.range .b64 lib)
    ⟨(InRange.one _).mono (by norm_num), InRange.zero _, InRange.zero _, InRange.zero _⟩
    (fun _ => InRange.one _) _ 0 (fun _ => InRange.one _) (by show 8 ≤ 1023; norm_num) a

/-- Non-vacuity of the pixel part of C77 for `f32`: focal lengths 2, the remaining parameters 1, pixel (1, 1),
then the point (1, 1, 1). -/
example (lib : Libm Format.b32) (a : Fin 3) (b : Fin 2) :
    InRange (RustFloat.rounding .b32 lib) 5 (((IntrinsicParametersPerspective.ofParams
      (⟨Scalar.lit 2, Scalar.lit 2, 1, 1, 1⟩ : PerspectiveParams (F32 lib))).pixelToCamera
        (⟨fun _ _ => 1⟩ : Pixels (F32 lib) 1)).data 0 a) ∧
    InRange (RustFloat.rounding .b32 lib) 4 (((IntrinsicParametersPerspective.ofParams
      (⟨Scalar.lit 2, Scalar.lit 2, 1, 1, 1⟩ : PerspectiveParams (F32 lib))).cameraToPixel
        (⟨fun _ _ => 1⟩ : Points CameraFrame (F32 lib) 1)).data 0 b) := by
  set fl := RustFloat.rounding .b32 lib
  have o1 : InRange fl 1 (1 : F32 lib) := (InRange.one fl).mono (by norm_num)
  have h2 : 1 / 2 ^ 0 ≤ |fl.val (Scalar.lit 2)| := by rw [fl.lit_two.2]; norm_num
  have hp : ∀ x ∈ [(Scalar.lit 2 : F32 lib), Scalar.lit 2, 1, 1, 1], InRange fl 1 x := by
    intro x hx
    simp only [List.mem_cons, List.not_mem_nil, or_false] at hx
    rcases hx with rfl | rfl | rfl | rfl | rfl
    exacts [InRange.lit_two fl, InRange.lit_two fl, o1, o1, o1]
  constructor
  · exact c77_pixel_to_camera (m := 1) (l := 0) (RustFloat.range .b32 lib) _ hp h2 h2 _ 0 (fun _ => o1)
      (by show _ ≤ 127; norm_num) a
  · exact c77_camera_to_pixel (m := 1) (k := 0) (l := 0) (RustFloat.range .b32 lib) _ hp _ 0
      (fun _ => InRange.one fl) (by
        show 1 / 2 ^ 0 ≤ |fl.val 1|
        rw [fl.one.2]; norm_num) (by show _ ≤ 127; norm_num) b

end CamGeom
