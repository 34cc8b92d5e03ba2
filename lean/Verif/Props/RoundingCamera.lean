import Verif.Props.RoundingPixel
import Verif.Lemmas.QuatDefect
import Verif.Props.Symmetry

/-!
# C67: accuracy of the full camera round trip

Pixel, world ray, world point, pixel: `world_to_pixel(pixel_to_world(px).point_on_ray())` evaluated in
floating point, for every camera whose quaternion has unit norm up to an error `ε` (an exact unit
quaternion is in general not representable).
-/

namespace CamGeom
open Rounding ExtrinsicParameters Spec Matrix

variable {R : Type} [Scalar R] {n : ℕ}

/-- Magnitude bound of a rotated vector (quaternion components at most `Q`, vector components at most
`M`, smallest normal number `ω`). -/
def rotMag (Q ω M : ℝ) : ℝ := 12 * Q ^ 2 * M + M + ω * (15 * Q + 3)

/-- Magnitude bound of the cached translation. -/
def transMag (Q ω M : ℝ) : ℝ := 12 * Q ^ 2 * M + ω * (18 * M + 3)

/-- Magnitude bound of the world point on a ray. -/
def worldMag (Q ω M : ℝ) : ℝ :=
  rotMag Q ω M + rotMag Q ω (transMag Q ω M) + rotMag Q ω M

/-- Magnitude bound of all intermediate results of the round trip through the world frame. -/
def tripMag (Q ω M : ℝ) : ℝ := rotMag Q ω (worldMag Q ω M) + transMag Q ω M

variable {fl : Rounding R} {k : ℕ} {Q M : ℝ}

theorem QComp.rotate' {q : Quat R} {q' : Quat ℝ} {v : V3 R} {v' : V3 ℝ} (hq : QComp fl 0 Q q q')
    (hv : ∀ i, fl.Comp k M (v i) (v' i)) (j : Fin 3) :
    fl.Comp (k + 7) (rotMag Q fl.ω M) (q.rotate v j) (q'.rotate v' j) := hq.rotate hv j

theorem QComp.translation' {q : Quat R} {q' : Quat ℝ} {c : V3 R} {c' : V3 ℝ}
    (hq : QComp fl 0 Q q q') (hc : ∀ i, fl.Comp 0 M (c i) (c' i)) (a : Fin 3) :
    fl.Comp 7 (transMag Q fl.ω M) ((fromRotationAndCamcenter q c).translation a)
      ((fromRotationAndCamcenter q' c').translation a) := hq.translation hc a

/-- A point `x + y`, each summand moved to the world frame on its own, one as a point and one as a
vector, and back to the camera frame. -/
theorem QComp.trip {q : Quat R} {q' : Quat ℝ} {c x y : V3 R} {c' x' y' : V3 ℝ}
    (hq : QComp fl 0 Q q q') (hc : ∀ i, fl.Comp 0 M (c i) (c' i)) {A B : ℝ}
    (hx : ∀ i, fl.Comp 0 A (x i) (x' i)) (hy : ∀ i, fl.Comp 0 B (y i) (y' i))
    (comm : Bool) (a : Fin 3) :
    let e := fromRotationAndCamcenter q c
    let e' := fromRotationAndCamcenter q' c'
    fl.Comp 24 (rotMag Q fl.ω (rotMag Q fl.ω A + rotMag Q fl.ω (transMag Q fl.ω M) +
        rotMag Q fl.ω B) + transMag Q fl.ω M)
      (e.cache.pose.transformPoint (fun j => if comm then
        e.cache.poseInv.transformPoint x j + e.cache.poseInv.transformVector y j else
        e.cache.poseInv.transformVector y j + e.cache.poseInv.transformPoint x j) a)
      (e'.cache.pose.transformPoint (fun j =>
        e'.cache.poseInv.transformPoint x' j + e'.cache.poseInv.transformVector y' j) a) := by
  intro e e'
  have ht := fun b => hq.translation' (c := c) (c' := c') hc b
  have hti : ∀ j, fl.Comp 14 (rotMag Q fl.ω (transMag Q fl.ω M)) (e.cache.poseInv.translation j)
      (e'.cache.poseInv.translation j) := fun j =>
    hq.inverse.rotate' (v := V3.neg e.translation) (v' := V3.neg e'.translation)
      (fun b => (ht b).neg) j
  have hP : ∀ j, fl.Comp 15 (rotMag Q fl.ω A + rotMag Q fl.ω (transMag Q fl.ω M))
      (e.cache.poseInv.transformPoint x j) (e'.cache.poseInv.transformPoint x' j) := fun j =>
    ((hq.inverse.rotate' hx j).mono (k' := 14) (by norm_num) le_rfl).add (hti j)
  have hV : ∀ j, fl.Comp 15 (rotMag Q fl.ω B)
      (e.cache.poseInv.transformVector y j) (e'.cache.poseInv.transformVector y' j) := fun j =>
    (hq.inverse.rotate' hy j).mono (k' := 15) (by norm_num) le_rfl
  have hX : ∀ j, fl.Comp 16 (rotMag Q fl.ω A + rotMag Q fl.ω (transMag Q fl.ω M) + rotMag Q fl.ω B)
      (if comm then e.cache.poseInv.transformPoint x j + e.cache.poseInv.transformVector y j else
        e.cache.poseInv.transformVector y j + e.cache.poseInv.transformPoint x j)
      (e'.cache.poseInv.transformPoint x' j + e'.cache.poseInv.transformVector y' j) := by
    intro j
    cases comm
    · exact (((hV j).add (hP j)).congr (add_comm _ _)).mono le_rfl (le_of_eq (add_comm _ _))
    · exact (hP j).add (hV j)
  exact (hq.rotate' hX a).add ((ht a).mono (k' := 23) (by norm_num) le_rfl)

/-- In exact arithmetic the trip returns the point up to the defect of the quaternion. -/
theorem trip_real (q : Quat ℝ) (c x y : V3 ℝ) :
    let e := fromRotationAndCamcenter q c
    e.cache.pose.transformPoint (fun j =>
        e.cache.poseInv.transformPoint x j + e.cache.poseInv.transformVector y j) =
      (x + y) + (4 * (1 - quatNormSq q)) •
        (q.vector ⨯₃ (q.vector ⨯₃ (x + y - e.translation))) := by
  intro e
  have h1 : (fun j => e.cache.poseInv.transformPoint x j + e.cache.poseInv.transformVector y j) =
      q.inverse.rotate (x + y - e.translation) := by
    have : e.cache.poseInv.transformPoint x + e.cache.poseInv.transformVector y =
      (q.inverse.rotate x + q.inverse.rotate (-e.translation)) + q.inverse.rotate y := rfl
    rw [← rotate_add, ← rotate_add] at this
    rw [sub_eq_add_neg, add_right_comm]
    exact this
  have h2 : ∀ z : V3 ℝ, e.cache.pose.transformPoint z = q.rotate z + e.translation := fun z => rfl
  rw [h1, h2, rotate_inverse_defect]
  abel

/-- Size of the defect. -/
theorem defect_le {q : Quat ℝ} (hw : |q.w| ≤ Q) (hi : |q.i| ≤ Q) (hj : |q.j| ≤ Q) (hk : |q.k| ≤ Q)
    {ε : ℝ} (hε : |quatNormSq q - 1| ≤ ε) {v : V3 ℝ} {L : ℝ} (hv : ∀ a, |v a| ≤ L) (a : Fin 3) :
    |((4 * (1 - quatNormSq q)) • (q.vector ⨯₃ (q.vector ⨯₃ v))) a| ≤ 16 * ε * Q ^ 2 * L := by
  have hQ : 0 ≤ Q := (abs_nonneg _).trans hw
  have hL : 0 ≤ L := (abs_nonneg _).trans (hv 0)
  have hε0 : 0 ≤ ε := (abs_nonneg _).trans hε
  have hq : ∀ a, |q.vector a| ≤ Q := by
    intro a; fin_cases a
    · exact hi
    · exact hj
    · exact hk
  have cr : ∀ {x y : V3 ℝ} {A B : ℝ}, (∀ a, |x a| ≤ A) → (∀ a, |y a| ≤ B) → ∀ a,
      |(x ⨯₃ y) a| ≤ 2 * (A * B) := by
    intro x y A B hx hy a
    have hA : 0 ≤ A := (abs_nonneg _).trans (hx 0)
    have key : ∀ i j k l, |x i * y j - x k * y l| ≤ 2 * (A * B) := by
      intro i j k l
      refine (abs_sub _ _).trans ?_
      rw [abs_mul, abs_mul]
      have h1 := mul_le_mul (hx i) (hy j) (abs_nonneg _) hA
      have h2 := mul_le_mul (hx k) (hy l) (abs_nonneg _) hA
      linarith
    rw [cross_apply]
    fin_cases a
    · exact key _ _ _ _
    · exact key _ _ _ _
    · exact key _ _ _ _
  have h := cr hq (cr hq hv) a
  rw [Pi.smul_apply, smul_eq_mul, abs_mul, abs_mul, abs_of_pos (by norm_num : (0 : ℝ) < 4),
    abs_sub_comm]
  calc 4 * |quatNormSq q - 1| * |(q.vector ⨯₃ (q.vector ⨯₃ v)) a|
      ≤ 4 * ε * (2 * (Q * (2 * (Q * L)))) := by gcongr
    _ = _ := by ring

theorem rot_le {q : Quat ℝ} (hw : |q.w| ≤ Q) (hi : |q.i| ≤ Q) (hj : |q.j| ≤ Q) (hk : |q.k| ≤ Q)
    (a a' : Fin 3) : |q.toRotationMatrix a a'| ≤ 4 * Q ^ 2 := by
  have hQ : 0 ≤ Q := (abs_nonneg _).trans hw
  have hm : ∀ {x y : ℝ}, |x| ≤ Q → |y| ≤ Q → |x * y| ≤ Q ^ 2 := by
    intro x y h1 h2
    rw [abs_mul, sq]; exact mul_le_mul h1 h2 (abs_nonneg _) hQ
  have b : ∀ {x y : ℝ}, |x| ≤ Q → |y| ≤ Q → x * y ≤ Q ^ 2 ∧ -(Q ^ 2) ≤ x * y := fun h1 h2 =>
    (abs_le.1 (hm h1 h2)).symm
  have ww := b hw hw; have ii := b hi hi; have jj := b hj hj; have kk := b hk hk
  have ij := b hi hj; have wk := b hw hk; have wj := b hw hj; have ik := b hi hk
  have jk := b hj hk; have wi := b hw hi
  rw [abs_le]
  fin_cases a <;> fin_cases a' <;> simp [Quat.toRotationMatrix] <;> constructor <;> linarith

theorem trans_le {q : Quat ℝ} (hw : |q.w| ≤ Q) (hi : |q.i| ≤ Q) (hj : |q.j| ≤ Q) (hk : |q.k| ≤ Q)
    {c : V3 ℝ} (hc : ∀ a, |c a| ≤ M) (a : Fin 3) :
    |(fromRotationAndCamcenter q c).translation a| ≤ 12 * Q ^ 2 * M := by
  have hM : 0 ≤ M := (abs_nonneg _).trans (hc 0)
  have rot := rot_le hw hi hj hk
  have e : (fromRotationAndCamcenter q c).translation a =
      -(q.toRotationMatrix a 0 * c 0 + q.toRotationMatrix a 1 * c 1 + q.toRotationMatrix a 2 * c 2) :=
    rfl
  have t : ∀ b, |q.toRotationMatrix a b * c b| ≤ 4 * Q ^ 2 * M := fun b => by
    rw [abs_mul]; exact mul_le_mul (rot a b) (hc b) (abs_nonneg _) (by positivity)
  rw [e, abs_neg]
  have h1 := abs_add_three (q.toRotationMatrix a 0 * c 0) (q.toRotationMatrix a 1 * c 1)
    (q.toRotationMatrix a 2 * c 2)
  linarith [t 0, t 1, t 2]

theorem comps_le {q : Quat ℝ} {ε : ℝ} (hε : |quatNormSq q - 1| ≤ ε) :
    |q.w| ≤ 1 + ε ∧ |q.i| ≤ 1 + ε ∧ |q.j| ≤ 1 + ε ∧ |q.k| ≤ 1 + ε := by
  have h0 : 0 ≤ ε := (abs_nonneg _).trans hε
  have h := (abs_le.1 hε).2
  unfold quatNormSq at h
  refine ⟨?_, ?_, ?_, ?_⟩ <;> apply abs_le_of_sq_le_sq _ (by linarith) <;>
    nlinarith [sq_nonneg q.w, sq_nonneg q.i, sq_nonneg q.j, sq_nonneg q.k]

theorem rotMag_mono {ω M M' : ℝ} (h : M ≤ M') : rotMag Q ω M ≤ rotMag Q ω M' := by
  unfold rotMag
  have := mul_le_mul_of_nonneg_left h (by positivity : 0 ≤ 12 * Q ^ 2)
  linarith

/-- Error bound of the round trip through the world frame: 24 roundings, and the effect of the norm of
the quaternion being off by `ε`.  `M` bounds the coordinates of the camera centre and of the point in
the camera frame. -/
def tripBound (u ω ε M : ℝ) : ℝ :=
  ((1 + u) ^ 24 - 1) * tripMag (1 + ε) ω M +
    16 * ε * (1 + ε) ^ 2 * (2 * M + 12 * (1 + ε) ^ 2 * M)

theorem trip_error (fl : Rounding R) (q : Quat R) (c x y : V3 R) (ε M : ℝ)
    (hε : |quatNormSq (fl.quat q) - 1| ≤ ε) (hc : ∀ a, |fl.val (c a)| ≤ M)
    (hx : ∀ a, |fl.val (x a)| ≤ M) (hy : ∀ a, |fl.val (y a)| ≤ M) (comm : Bool) (a : Fin 3) :
    let e := fromRotationAndCamcenter q c
    let w := e.cache.pose.transformPoint (fun j => if comm then
        e.cache.poseInv.transformPoint x j + e.cache.poseInv.transformVector y j else
        e.cache.poseInv.transformVector y j + e.cache.poseInv.transformPoint x j) a
    fl.isFinite w →
      |fl.val w - (fl.val (x a) + fl.val (y a))| ≤ tripBound fl.u fl.ω ε M := by
  intro e w hf
  obtain ⟨hw, hi, hj, hk⟩ := comps_le hε
  have hq := QComp.of_val fl hw hi hj hk
  have h1 := hq.trip (c := c) (c' := fl.vec c) (x := x) (x' := fl.vec x) (y := y) (y' := fl.vec y)
    (fun b => Comp.of_le (hc b)) (fun b => Comp.of_le (hx b)) (fun b => Comp.of_le (hy b)) comm a hf
  have h2 := h1.2
  rw [trip_real, Pi.add_apply] at h2
  have ht := fun b => trans_le hw hi hj hk (c := fl.vec c) hc b
  have h3 := defect_le hw hi hj hk hε (v := fl.vec x + fl.vec y -
      (fromRotationAndCamcenter (fl.quat q) (fl.vec c)).translation)
    (L := 2 * M + 12 * (1 + ε) ^ 2 * M) (fun b => by
      refine (abs_sub _ _).trans ?_
      have : |(fl.vec x + fl.vec y) b| ≤ |fl.val (x b)| + |fl.val (y b)| := abs_add_le _ _
      linarith [ht b, hx b, hy b]) a
  set D := ((4 * (1 - quatNormSq (fl.quat q))) • ((fl.quat q).vector ⨯₃ ((fl.quat q).vector ⨯₃
    (fl.vec x + fl.vec y - (fromRotationAndCamcenter (fl.quat q) (fl.vec c)).translation)))) a
  have e1 : (fl.vec x + fl.vec y) a = fl.val (x a) + fl.val (y a) := rfl
  rw [e1] at h2
  have h4 := abs_add_le (fl.val w - (fl.val (x a) + fl.val (y a) + D)) D
  rw [show fl.val w - (fl.val (x a) + fl.val (y a) + D) + D =
    fl.val w - (fl.val (x a) + fl.val (y a)) by ring] at h4
  exact h4.trans (add_le_add h2 h3)

/-- C67, perspective camera, in the camera frame: converting the computed world point of a pixel's ray
back to the camera frame gives the direction `pixel_to_camera` computed for the pixel, up to
`tripBound`. -/
theorem c67_perspective_point (fl : Rounding R) (p : PerspectiveParams R) (q : Quat R) (c : V3 R)
    (ε M : ℝ) (hε : |quatNormSq (fl.quat q) - 1| ≤ ε) (hc : ∀ a, |fl.val (c a)| ≤ M)
    (px : Pixels R n) (i : Fin n) (d : V3 R)
    (hd : d = ((IntrinsicParametersPerspective.ofParams p).pixelToCamera px).data i)
    (hM : ∀ a, |fl.val (d a)| ≤ M) (cam : Camera R (IntrinsicParametersPerspective R))
    (hcam : cam = ⟨.ofParams p, fromRotationAndCamcenter q c⟩) (a : Fin 3)
    (hf : fl.isFinite ((cam.extrinsics.worldToCamera (cam.pixelToWorld px).pointOnRay).data i a)) :
    |fl.val ((cam.extrinsics.worldToCamera (cam.pixelToWorld px).pointOnRay).data i a) -
      fl.val (d a)| ≤ tripBound fl.u fl.ω ε M := by
  have hM0 : 0 ≤ M := (abs_nonneg _).trans (hc 0)
  have l0 := fl.lit_zero.2
  have e : (cam.extrinsics.worldToCamera (cam.pixelToWorld px).pointOnRay).data i a =
      (fromRotationAndCamcenter q c).cache.pose.transformPoint (fun j => if true then
        (fromRotationAndCamcenter q c).cache.poseInv.transformPoint
          (fun _ => Scalar.lit 0) j + (fromRotationAndCamcenter q c).cache.poseInv.transformVector d j
        else (fromRotationAndCamcenter q c).cache.poseInv.transformVector d j +
          (fromRotationAndCamcenter q c).cache.poseInv.transformPoint (fun _ => Scalar.lit 0) j) a := by
    subst hcam hd
    have z : (![Scalar.lit 0, Scalar.lit 0, Scalar.lit 0] : V3 R) = fun _ => Scalar.lit 0 := by
      funext j; fin_cases j <;> rfl
    rw [worldToCamera_data]
    simp only [Camera.pixelToWorld, rayCameraToWorld, RayBundle.toPose, RayBundle.pointOnRay,
      Bundle.toPose, Bundle.pointOnRay, IntrinsicParameters.pixelToCamera, so_toPose, so_pointOnRay,
      persp_pixelToCamera, SharedOriginRayBundle.newSharedZeroOrigin, z, if_true]
  rw [e] at hf ⊢
  have h := trip_error fl q c (fun _ => Scalar.lit 0) d ε M hε hc
    (fun _ => by rw [l0, abs_zero]; exact hM0) hM true a hf
  rwa [l0, _root_.zero_add] at h

/-- C67, orthographic camera, in the camera frame. -/
theorem c67_orthographic_point (fl : Rounding R) (p : OrthographicParams R) (q : Quat R) (c : V3 R)
    (ε M : ℝ) (hε : |quatNormSq (fl.quat q) - 1| ≤ ε) (hc : ∀ a, |fl.val (c a)| ≤ M)
    (px : Pixels R n) (i : Fin n) (d : V3 R)
    (hd : d = ((IntrinsicParametersOrthographic.ofParams p).pixelToCamera px).data i)
    (hM : ∀ a, |fl.val (d a)| ≤ M) (hM1 : 1 ≤ M) (cam : Camera R (IntrinsicParametersOrthographic R))
    (hcam : cam = ⟨.ofParams p, fromRotationAndCamcenter q c⟩) (a : Fin 3)
    (hf : fl.isFinite ((cam.extrinsics.worldToCamera (cam.pixelToWorld px).pointOnRay).data i a)) :
    |fl.val ((cam.extrinsics.worldToCamera (cam.pixelToWorld px).pointOnRay).data i a) -
      (fl.val (d a) + ![0, 0, 1] a)| ≤ tripBound fl.u fl.ω ε M := by
  have z : ∀ a, fl.val ((![0, 0, 1] : V3 R) a) = (![0, 0, 1] : V3 ℝ) a := by
    intro a; fin_cases a
    · exact fl.zero.2
    · exact fl.zero.2
    · exact fl.one.2
  have e : (cam.extrinsics.worldToCamera (cam.pixelToWorld px).pointOnRay).data i a =
      (fromRotationAndCamcenter q c).cache.pose.transformPoint (fun j => if false then
        (fromRotationAndCamcenter q c).cache.poseInv.transformPoint d j +
          (fromRotationAndCamcenter q c).cache.poseInv.transformVector ![0, 0, 1] j
        else (fromRotationAndCamcenter q c).cache.poseInv.transformVector ![0, 0, 1] j +
          (fromRotationAndCamcenter q c).cache.poseInv.transformPoint d j) a := by
    subst hcam hd
    rw [worldToCamera_data]
    simp only [Camera.pixelToWorld, rayCameraToWorld, RayBundle.toPose, RayBundle.pointOnRay,
      Bundle.toPose, Bundle.pointOnRay, IntrinsicParameters.pixelToCamera, sd_toPose, sd_pointOnRay,
      ortho_pixelToCamera, SharedDirectionRayBundle.newPluszSharedDirection, if_false,
      Bool.false_eq_true]
  rw [e] at hf ⊢
  have h := trip_error fl q c d ![0, 0, 1] ε M hε hc hM (fun b => by
    rw [z]; refine le_trans ?_ hM1; fin_cases b <;> simp) false a hf
  rwa [z] at h

/-- The pinhole formula undoes `pixel_to_camera` up to its own roundings. -/
theorem pinhole_direction (fl : Rounding R) (p : PerspectiveParams R) (px : Pixels R n) (i : Fin n)
    (d : V3 R) (hd : d = ((IntrinsicParametersPerspective.ofParams p).pixelToCamera px).data i)
    (hfx : fl.isFinite p.fx) (h0 : fl.isFinite (d 0)) :
    |fl.val p.fx * fl.val (d 0) + fl.val p.skew * fl.val (d 1) + fl.val p.cx - fl.val (px.data i 0)| ≤
      ((1 + fl.u) ^ 4 - 1) * (|fl.val (px.data i 0)| + 2 * (|fl.val p.skew * fl.val (d 1)| + fl.ω) +
        |fl.val p.cx| + fl.ω * |fl.val p.fx|) := by
  simp only [persp_pixelToCamera, IntrinsicParametersPerspective.ofParams] at hd
  have e0 : d 0 = (px.data i 0 - p.skew * d 1 - p.cx) / p.fx := by rw [hd]; rfl
  have f0 : fl.isFinite ((px.data i 0 - p.skew * d 1 - p.cx) / p.fx) := e0 ▸ h0
  obtain ⟨f1, h1⟩ := fl.div f0
  have hs := (h1 hfx).1
  obtain ⟨f2, f3, -⟩ := fl.sub f1
  obtain ⟨f4, f5, -⟩ := fl.sub f2
  have a1 := Approx.mul f5 (Approx.exact fl p.skew) (Approx.exact fl (d 1))
  have a2 := Approx.sub f2 ((Approx.exact fl (px.data i 0)).mono (k' := 1) (Nat.zero_le _) le_rfl) a1
  have a3 := Approx.sub f1 a2 ((Approx.exact fl p.cx).mono (k' := 2) (Nat.zero_le _) le_rfl)
  have a4 := (Approx.div f0 hfx a3).2
  rw [← e0] at a4
  have hpos : 0 < |fl.val p.fx| := abs_pos.2 hs
  have e1 : fl.val p.fx * fl.val (d 0) + fl.val p.skew * fl.val (d 1) + fl.val p.cx -
      fl.val (px.data i 0) = fl.val p.fx * (fl.val (d 0) -
        (fl.val (px.data i 0) - fl.val p.skew * fl.val (d 1) - fl.val p.cx) / fl.val p.fx) := by
    field_simp; ring
  rw [e1, abs_mul]
  refine (mul_le_mul_of_nonneg_left a4 hpos.le).trans ?_
  have hp : 0 ≤ (1 + fl.u) ^ 4 - 1 := by linarith [one_le_pow fl 4]
  have e2 : |fl.val p.fx| * (((1 + fl.u) ^ (0 + 0 + 1 + 1 + 1 + 1) - 1) *
      ((|fl.val (px.data i 0)| + (|fl.val p.skew| * |fl.val (d 1)| + fl.ω) + |fl.val p.cx|) /
        |fl.val p.fx| + fl.ω)) = ((1 + fl.u) ^ 4 - 1) *
      (|fl.val (px.data i 0)| + (|fl.val p.skew * fl.val (d 1)| + fl.ω) + |fl.val p.cx| +
        fl.ω * |fl.val p.fx|) := by
    rw [abs_mul]; field_simp
  refine (le_of_eq e2).trans (mul_le_mul_of_nonneg_left ?_ hp)
  have := fl.ω_nonneg
  have := abs_nonneg (fl.val p.skew * fl.val (d 1))
  linarith

theorem pinhole_direction_v (fl : Rounding R) (p : PerspectiveParams R) (px : Pixels R n) (i : Fin n)
    (d : V3 R) (hd : d = ((IntrinsicParametersPerspective.ofParams p).pixelToCamera px).data i)
    (hfy : fl.isFinite p.fy) (h1 : fl.isFinite (d 1)) :
    |fl.val p.fy * fl.val (d 1) + fl.val p.cy - fl.val (px.data i 1)| ≤
      ((1 + fl.u) ^ 2 - 1) * (|fl.val (px.data i 1)| + |fl.val p.cy| + fl.ω * |fl.val p.fy|) := by
  subst hd
  have h := c48_direction_v fl p px i hfy h1
  simp only [persp_pixelToCamera, IntrinsicParametersPerspective.ofParams, Matrix.cons_val] at h h1 ⊢
  have hs := ((fl.div h1).2 hfy).1
  have hpos : 0 < |fl.val p.fy| := abs_pos.2 hs
  set D := fl.val ((px.data i 1 - p.cy) / p.fy)
  have e1 : fl.val p.fy * D + fl.val p.cy - fl.val (px.data i 1) = fl.val p.fy * (D -
        (fl.val (px.data i 1) - fl.val p.cy) / fl.val p.fy) := by
    field_simp; ring
  rw [e1, abs_mul]
  refine (mul_le_mul_of_nonneg_left h hpos.le).trans (le_of_eq ?_)
  field_simp

theorem rotate_finite (fl : Rounding R) {q : Quat R} {v : V3 R} {j : Fin 3}
    (h : fl.isFinite (q.rotate v j)) : fl.isFinite (v j) := (fl.add h).2.1

/-- A finite pixel coordinate comes from finite focal lengths. -/
theorem persp_finite_focal (fl : Rounding R) (p : PerspectiveParams R) (w : Points CameraFrame R n)
    (i : Fin n) :
    (fl.isFinite (((IntrinsicParametersPerspective.ofParams p).cameraToPixel w).data i 0) →
      fl.isFinite p.fx) ∧
    (fl.isFinite (((IntrinsicParametersPerspective.ofParams p).cameraToPixel w).data i 1) →
      fl.isFinite p.fy) := by
  simp only [persp_cameraToPixel]
  constructor <;> intro hf
  · have h := (fl.div hf).1
    exact (fl.mul (fl.add (fl.add (fl.add h).1).1).1).1
  · have h := (fl.div hf).1
    exact (fl.mul (fl.add (fl.add (fl.add h).1).1).2.1).1

/-- C67 with any bound `δ` for the error of the point in camera coordinates. -/
theorem c67_perspective_of_error (fl : Rounding R) (p : PerspectiveParams R) (q : Quat R) (c : V3 R)
    (px : Pixels R n) (i : Fin n) (d : V3 R)
    (hd : d = ((IntrinsicParametersPerspective.ofParams p).pixelToCamera px).data i)
    (cam : Camera R (IntrinsicParametersPerspective R))
    (hcam : cam = ⟨.ofParams p, fromRotationAndCamcenter q c⟩) (δ : ℝ)
    (hδ : ∀ b, fl.isFinite ((cam.extrinsics.worldToCamera (cam.pixelToWorld px).pointOnRay).data i b) →
      |fl.val ((cam.extrinsics.worldToCamera (cam.pixelToWorld px).pointOnRay).data i b) - fl.val (d b)| ≤ δ)
    (hδ2 : δ ≤ 1 / 2) :
    (fl.isFinite ((cam.worldToPixel (cam.pixelToWorld px).pointOnRay).data i 0) →
      |fl.val ((cam.worldToPixel (cam.pixelToWorld px).pointOnRay).data i 0) -
          fl.val (px.data i 0)| ≤
        (((1 + fl.u) ^ 4 - 1) + δ) * (2 * |fl.val p.fx| * (|fl.val (d 0)| + 1) +
            2 * |fl.val p.skew| * (|fl.val (d 1)| + 1)) +
        ((1 + fl.u) ^ 4 - 1) * (|fl.val (px.data i 0)| + 2 * |fl.val p.skew * fl.val (d 1)| +
          2 * |fl.val p.cx| + fl.ω * (|fl.val p.fx| + 9))) ∧
    (fl.isFinite ((cam.worldToPixel (cam.pixelToWorld px).pointOnRay).data i 1) →
      |fl.val ((cam.worldToPixel (cam.pixelToWorld px).pointOnRay).data i 1) -
          fl.val (px.data i 1)| ≤
        (((1 + fl.u) ^ 3 - 1) + δ) * (2 * |fl.val p.fy| * (|fl.val (d 1)| + 1)) +
        ((1 + fl.u) ^ 3 - 1) * (|fl.val (px.data i 1)| + 2 * |fl.val p.cy| +
          fl.ω * (|fl.val p.fy| + 5))) := by
  have hfd : ∀ a, fl.isFinite ((cam.extrinsics.worldToCamera (cam.pixelToWorld px).pointOnRay).data i a)
      → fl.isFinite (d a) := by
    intro a ha
    subst hcam hd
    rw [worldToCamera_data] at ha
    have h1 := rotate_finite fl (fl.add ha).1
    simp only [Camera.pixelToWorld, rayCameraToWorld, RayBundle.toPose, RayBundle.pointOnRay,
      Bundle.toPose, Bundle.pointOnRay, IntrinsicParameters.pixelToCamera, so_toPose,
      so_pointOnRay] at h1
    exact rotate_finite fl (fl.add h1).2.1
  set w := cam.extrinsics.worldToCamera (cam.pixelToWorld px).pointOnRay with hwdef
  have hpix : cam.worldToPixel (cam.pixelToWorld px).pointOnRay =
      (IntrinsicParametersPerspective.ofParams p).cameraToPixel w := by
    rw [hwdef, hcam]; rfl
  rw [hpix]
  have d2 : fl.val (d 2) = 1 := by
    rw [hd, persp_pixelToCamera]; exact fl.lit_one.2
  have main : ∀ a, fl.isFinite (((IntrinsicParametersPerspective.ofParams p).cameraToPixel w).data i a)
      → ∀ b, |fl.val (w.data i b) - fl.val (d b)| ≤ δ := by
    exact fun a ha b => hδ b (persp_finite fl p w i a ha b)
  obtain ⟨hu, hv⟩ := c48_perspective fl p w i _ _ _ rfl rfl rfl
  have p2 : (1 + fl.u) ^ 2 - 1 ≤ (1 + fl.u) ^ 3 - 1 := by
    have := pow_le_pow_right₀ (by linarith [fl.u_nonneg] : 1 ≤ 1 + fl.u) (by norm_num : 2 ≤ 3)
    linarith
  have p3 : 0 ≤ (1 + fl.u) ^ 3 - 1 := by linarith [one_le_pow fl 3]
  have p4 : 0 ≤ (1 + fl.u) ^ 4 - 1 := by linarith [one_le_pow fl 4]
  have hω := fl.ω_nonneg
  have hδ' : δ ≤ |fl.val (d 2)| / 2 := by rw [d2]; simpa using hδ2
  have hZ : fl.val (d 2) ≠ 0 := by rw [d2]; norm_num
  constructor
  · intro hf
    have m := main 0 hf
    have h := pixel_combine hZ hδ' (m 0) (m 1) (m 2) p4 hω (by norm_num) (hu hf).2
    have hp := pinhole_direction fl p px i d hd ((persp_finite_focal fl p w i).1 hf)
      (hfd 0 (persp_finite fl p w i 0 hf 0))
    rw [d2] at h
    simp only [_root_.div_one, abs_one] at h
    have t := abs_add_le (fl.val (((IntrinsicParametersPerspective.ofParams p).cameraToPixel w).data i 0)
      - (fl.val p.fx * fl.val (d 0) + fl.val p.skew * fl.val (d 1) + fl.val p.cx))
      (fl.val p.fx * fl.val (d 0) + fl.val p.skew * fl.val (d 1) + fl.val p.cx - fl.val (px.data i 0))
    rw [sub_add_sub_cancel] at t
    refine t.trans ((add_le_add h hp).trans (le_of_eq ?_))
    ring
  · intro hf
    have m := main 1 hf
    have h := pixel_combine (f := fl.val p.fy) (s := 0) (m := 2) hZ hδ' (m 1) (m 1) (m 2) p3 hω
      (by norm_num) (by simpa using (hv hf).2)
    have hp := pinhole_direction_v fl p px i d hd ((persp_finite_focal fl p w i).2 hf)
      (hfd 1 (persp_finite fl p w i 1 hf 1))
    rw [d2] at h
    simp only [_root_.div_one, abs_one, abs_zero, MulZeroClass.zero_mul, MulZeroClass.mul_zero,
      _root_.add_zero] at h
    have t := abs_add_le (fl.val (((IntrinsicParametersPerspective.ofParams p).cameraToPixel w).data i 1)
      - (fl.val p.fy * fl.val (d 1) + fl.val p.cy))
      (fl.val p.fy * fl.val (d 1) + fl.val p.cy - fl.val (px.data i 1))
    rw [sub_add_sub_cancel] at t
    have hp' := hp.trans (mul_le_mul_of_nonneg_right p2 (by positivity))
    refine t.trans ((add_le_add h hp').trans (le_of_eq ?_))
    ring

/-- C67: the full round trip pixel, world ray, world point, pixel of a perspective camera. -/
theorem c67_perspective (fl : Rounding R) (p : PerspectiveParams R) (q : Quat R) (c : V3 R)
    (ε M : ℝ) (hε : |quatNormSq (fl.quat q) - 1| ≤ ε) (hc : ∀ a, |fl.val (c a)| ≤ M)
    (px : Pixels R n) (i : Fin n) (d : V3 R)
    (hd : d = ((IntrinsicParametersPerspective.ofParams p).pixelToCamera px).data i)
    (hM : ∀ a, |fl.val (d a)| ≤ M) (cam : Camera R (IntrinsicParametersPerspective R))
    (hcam : cam = ⟨.ofParams p, fromRotationAndCamcenter q c⟩) (δ : ℝ)
    (hδ : δ = tripBound fl.u fl.ω ε M) (hδ2 : δ ≤ 1 / 2) :
    (fl.isFinite ((cam.worldToPixel (cam.pixelToWorld px).pointOnRay).data i 0) →
      |fl.val ((cam.worldToPixel (cam.pixelToWorld px).pointOnRay).data i 0) -
          fl.val (px.data i 0)| ≤
        (((1 + fl.u) ^ 4 - 1) + δ) * (2 * |fl.val p.fx| * (|fl.val (d 0)| + 1) +
            2 * |fl.val p.skew| * (|fl.val (d 1)| + 1)) +
        ((1 + fl.u) ^ 4 - 1) * (|fl.val (px.data i 0)| + 2 * |fl.val p.skew * fl.val (d 1)| +
          2 * |fl.val p.cx| + fl.ω * (|fl.val p.fx| + 9))) ∧
    (fl.isFinite ((cam.worldToPixel (cam.pixelToWorld px).pointOnRay).data i 1) →
      |fl.val ((cam.worldToPixel (cam.pixelToWorld px).pointOnRay).data i 1) -
          fl.val (px.data i 1)| ≤
        (((1 + fl.u) ^ 3 - 1) + δ) * (2 * |fl.val p.fy| * (|fl.val (d 1)| + 1)) +
        ((1 + fl.u) ^ 3 - 1) * (|fl.val (px.data i 1)| + 2 * |fl.val p.cy| +
          fl.ω * (|fl.val p.fy| + 5))) :=
  c67_perspective_of_error fl p q c px i d hd cam hcam δ (fun b hf => by
    rw [hδ]
    exact c67_perspective_point fl p q c ε M hε hc px i d hd hM cam hcam b hf) hδ2

/-- C67: the full round trip of an orthographic camera. -/
theorem c67_orthographic (fl : Rounding R) (p : OrthographicParams R) (q : Quat R) (c : V3 R)
    (ε M : ℝ) (hε : |quatNormSq (fl.quat q) - 1| ≤ ε) (hc : ∀ a, |fl.val (c a)| ≤ M)
    (px : Pixels R n) (i : Fin n)
    (hM : ∀ a, |fl.val (((IntrinsicParametersOrthographic.ofParams p).pixelToCamera px).data i a)| ≤ M)
    (hM1 : 1 ≤ M) (cam : Camera R (IntrinsicParametersOrthographic R))
    (hcam : cam = ⟨.ofParams p, fromRotationAndCamcenter q c⟩) (δ : ℝ)
    (hδ : δ = tripBound fl.u fl.ω ε M) (a : Fin 2) (s t : R) (hs : s = ![p.sx, p.sy] a)
    (ht : t = ![p.cx, p.cy] a)
    (hf : fl.isFinite ((cam.worldToPixel (cam.pixelToWorld px).pointOnRay).data i a)) :
    |fl.val ((cam.worldToPixel (cam.pixelToWorld px).pointOnRay).data i a) - fl.val (px.data i a)| ≤
      δ * |fl.val s| + ((1 + fl.u) ^ 2 - 1) * ((M + δ + fl.ω) * |fl.val s| + |fl.val (px.data i a)| +
        2 * |fl.val t| + fl.ω) := by
  set w := cam.extrinsics.worldToCamera (cam.pixelToWorld px).pointOnRay with hwdef
  have hpix : cam.worldToPixel (cam.pixelToWorld px).pointOnRay =
      (IntrinsicParametersOrthographic.ofParams p).cameraToPixel w := by
    rw [hwdef, hcam]; rfl
  have hval : ((IntrinsicParametersOrthographic.ofParams p).cameraToPixel w).data i a =
      w.data i a.castSucc * s + t := by
    rw [ortho_cameraToPixel, hs, ht]; fin_cases a <;> rfl
  rw [hpix, hval] at hf ⊢
  obtain ⟨f1, ft, -⟩ := fl.add hf
  obtain ⟨fw, fs, -⟩ := fl.mul f1
  set d := ((IntrinsicParametersOrthographic.ofParams p).pixelToCamera px).data i with hd
  have hdv : d a.castSucc = (px.data i a - t) / s := by
    rw [hd, ortho_pixelToCamera, hs, ht]; fin_cases a <;> rfl
  have hfd : fl.isFinite (d a.castSucc) := by
    have ha := fw
    rw [hwdef, hcam, worldToCamera_data] at ha
    have h1 := rotate_finite fl (fl.add ha).1
    simp only [Camera.pixelToWorld, rayCameraToWorld, RayBundle.toPose, RayBundle.pointOnRay,
      Bundle.toPose, Bundle.pointOnRay, IntrinsicParameters.pixelToCamera, sd_toPose,
      sd_pointOnRay] at h1
    exact rotate_finite fl (fl.add (fl.add h1).2.1).1
  have h1 := c67_orthographic_point fl p q c ε M hε hc px i d hd hM hM1 cam hcam a.castSucc fw
  have z : (![0, 0, 1] : V3 ℝ) a.castSucc = 0 := by fin_cases a <;> rfl
  rw [z, _root_.add_zero, ← hδ, ← hwdef] at h1
  -- own roundings of `pixel_to_camera`
  rw [hdv] at hfd
  have hs0 := ((fl.div hfd).2 fs).1
  have hpos : 0 < |fl.val s| := abs_pos.2 hs0
  have h2 := (Approx.div hfd fs (Approx.sub (fl.div hfd).1 (Approx.exact fl _) (Approx.exact fl _))).2
  rw [← hdv] at h2
  -- roundings of `camera_to_pixel`
  have h3 := (Approx.add hf (Approx.mul f1 (Approx.exact fl (w.data i a.castSucc))
    (Approx.exact fl s)) ((Approx.exact fl t).mono (Nat.zero_le _) le_rfl)).2
  set W := fl.val (w.data i a.castSucc)
  set D := fl.val (d a.castSucc)
  have hW : |W| ≤ M + δ := by
    have := abs_add_le (W - D) D
    rw [sub_add_cancel] at this
    linarith [hM a.castSucc]
  have p2 : 0 ≤ (1 + fl.u) ^ 2 - 1 := by linarith [one_le_pow fl 2]
  have h4 : |D * fl.val s + fl.val t - fl.val (px.data i a)| ≤
      ((1 + fl.u) ^ 2 - 1) * (|fl.val (px.data i a)| + |fl.val t| + fl.ω * |fl.val s|) := by
    have e : D * fl.val s + fl.val t - fl.val (px.data i a) =
        (D - (fl.val (px.data i a) - fl.val t) / fl.val s) * fl.val s := by field_simp; ring
    rw [e, abs_mul]
    refine (mul_le_mul_of_nonneg_right h2 hpos.le).trans (le_of_eq ?_)
    field_simp
  have h5 : |(W - D) * fl.val s| ≤ δ * |fl.val s| := by
    rw [abs_mul]; exact mul_le_mul_of_nonneg_right h1 hpos.le
  have h6 : ((1 + fl.u) ^ (0 + 0 + 1 + 1) - 1) * (|W| * |fl.val s| + fl.ω + |fl.val t|) ≤
      ((1 + fl.u) ^ 2 - 1) * ((M + δ) * |fl.val s| + fl.ω + |fl.val t|) := by gcongr
  have t1 := abs_add_three (fl.val (w.data i a.castSucc * s + t) - (W * fl.val s + fl.val t))
    ((W - D) * fl.val s) (D * fl.val s + fl.val t - fl.val (px.data i a))
  rw [show fl.val (w.data i a.castSucc * s + t) - (W * fl.val s + fl.val t) + (W - D) * fl.val s +
    (D * fl.val s + fl.val t - fl.val (px.data i a)) =
      fl.val (w.data i a.castSucc * s + t) - fl.val (px.data i a) by ring] at t1
  have := h3.trans h6
  nlinarith

/-! ### Numbers for `f64` -/

/-- C67: for `f64` (unit roundoff `2^-53`) and quaternions of unit norm up to `1e-15`, the round trip
through the world frame is accurate to `7e-12` times the largest coordinate. -/
theorem c67_f64_bound {ω ε M : ℝ} (hω0 : 0 ≤ ω) (hω : ω ≤ 1 / 10 ^ 100) (hε0 : 0 ≤ ε)
    (hε : ε ≤ 1 / 10 ^ 15) (hM : 1 ≤ M) :
    tripBound (1 / 2 ^ 53) ω ε M ≤ 7 / 10 ^ 12 * M := by
  have hQ : (1 + ε) ^ 2 ≤ 1 + 1 / 10 ^ 6 := by nlinarith
  have hQ1 : 1 + ε ≤ 1 + 1 / 10 ^ 6 := by linarith
  have hQ0 : 0 ≤ (1 + ε) ^ 2 := by positivity
  set S := (1 + ε) ^ 2 with hS
  have hωM : ω ≤ 1 / 10 ^ 100 * M := by nlinarith
  have hω18 : ω * (18 * M + 3) ≤ 1 / 10 ^ 6 * M := by
    have : ω * (18 * M + 3) ≤ 1 / 10 ^ 100 * (21 * M) := by
      apply mul_le_mul hω (by linarith) (by linarith) (by norm_num)
    linarith
  have hω15 : ω * (15 * (1 + ε) + 3) ≤ 1 / 10 ^ 6 * M := by
    have : ω * (15 * (1 + ε) + 3) ≤ 1 / 10 ^ 100 * (20 * M) := by
      apply mul_le_mul hω (by linarith) (by linarith) (by norm_num)
    linarith
  have hrot : ∀ {x K : ℝ}, 0 ≤ x → x ≤ K * M → rotMag (1 + ε) ω x ≤ ((13 + 12 / 10 ^ 6) * K + 1 / 10 ^ 6) * M := by
    intro x K hx0 hx
    unfold rotMag
    rw [← hS]
    have h1 : 12 * S * x ≤ 12 * (1 + 1 / 10 ^ 6) * (K * M) := by
      apply mul_le_mul (by linarith) hx hx0 (by norm_num)
    linarith
  have ht : transMag (1 + ε) ω M ≤ (12 + 13 / 10 ^ 6) * M := by
    unfold transMag
    rw [← hS]
    have : 12 * S * M ≤ 12 * (1 + 1 / 10 ^ 6) * M := by gcongr
    linarith
  have ht0 : 0 ≤ transMag (1 + ε) ω M := by unfold transMag; positivity
  have hw1 := hrot (x := M) (K := 1) (by linarith) (by linarith)
  have hw2 := hrot ht0 ht
  have hr0 : ∀ {x : ℝ}, 0 ≤ x → 0 ≤ rotMag (1 + ε) ω x := by
    intro x hx; unfold rotMag; positivity
  have hw : worldMag (1 + ε) ω M ≤ 183 * M := by
    unfold worldMag
    norm_num at hw1 hw2 ⊢
    linarith
  have hw0 : 0 ≤ worldMag (1 + ε) ω M := by
    unfold worldMag
    have := hr0 (x := M) (by linarith)
    have := hr0 ht0
    linarith
  have hw3 := hrot hw0 hw
  have htrip : tripMag (1 + ε) ω M ≤ 2400 * M := by
    unfold tripMag
    norm_num at hw3 ht ⊢
    linarith
  have h24 : ((1 : ℝ) + 1 / 2 ^ 53) ^ 24 - 1 ≤ 268 / 10 ^ 17 := by norm_num
  have h24' : 0 ≤ ((1 : ℝ) + 1 / 2 ^ 53) ^ 24 - 1 := by norm_num
  unfold tripBound
  rw [← hS]
  have h1 : (((1 : ℝ) + 1 / 2 ^ 53) ^ 24 - 1) * tripMag (1 + ε) ω M ≤ 268 / 10 ^ 17 * (2400 * M) :=
    (mul_le_mul_of_nonneg_left htrip h24').trans
      (mul_le_mul_of_nonneg_right h24 (by linarith))
  have h2 : 16 * ε * S * (2 * M + 12 * S * M) ≤ 16 * (1 / 10 ^ 15) * (1 + 1 / 10 ^ 6) *
      (2 * M + 12 * (1 + 1 / 10 ^ 6) * M) := by gcongr
  norm_num at h1 h2 ⊢
  linarith

/-- C67: a plain consequence for `f64` cameras: camera centre within 1000 units of the origin, ray
slopes at most 2, all parameters and pixel coordinates at most 10000 in magnitude: the pixel is
recovered to a thousandth of a pixel. -/
theorem c67_f64_pixel (fl : Rounding R) (hu : fl.u = 1 / 2 ^ 53) (hω : fl.ω ≤ 1 / 10 ^ 100)
    (p : PerspectiveParams R) (q : Quat R) (c : V3 R)
    (hq : |quatNormSq (fl.quat q) - 1| ≤ 1 / 10 ^ 15) (hc : ∀ a, |fl.val (c a)| ≤ 1000)
    (hp : ∀ x ∈ [p.fx, p.fy, p.skew, p.cx, p.cy], |fl.val x| ≤ 10000)
    (px : Pixels R n) (i : Fin n) (hpx : ∀ a, |fl.val (px.data i a)| ≤ 10000)
    (hd : ∀ a, |fl.val (((IntrinsicParametersPerspective.ofParams p).pixelToCamera px).data i a)| ≤ 2)
    (cam : Camera R (IntrinsicParametersPerspective R))
    (hcam : cam = ⟨.ofParams p, fromRotationAndCamcenter q c⟩) (a : Fin 2)
    (hf : fl.isFinite ((cam.worldToPixel (cam.pixelToWorld px).pointOnRay).data i a)) :
    |fl.val ((cam.worldToPixel (cam.pixelToWorld px).pointOnRay).data i a) - fl.val (px.data i a)| ≤
      1 / 1000 := by
  have hb := c67_f64_bound fl.ω_nonneg hω (ε := 1 / 10 ^ 15) (M := 1000) (by positivity) le_rfl
    (by norm_num)
  rw [← hu] at hb
  set δ := tripBound fl.u fl.ω (1 / 10 ^ 15) 1000 with hδ
  have hδ0 : δ ≤ 7 / 10 ^ 9 := hb.trans (by norm_num)
  obtain ⟨h0, h1⟩ := c67_perspective fl p q c (1 / 10 ^ 15) 1000 hq hc px i _ rfl
    (fun a => (hd a).trans (by norm_num)) cam hcam δ hδ (hδ0.trans (by norm_num))
  have ω0 := fl.ω_nonneg
  simp only [List.mem_cons, List.not_mem_nil, or_false, forall_eq_or_imp, forall_eq] at hp
  obtain ⟨b1, b2, b3, b4, b5⟩ := hp
  have g4 : ((1 : ℝ) + 1 / 2 ^ 53) ^ 4 - 1 ≤ 1 / 10 ^ 15 := by norm_num
  have g3 : ((1 : ℝ) + 1 / 2 ^ 53) ^ 3 - 1 ≤ 1 / 10 ^ 15 := by norm_num
  have g4' : 0 ≤ ((1 : ℝ) + 1 / 2 ^ 53) ^ 4 - 1 := by norm_num
  have g3' : 0 ≤ ((1 : ℝ) + 1 / 2 ^ 53) ^ 3 - 1 := by norm_num
  have hsk : |fl.val p.skew * fl.val (((IntrinsicParametersPerspective.ofParams p).pixelToCamera
      px).data i 1)| ≤ 10000 * 2 := by
    rw [abs_mul]; exact mul_le_mul b3 (hd 1) (abs_nonneg _) (by norm_num)
  have hδn : 0 ≤ δ := by
    rw [hδ]; unfold tripBound tripMag worldMag transMag rotMag
    have := one_le_pow fl 24
    have : 0 ≤ (1 + fl.u) ^ 24 - 1 := by linarith
    positivity
  fin_cases a
  · refine (h0 hf).trans ?_
    rw [hu]
    calc _ ≤ (1 / 10 ^ 15 + 7 / 10 ^ 9) * (2 * 10000 * (2 + 1) + 2 * 10000 * (2 + 1)) +
        1 / 10 ^ 15 * (10000 + 2 * (10000 * 2) + 2 * 10000 + 1 / 10 ^ 100 * (10000 + 9) : ℝ) := by
          gcongr
          · exact hd 0
          · exact hd 1
          · exact hpx 0
      _ ≤ _ := by norm_num
  · refine (h1 hf).trans ?_
    rw [hu]
    calc _ ≤ (1 / 10 ^ 15 + 7 / 10 ^ 9) * (2 * 10000 * (2 + 1)) +
        1 / 10 ^ 15 * (10000 + 2 * 10000 + 1 / 10 ^ 100 * (10000 + 5) : ℝ) := by
          gcongr
          · exact hd 1
          · exact hpx 1
      _ ≤ _ := by norm_num

/-- Non-vacuity of C67 (53-bit arithmetic, identity pose, the principal point as pixel): all results
are finite. -/
example (a : Fin 2) : Fp64.rounding.u = 1 / 2 ^ 53 ∧ Fp64.rounding.ω ≤ 1 / 10 ^ 100 ∧
    quatNormSq (Fp64.rounding.quat ⟨.some 1, .some 0, .some 0, .some 0⟩) = 1 ∧
    Fp64.rounding.isFinite (((⟨.ofParams ⟨.some 100, .some 100, .some 0, .some 0, .some 0⟩,
        fromRotationAndCamcenter ⟨.some 1, .some 0, .some 0, .some 0⟩ (fun _ => .some 0)⟩ :
          Camera Fp64 (IntrinsicParametersPerspective Fp64)).worldToPixel
      ((⟨.ofParams ⟨.some 100, .some 100, .some 0, .some 0, .some 0⟩,
        fromRotationAndCamcenter ⟨.some 1, .some 0, .some 0, .some 0⟩ (fun _ => .some 0)⟩ :
          Camera Fp64 (IntrinsicParametersPerspective Fp64)).pixelToWorld
        (.single ![.some 0, .some 0])).pointOnRay).data 0 a) := by
  have l0 : (Scalar.lit 0 : Fp64) = .some 0 := by simp [Scalar.lit]
  have l1 : (Scalar.lit 1 : Fp64) = .some 1 := by simp [Scalar.lit]
  have l2 : (Scalar.lit 2 : Fp64) = .some 2 := by simp [Scalar.lit]
  have o1 : (1 : Fp64) = .some 1 := rfl
  have hn : ∀ x : ℝ, -(Fp64.some x) = Fp64.some (-x) := fun _ => rfl
  refine ⟨by norm_num [Fp64.rounding], by norm_num [Fp64.rounding],
    by norm_num [quatNormSq, Rounding.quat, Fp64.rounding, Fp64.val], ?_⟩
  simp only [Camera.worldToPixel, Camera.pixelToWorld, rayCameraToWorld, RayBundle.toPose,
    RayBundle.pointOnRay, Bundle.toPose, Bundle.pointOnRay, IntrinsicParameters.pixelToCamera,
    IntrinsicParameters.cameraToPixel, so_toPose, so_pointOnRay, persp_pixelToCamera,
    persp_cameraToPixel, worldToCamera_data, SharedOriginRayBundle.newSharedZeroOrigin,
    fromRotationAndCamcenter, Isometry.transformPoint, Isometry.transformVector, Isometry.inverse,
    Quat.inverse, Quat.rotate, V3.add, V3.scale, V3.cross, V3.neg, Mat.mulVec3, Mat.mulVec4,
    V3.toHomogeneous, Quat.vector, Quat.toRotationMatrix, IntrinsicParametersPerspective.ofParams,
    Pixels.single, Matrix.cons_val, l0, l1, l2, o1, hn]
  fin_cases a <;>
    simp [Fp64.mul_some, Fp64.add_some, Fp64.sub_some, Fp64.div_some, Fp64.rounding, hn]

end CamGeom
