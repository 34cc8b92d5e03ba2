import Verif.Props.FloatTriangulation
import Verif.Lemmas.RoundingTight

/-!
# C99: triangulation in `f32`, from measured pixels to the world point

The pipeline of C85 for single precision.  The errors depend on how small the depth of the point is compared with the
coordinates, so this ratio `D` is a parameter.
-/

namespace CamGeom
open Rounding ExtrinsicParameters Spec Matrix

section
variable {R : Type} [Scalar R] {fl : Rounding R}

theorem rayOrigin_near_f32 (hu : fl.u = 1 / 2 ^ 24) (hω : fl.ω ≤ 1 / 10 ^ 30) {q : Quat R} {c v : V3 R} {M : ℝ}
    (hM : 1 ≤ M) (hε : |quatNormSq (fl.quat q) - 1| ≤ 1 / 10 ^ 6)
    (hc : ∀ a, |fl.val (c a)| ≤ M) (hv : ∀ a, |fl.val (v a)| ≤ 5 * M) (a : Fin 3)
    (hf : fl.isFinite ((fromRotationAndCamcenter q c).cache.poseInv.transformPoint v a)) :
    |fl.val ((fromRotationAndCamcenter q c).cache.poseInv.transformPoint v a) -
      ((fl.quat q).inverse.rotate (fl.vec v) a +
        (fl.quat q).inverse.rotate (-(fromRotationAndCamcenter (fl.quat q) (fl.vec c)).translation) a)| ≤
      32 / 10 ^ 6 * M := by
  have hω0 := fl.ω_nonneg
  refine (rayOrigin_tight hε hc hv a hf).trans ?_
  rw [hu]
  unfold rotTight transTight
  have hk : ((1 : ℝ) + 1 / 2 ^ 24) ^ 15 - 1 ≤ 9 / 10 ^ 7 := by norm_num
  have hM0 : 0 ≤ M := by linarith
  calc _ ≤ 9 / 10 ^ 7 * ((13 / 4 * (1 + 1 / 10 ^ 6) + 1) * (5 * M) + 1 / 10 ^ 30 * (15 * (1 + 1 / 10 ^ 6) + 18) +
        ((13 / 4 * (1 + 1 / 10 ^ 6) + 1) * (3 * ((1 + 1 / 10 ^ 6 + 6 * (1 / 10 ^ 30)) * M + 1 / 10 ^ 30)) +
          1 / 10 ^ 30 * (15 * (1 + 1 / 10 ^ 6) + 18))) := by gcongr
    _ ≤ _ := by norm_num; linarith

theorem rayCenter_near_f32 (hu : fl.u = 1 / 2 ^ 24) (hω : fl.ω ≤ 1 / 10 ^ 30) {q : Quat R} {c : V3 R} {M : ℝ}
    (hM : 1 ≤ M) (hε : |quatNormSq (fl.quat q) - 1| ≤ 1 / 10 ^ 6)
    (hc : ∀ a, |fl.val (c a)| ≤ M) (a : Fin 3)
    (hf : fl.isFinite ((fromRotationAndCamcenter q c).cache.poseInv.transformPoint (fun _ => Scalar.lit 0) a)) :
    |fl.val ((fromRotationAndCamcenter q c).cache.poseInv.transformPoint (fun _ => Scalar.lit 0) a) -
      (fl.quat q).inverse.rotate (-(fromRotationAndCamcenter (fl.quat q) (fl.vec c)).translation) a| ≤
      12 / 10 ^ 6 * M := by
  have hω0 := fl.ω_nonneg
  refine (rayCenter_tight hε hc a hf).trans ?_
  rw [hu]
  unfold rotTight transTight
  have hk : ((1 : ℝ) + 1 / 2 ^ 24) ^ 15 - 1 ≤ 9 / 10 ^ 7 := by norm_num
  have hM0 : 0 ≤ M := by linarith
  calc _ ≤ 9 / 10 ^ 7 * ((13 / 4 * (1 + 1 / 10 ^ 6) + 1) * 0 + 1 / 10 ^ 30 * (15 * (1 + 1 / 10 ^ 6) + 18) +
        ((13 / 4 * (1 + 1 / 10 ^ 6) + 1) * (3 * ((1 + 1 / 10 ^ 6 + 6 * (1 / 10 ^ 30)) * M + 1 / 10 ^ 30)) +
          1 / 10 ^ 30 * (15 * (1 + 1 / 10 ^ 6) + 18))) := by gcongr
    _ ≤ _ := by norm_num; linarith

theorem rayDirection_near_f32 (hu : fl.u = 1 / 2 ^ 24) (hω : fl.ω ≤ 1 / 10 ^ 30) {q : Quat R} {c d : V3 R}
    (hε : |quatNormSq (fl.quat q) - 1| ≤ 1 / 10 ^ 6) (hd : ∀ a, |fl.val (d a)| ≤ 11) (a : Fin 3)
    (hf : fl.isFinite ((fromRotationAndCamcenter q c).cache.poseInv.transformVector d a)) :
    |fl.val ((fromRotationAndCamcenter q c).cache.poseInv.transformVector d a) -
      (fl.quat q).inverse.rotate (fl.vec d) a| ≤ 2 / 10 ^ 5 := by
  have hω0 := fl.ω_nonneg
  refine (rayDirection_tight hε hd a hf).trans ?_
  rw [hu]
  unfold rotTight
  have hk : ((1 : ℝ) + 1 / 2 ^ 24) ^ 7 - 1 ≤ 4175 / 10 ^ 10 := by norm_num
  calc _ ≤ 4175 / 10 ^ 10 * ((13 / 4 * (1 + 1 / 10 ^ 6) + 1) * 11 + 1 / 10 ^ 30 * (15 * (1 + 1 / 10 ^ 6) + 18) : ℝ) := by
        gcongr
    _ ≤ _ := by norm_num

/-- The error of camera coordinates in `f32`. -/
theorem worldToCamera_near_f32 (hu : fl.u = 1 / 2 ^ 24) (hω : fl.ω ≤ 1 / 10 ^ 30) {M : ℝ} (hM : 1 ≤ M) :
    ((1 + fl.u) ^ 8 - 1) * (rotTight (1 + 1 / 10 ^ 6) fl.ω M + transTight (1 + 1 / 10 ^ 6) fl.ω M) ≤
      35 / 10 ^ 7 * M := by
  have hω0 := fl.ω_nonneg
  rw [hu]
  unfold rotTight transTight
  have hk : ((1 : ℝ) + 1 / 2 ^ 24) ^ 8 - 1 ≤ 48 / 10 ^ 8 := by norm_num
  have hM0 : 0 ≤ M := by linarith
  calc _ ≤ 48 / 10 ^ 8 * ((13 / 4 * (1 + 1 / 10 ^ 6) + 1) * M + 1 / 10 ^ 30 * (15 * (1 + 1 / 10 ^ 6) + 18) +
        3 * ((1 + 1 / 10 ^ 6 + 6 * (1 / 10 ^ 30)) * M + 1 / 10 ^ 30)) := by gcongr
    _ ≤ _ := by norm_num; linarith

end

section
variable {lib : Libm Format.b32}

/-- Cameras that are covered: as for `f64` (`GoodView`), with the tolerance of single precision for the rotation and
the depth of the point at least `M / D`. -/
structure GoodView32 (D M : ℝ) (x : Vec) (o : Observation (F32 lib)) : Prop where
  rotation : NearUnit lib (1 / 10 ^ 6) o.rotation
  center : ∀ a, Flt.Bounded (f := .b32) M (o.camcenter a)
  params : ∀ y ∈ [o.params.fx, o.params.fy, o.params.skew, o.params.cx, o.params.cy],
    Flt.Bounded (f := .b32) (2 ^ 20) y
  fx : 1 ≤ |Flt.val (f := .b32) o.params.fx|
  fy : 1 ≤ |Flt.val (f := .b32) o.params.fy|
  skew : |Flt.val (f := .b32) o.params.skew| ≤ |Flt.val (f := .b32) o.params.fx|
  cx : |Flt.val (f := .b32) o.params.cx| ≤ 10 * |Flt.val (f := .b32) o.params.fx|
  cy : |Flt.val (f := .b32) o.params.cy| ≤ 10 * |Flt.val (f := .b32) o.params.fy|
  depth : M ≤ D * |o.position x 2|
  slope0 : |o.position x 0 / o.position x 2| ≤ 10
  slope1 : |o.position x 1 / o.position x 2| ≤ 10

variable {D M σ : ℝ} {x : Vec} {o : Observation (F32 lib)}

theorem Measured.nonneg32 (h : Measured σ x o) (g : GoodView32 D M x o) : 0 ≤ σ := by
  have h1 := (abs_nonneg _).trans h.u
  have h2 := g.fx
  by_contra hn
  have : σ * |Flt.val (f := .b32) o.params.fx| < 0 := mul_neg_of_neg_of_pos (not_le.1 hn) (by linarith)
  linarith

theorem Measured.inRange32 (h : Measured σ x o) (g : GoodView32 D M x o) (hσ : σ ≤ 1 / 100) (a : Fin 2) :
    InRange (RustFloat.rounding .b32 lib) 26 (o.pixel.data 0 a) := by
  refine ⟨h.finite a, ?_⟩
  have b1 := g.params o.params.fx (by simp)
  have b2 := g.params o.params.fy (by simp)
  have b3 := g.params o.params.skew (by simp)
  have b4 := g.params o.params.cx (by simp)
  have b5 := g.params o.params.cy (by simp)
  have hu := h.u
  have hv := h.v
  simp only [Observation.projection, Spec.pinhole, Matrix.cons_val] at hu hv
  show |Flt.val (f := .b32) (o.pixel.data 0 a)| ≤ _
  have s0 := g.slope0
  have s1 := g.slope1
  have m : ∀ {y s : ℝ}, |y| ≤ 2 ^ 20 → |s| ≤ 10 → |y * s| ≤ 10 * 2 ^ 20 := by
    intro y s h1 h2
    rw [abs_mul]
    exact (mul_le_mul h1 h2 (abs_nonneg _) (by positivity)).trans (le_of_eq (by ring))
  have f0 := abs_nonneg (Flt.val (f := .b32) o.params.fx)
  have f1 := abs_nonneg (Flt.val (f := .b32) o.params.fy)
  have hfx := mul_le_mul_of_nonneg_right hσ f0
  have hfy := mul_le_mul_of_nonneg_right hσ f1
  have b1' := b1.2
  have b2' := b2.2
  have b4' := b4.2
  have b5' := b5.2
  fin_cases a
  · have t1 := abs_sub_abs_le_abs_sub (Flt.val (f := .b32) (o.pixel.data 0 0)) _ |>.trans hu
    have t2 := abs_add_three (Flt.val (f := .b32) o.params.fx * (o.position x 0 / o.position x 2))
      (Flt.val (f := .b32) o.params.skew * (o.position x 1 / o.position x 2)) (Flt.val (f := .b32) o.params.cx)
    have t3 := m b1.2 s0
    have t4 := m b3.2 s1
    show |Flt.val (f := .b32) (o.pixel.data 0 0)| ≤ _
    norm_num at *
    linarith
  · have t1 := abs_sub_abs_le_abs_sub (Flt.val (f := .b32) (o.pixel.data 0 1)) _ |>.trans hv
    have t2 := abs_add_le (Flt.val (f := .b32) o.params.fy * (o.position x 1 / o.position x 2))
      (Flt.val (f := .b32) o.params.cy)
    have t3 := m b2.2 s1
    show |Flt.val (f := .b32) (o.pixel.data 0 1)| ≤ _
    norm_num at *
    linarith

theorem Measured.slope32 (h : Measured σ x o) (g : GoodView32 D M x o) (hσ : σ ≤ 1 / 100) :
    (∀ a, Flt.isFinite (f := .b32) (o.slope a)) ∧
    |Flt.val (f := .b32) (o.slope 0) - o.position x 0 / o.position x 2| ≤ 2 * σ + 27 / 10 ^ 6 ∧
    |Flt.val (f := .b32) (o.slope 1) - o.position x 1 / o.position x 2| ≤ σ + 4 / 10 ^ 6 ∧
    Flt.val (f := .b32) (o.slope 2) = 1 := by
  set fl := RustFloat.rounding .b32 lib with hfl
  have eu : fl.u = 1 / 2 ^ 24 := Format.u_b32
  have hω : fl.ω ≤ 1 / 10 ^ 30 := Format.ω_b32.le.trans (by norm_num)
  have hω0 := fl.ω_nonneg
  have hfin : ∀ a, fl.isFinite (o.slope a) := fun a =>
    (c77_pixel_to_camera (m := 26) (l := 0) (RustFloat.range Format.b32 lib) o.params
      (fun y hy => (g.params y hy).inRange (pow_le_pow_right₀ (by norm_num) (by norm_num)))
      (le_of_eq_of_le (by norm_num) g.fx) (le_of_eq_of_le (by norm_num) g.fy) o.pixel 0 (h.inRange32 g hσ) (by show _ ≤ 127; norm_num) a).1
  have b1 := g.params o.params.fx (by simp)
  have b2 := g.params o.params.fy (by simp)
  have b3 := g.params o.params.skew (by simp)
  have b4 := g.params o.params.cx (by simp)
  have b5 := g.params o.params.cy (by simp)
  have f1 : 0 < |fl.val o.params.fx| := lt_of_lt_of_le one_pos g.fx
  have f2 : 0 < |fl.val o.params.fy| := lt_of_lt_of_le one_pos g.fy
  have k2 : ((1 : ℝ) + 1 / 2 ^ 24) ^ 2 - 1 ≤ 12 / 10 ^ 8 := by norm_num
  have k2' : 0 ≤ ((1 : ℝ) + 1 / 2 ^ 24) ^ 2 - 1 := by norm_num
  have k6 : ((1 : ℝ) + 1 / 2 ^ 24) ^ 6 - 1 ≤ 36 / 10 ^ 8 := by norm_num
  have k6' : 0 ≤ ((1 : ℝ) + 1 / 2 ^ 24) ^ 6 - 1 := by norm_num
  have dv := c48_direction_v fl o.params o.pixel 0 b2.1 (hfin 1)
  have du := c48_direction_u fl o.params o.pixel 0 b1.1 b2.1 (hfin 0)
  rw [eu] at dv du
  obtain ⟨h1, h2, h3⟩ := slope_v (v := fl.val (o.pixel.data 0 1)) f2 g.cy g.slope1 h.v hσ k2' dv
  have h4 := slope_u (u := fl.val (o.pixel.data 0 0)) f1 g.skew g.cx g.slope0 g.slope1 h3 h2
    (div_nonneg (add_nonneg (abs_nonneg _) (abs_nonneg _)) (abs_nonneg _)) hω0 (hω.trans (by norm_num)) g.fx h.u hσ k6' du
  refine ⟨hfin, h4.trans ?_, h1.trans ?_, (c48_direction_z fl o.params o.pixel 0).2⟩
  · linarith
  · have : (((1 : ℝ) + 1 / 2 ^ 24) ^ 2 - 1) * (31 + fl.ω) ≤ 12 / 10 ^ 8 * (31 + 1 / 10 ^ 30) := by gcongr
    norm_num at this ⊢
    linarith

/-- The computed ray of a measured pixel starts near the camera centre and reaches the neighbourhood of the point at
the parameter given by the depth. -/
theorem Measured.rayAt32 (h : Measured σ x o) (g : GoodView32 D M x o) (hσ : σ ≤ 1 / 100) (hD1 : 1 ≤ D) (hD2 : D ≤ 300) (hM1 : 1 ≤ M) (hM2 : M ≤ 2 ^ 20)
    (hx : ∀ a, |x a| ≤ M) (r : Ray WorldFrame ℝ) (hr : r = vray (RustFloat.rounding .b32 lib) o.ray) :
    SafeRay (RustFloat.rounding .b32 lib) 60 o.ray ∧ (∀ a, |r.center a| ≤ (1 + 4 / 10 ^ 5) * M) ∧
    x - o.center ≠ 0 ∧ r.direction ≠ 0 ∧ o.position x 2 ≠ 0 ∧
      distance x (r.center + o.position x 2 • r.direction) ≤ (13 * σ + 33 / 10 ^ 5) * M ∧
      len (o.position x 2 • r.direction - (x - o.center)) ≤ (31 / 10 * σ + 15 / 10 ^ 5 * D) * len (x - o.center) ∧
      len (r.center - o.center) ≤ 4 / 10 ^ 5 * M ∧ 8 / 10 ≤ len r.direction := by
  set fl := RustFloat.rounding .b32 lib with hfl
  have eu : fl.u = 1 / 2 ^ 24 := Format.u_b32
  have hω : fl.ω ≤ 1 / 10 ^ 30 := Format.ω_b32.le.trans (by norm_num)
  have hq : |quatNormSq (fl.quat o.rotation) - 1| ≤ 1 / 10 ^ 6 := g.rotation.quatNormSq
  have hσ0 := h.nonneg32 g
  have hM0 : 0 ≤ M := by linarith
  obtain ⟨df, s0, s1, s2⟩ := h.slope32 g hσ
  set c' := o.center with hc'
  set t := (fromRotationAndCamcenter (fl.quat o.rotation) c').translation with ht
  set X := o.position x with hX
  have eX : X = (fl.quat o.rotation).rotate x + t := pose_apply _ _ _
  set Z := X 2 with hZ
  have hdepth : M ≤ D * |Z| := g.depth
  have hZ0 : Z ≠ 0 := by
    intro h0
    rw [h0, abs_zero] at hdepth
    linarith
  -- finiteness and magnitude of the direction in the camera frame
  have d0 : |fl.val (o.slope 0)| ≤ 11 := by
    have e := abs_sub_abs_le_abs_sub (fl.val (o.slope 0)) (X 0 / X 2) |>.trans s0
    have := g.slope0
    norm_num at e ⊢
    linarith
  have d1 : |fl.val (o.slope 1)| ≤ 11 := by
    have e := abs_sub_abs_le_abs_sub (fl.val (o.slope 1)) (X 1 / X 2) |>.trans s1
    have := g.slope1
    norm_num at e ⊢
    linarith
  have d2 : fl.val (o.slope 2) = 1 := s2
  have hd : ∀ a, |fl.val (o.slope a)| ≤ 11 := by
    intro a
    fin_cases a
    · exact d0
    · exact d1
    · show |fl.val (o.slope 2)| ≤ 11
      rw [d2]; norm_num
  have hin : ∀ a, InRange fl 20 (o.slope a) := fun a => ⟨df a, (hd a).trans (by norm_num)⟩
  have hci : ∀ a, InRange fl 20 (o.camcenter a) := fun a => (g.center a).inRange hM2
  have hqi := g.rotation.inRange (by norm_num)
  have hrc : ∀ a, InRange fl 35 (o.ray.center a) := by
    intro a
    rw [Observation.ray, pixelRay_eq]
    exact (hqi.poseInv (RustFloat.range .b32 lib) hci (v := fun _ => Scalar.lit 0)
      (fun _ => InRange.lit_zero fl) (by show _ ≤ 127; norm_num) a).1
  have hrd : ∀ a, InRange fl 27 (o.ray.direction a) := by
    intro a
    rw [Observation.ray, pixelRay_eq]
    exact (hqi.poseInv (RustFloat.range .b32 lib) hci hin (by show _ ≤ 127; norm_num) a).2
  -- errors of the ray
  have ec : ∀ a, r.center a = fl.val (o.ray.center a) := fun a => by rw [hr]; rfl
  have ed : ∀ a, r.direction a = fl.val (o.ray.direction a) := fun a => by rw [hr]; rfl
  have e1 : len (r.center - (fl.quat o.rotation).inverse.rotate (-t)) ≤ 2 * (12 / 10 ^ 6 * M) := by
    refine len_le_entries fun a => ?_
    have hf := (hrc a).1
    rw [Pi.sub_apply, ec]
    rw [Observation.ray, pixelRay_eq] at hf ⊢
    exact rayCenter_near_f32 eu hω hM1 hq (fun a => (g.center a).2) a hf
  have e2 : len (r.direction - (fl.quat o.rotation).inverse.rotate (fl.vec o.slope)) ≤ 2 * (2 / 10 ^ 5) := by
    refine len_le_entries fun a => ?_
    have hf := (hrd a).1
    rw [Pi.sub_apply, ed]
    rw [Observation.ray, pixelRay_eq] at hf ⊢
    exact rayDirection_near_f32 eu hω hq hd a hf
  have e3 := ray_exact hq (by norm_num) t x (fl.vec o.slope) Z
  rw [← eX] at e3
  have e4 : len (Z • fl.vec o.slope - X) ≤ |Z| * (2 * σ + 27 / 10 ^ 6) + |Z| * (σ + 4 / 10 ^ 6) := by
    have key : ∀ a, (Z • fl.vec o.slope - X) a = Z * (fl.val (o.slope a) - X a / X 2) := by
      intro a
      show Z * fl.val (o.slope a) - X a = _
      rw [mul_sub, hZ, mul_div_cancel₀ _ hZ0]
    refine len_le_two ?_ ?_ ?_
    · rw [key, abs_mul]
      exact mul_le_mul_of_nonneg_left s0 (abs_nonneg _)
    · rw [key, abs_mul]
      exact mul_le_mul_of_nonneg_left s1 (abs_nonneg _)
    · rw [key, d2, div_self hZ0, sub_self, MulZeroClass.mul_zero]
  have e5 := center_exact hq (by norm_num) c'
  rw [← ht] at e5
  have e6 := depth_le hq c' x 2
  rw [← ht, ← eX, ← hZ] at e6
  have lx : len x ≤ 2 * M := len_le_entries hx
  have lc : len c' ≤ 2 * M := len_le_entries fun a => (g.center a).2
  have hL : distance x c' ≤ 4 * M := by
    have := len_add_le x (-c')
    rw [len_neg, ← sub_eq_add_neg] at this
    exact this.trans (by linarith)
  -- distance from the point
  have hE : distance x (r.center + Z • r.direction) ≤
      (1 + 3 * (1 / 10 ^ 6)) * (|Z| * (2 * σ + 27 / 10 ^ 6) + |Z| * (σ + 4 / 10 ^ 6)) +
        5 * (1 / 10 ^ 6) * (2 * M) + 2 * (12 / 10 ^ 6 * M) + |Z| * (2 * (2 / 10 ^ 5)) := by
    have e : r.center + Z • r.direction - x =
        ((fl.quat o.rotation).inverse.rotate (-t) + Z • (fl.quat o.rotation).inverse.rotate (fl.vec o.slope) - x) +
        ((r.center - (fl.quat o.rotation).inverse.rotate (-t)) +
          Z • (r.direction - (fl.quat o.rotation).inverse.rotate (fl.vec o.slope))) := by
      rw [smul_sub]; abel
    rw [distance, len_sub_comm, e]
    refine (len_add_le _ _).trans ?_
    refine (add_le_add e3 (len_add_le _ _)).trans ?_
    rw [len_smul]
    have i1 := mul_le_mul_of_nonneg_left e2 (abs_nonneg Z)
    have i2 := mul_le_mul_of_nonneg_left e4 (show (0 : ℝ) ≤ 1 + 3 * (1 / 10 ^ 6) by norm_num)
    have i3 := mul_le_mul_of_nonneg_left lx (show (0 : ℝ) ≤ 5 * (1 / 10 ^ 6) by norm_num)
    linarith
  have hG : len (r.center - c') ≤ 4 / 10 ^ 5 * M := by
    have := distance_triangle r.center ((fl.quat o.rotation).inverse.rotate (-t)) c'
    simp only [distance] at this e5
    refine this.trans ((add_le_add e1 e5).trans ?_)
    have i3 := mul_le_mul_of_nonneg_left lc (show (0 : ℝ) ≤ 7 * (1 / 10 ^ 6) by norm_num)
    norm_num at i3 ⊢
    linarith
  -- sizes
  have L0 : 0 ≤ distance x c' := len_nonneg _
  have m0 : (1 - 2 * D / 10 ^ 6) * M ≤ D * ((1 + 3 / 10 ^ 6) * distance x c') := by
    have i1 := mul_le_mul_of_nonneg_left e6 (show 0 ≤ D by linarith)
    have i2 := mul_le_mul_of_nonneg_left lc (show 0 ≤ D by linarith)
    norm_num at i1 i2 ⊢
    linarith
  have m1 : M ≤ 101 / 100 * (D * distance x c') := by
    have i1 := mul_le_mul_of_nonneg_right hD2 hM0
    have i2 := mul_nonneg (show 0 ≤ D by linarith) L0
    norm_num at m0 ⊢
    linarith
  have m4 : D * distance x c' ≤ 300 * distance x c' := mul_le_mul_of_nonneg_right hD2 L0
  have m5 : distance x c' ≤ D * distance x c' := le_mul_of_one_le_left L0 hD1
  have m2 : |Z| ≤ 1001 / 1000 * distance x c' := by
    norm_num at e6
    linarith
  have m3 : |Z| ≤ 4001 / 1000 * M := by
    norm_num at e6
    linarith
  have z0 : 0 < |Z| := abs_pos.2 hZ0
  have Lp : 0 < distance x c' := by linarith
  have n2 := mul_le_mul_of_nonneg_right m2 hσ0
  have n3 := mul_le_mul_of_nonneg_right m3 hσ0
  have hE1 : distance x (r.center + Z • r.direction) ≤ (13 * σ + 33 / 10 ^ 5) * M := by
    refine hE.trans ?_
    have := mul_nonneg hσ0 hM0
    norm_num at n3 ⊢
    linarith
  have hD : len (Z • r.direction - (x - c')) ≤ (31 / 10 * σ + 15 / 10 ^ 5 * D) * distance x c' := by
    have e : Z • r.direction - (x - c') = (r.center + Z • r.direction - x) - (r.center - c') := by abel
    rw [e]
    have i1 := len_add_le (r.center + Z • r.direction - x) (-(r.center - c'))
    rw [len_neg, ← sub_eq_add_neg, len_sub_comm (r.center + Z • r.direction) x] at i1
    have i2 := mul_nonneg hσ0 L0
    refine i1.trans ((add_le_add hE hG).trans ?_)
    norm_num at n2 ⊢
    linarith
  have hD' : 8 / 10 ≤ len r.direction := by
    have i1 := len_add_le (x - c' - Z • r.direction) (Z • r.direction)
    rw [sub_add_cancel, len_smul, len_sub_comm (x - c') (Z • r.direction)] at i1
    have i2 : len (x - c') = distance x c' := rfl
    have i3 : (31 / 10 * σ + 15 / 10 ^ 5 * D) * distance x c' ≤ 1 / 10 * distance x c' :=
      mul_le_mul_of_nonneg_right (by norm_num; linarith) L0
    have i4 : |Z| * (8 / 10) ≤ |Z| * len r.direction := by linarith
    exact le_of_mul_le_mul_left i4 z0
  have hDne : r.direction ≠ 0 := len_pos.1 (by linarith)
  refine ⟨⟨fun a => (hrc a).mono (by norm_num), fun a => (hrd a).mono (by norm_num), ?_, ?_⟩, fun a => ?_,
    len_pos.1 Lp, hDne, hZ0, hE1, hD, hG, hD'⟩
  · by_contra hn
    push Not at hn
    exact hDne (funext fun a => (ed a).trans (hn a))
  · have : (fun a => fl.val (o.ray.direction a)) = r.direction := funext fun a => (ed a).symm
    rw [this]
    have i1 := pow_le_pow_left₀ (by norm_num) hD' 2
    refine le_trans ?_ i1
    norm_num at hω ⊢
    linarith
  · have i1 := (abs_apply_le_len (r.center - c') a).trans hG
    rw [Pi.sub_apply] at i1
    have i2 := abs_sub_abs_le_abs_sub (r.center a) (c' a)
    have i3 : |c' a| ≤ M := (g.center a).2
    norm_num at i1 ⊢
    linarith


/-- The computed ray of a measured pixel passes near the point, in the right direction. -/
theorem Measured.ray32 (h : Measured σ x o) (g : GoodView32 D M x o) (hσ : σ ≤ 1 / 100) (hD1 : 1 ≤ D) (hD2 : D ≤ 300)
    (hM1 : 1 ≤ M) (hM2 : M ≤ 2 ^ 20)
    (hx : ∀ a, |x a| ≤ M) (r : Ray WorldFrame ℝ) (hr : r = vray (RustFloat.rounding .b32 lib) o.ray) :
    SafeRay (RustFloat.rounding .b32 lib) 60 o.ray ∧ (∀ a, |r.center a| ≤ (1 + 4 / 10 ^ 5) * M) ∧
    x - o.center ≠ 0 ∧ r.direction ≠ 0 ∧ ∃ Z : ℝ, Z ≠ 0 ∧
      distance x (r.center + Z • r.direction) ≤ (13 * σ + 33 / 10 ^ 5) * M ∧
      len (Z • r.direction - (x - o.center)) ≤ (31 / 10 * σ + 15 / 10 ^ 5 * D) * len (x - o.center) := by
  obtain ⟨h1, h2, h3, h4, h5, h6, h7, -, -⟩ := h.rayAt32 g hσ hD1 hD2 hM1 hM2 hx r hr
  exact ⟨h1, h2, h3, h4, _, h5, h6, h7⟩

/-- C99: a point seen by several `f32` cameras is recovered from measured pixels.  With every pixel within `σ` focal
lengths of the exact projection of the point, all coordinates at most `M`, depths at least `M / D`, and two of the
cameras seeing the point at the angle `θ`, the pipeline `pixel_to_world`, `to_single_ray`, `best_intersection_of_rays`
returns a finite point within `ρ + 6.5e-5 N / κ * (M + |x| + ρ)` of the true one, where
`κ = 1 - |cos θ| - 13 σ - 6e-4 D - 7.1e-6 N` and `ρ = (13 σ + 3.3e-4) M √(N / κ)`. -/
theorem c99_f32_measured {lib' : Libm Format.b64} {os : List (Observation (F32 lib))} (h2 : 2 ≤ os.length)
    (hD1 : 1 ≤ D) (hD2 : D ≤ 300) (hM1 : 1 ≤ M) (hM2 : M ≤ 2 ^ 20) (hσ : σ ≤ 1 / 100) (hx : ∀ a, |x a| ≤ M)
    (hg : ∀ o ∈ os, GoodView32 D M x o) (hm : ∀ o ∈ os, Measured σ x o)
    {a b : Observation (F32 lib)} (ha : a ∈ os) (hb : b ∈ os) {κ ρ : ℝ}
    (hκ : κ = 1 - absCos (x - a.center) (x - b.center) - 13 * σ - 6 / 10 ^ 4 * D - 71 / 10000000 * os.length)
    (hκ0 : 101 / 1000000000 < κ) (hρ : ρ = (13 * σ + 33 / 10 ^ 5) * M * √(os.length / κ)) :
    ∃ pt, bestIntersectionOfRays (Svd3.svd : TrySvd (F64 lib')) (os.map Observation.ray) = .ok pt ∧
      (∀ j, Flt.isFinite (f := .b32) (pt.data 0 j)) ∧
      distance (fun j => Flt.val (f := .b32) (pt.data 0 j)) x ≤
        ρ + 65 / 1000000 * os.length / κ * (M + (len x + ρ)) := by
  set fl := RustFloat.rounding .b32 lib with hfl
  have hN : (2 : ℝ) ≤ os.length := by exact_mod_cast h2
  have hR : ∀ o (ho : o ∈ os), _ := fun o ho => (hm o ho).ray32 (hg o ho) hσ hD1 hD2 hM1 hM2 hx _ rfl
  have hlen : (os.map Observation.ray).length = os.length := List.length_map ..
  obtain ⟨-, -, na, da, Za, za, -, la⟩ := hR a ha
  obtain ⟨-, -, nb, db, Zb, zb, -, lb⟩ := hR b hb
  have hcos := absCos_near na nb (smul_ne_zero za da) (smul_ne_zero zb db) la lb
  rw [absCos_smul za zb] at hcos
  set c := absCos (vray fl a.ray).direction (vray fl b.ray).direction with hc
  have τ0 : 0 ≤ (13 * σ + 33 / 10 ^ 5) * M := by
    obtain ⟨-, -, -, -, Z, -, h, -⟩ := hR a ha
    exact (len_nonneg _).trans h
  have hκ' : κ ≤ 1 - c - 71 / 10000000 * os.length := by
    rw [hκ]
    have := (hm a ha).nonneg32 (hg a ha)
    norm_num at hcos
    linarith
  obtain ⟨pt, p1, p2, p3⟩ := c84_f32_near_point (lib' := lib') (rays := os.map Observation.ray) (by rw [hlen]; exact h2)
    (fun r hr => by
      obtain ⟨o, ho, rfl⟩ := List.mem_map.1 hr
      exact (hR o ho).1)
    (M := (1 + 4 / 10 ^ 5) * M) (le_trans (by rw [div_le_one (by positivity)]; exact one_le_pow₀ (by norm_num)) (hM1.trans (by linarith)))
    (fun r hr i => by
      obtain ⟨o, ho, rfl⟩ := List.mem_map.1 hr
      exact (hR o ho).2.1 i)
    (List.mem_map_of_mem ha) (List.mem_map_of_mem hb) hc (κ := 1 - c - 71 / 10000000 * os.length) (by rw [hlen])
    (by linarith) (x := x) (τ := (13 * σ + 33 / 10 ^ 5) * M) (fun r hr => by
      obtain ⟨o, ho, rfl⟩ := List.mem_map.1 hr
      obtain ⟨-, -, -, -, Z, -, h, -⟩ := hR o ho
      exact (distTo_le (show _ ∈ line _ _ from ⟨Z, rfl⟩)).trans h) rfl
  refine ⟨pt, p1, p2, p3.trans ?_⟩
  rw [hlen]
  have κ0 : 0 < κ := by linarith
  have l0 := len_nonneg x
  have r1 : (13 * σ + 33 / 10 ^ 5) * M * √(os.length / (1 - c)) ≤ ρ := by
    rw [hρ]
    refine mul_le_mul_of_nonneg_left (Real.sqrt_le_sqrt ?_) τ0
    exact div_le_div_of_nonneg_left (by linarith) κ0 (by linarith)
  have r0 : 0 ≤ (13 * σ + 33 / 10 ^ 5) * M * √(os.length / (1 - c)) := mul_nonneg τ0 (Real.sqrt_nonneg _)
  have r2 : 64 / 1000000 * (os.length : ℝ) / (1 - c - 71 / 10000000 * os.length) ≤ 64 / 1000000 * os.length / κ :=
    div_le_div_of_nonneg_left (by linarith) κ0 hκ'
  have r3 : 0 ≤ (os.length : ℝ) / κ := div_nonneg (by linarith) κ0.le
  have r4 := mul_le_mul r2 (show (1 + 4 / 10 ^ 5) * M + (len x + (13 * σ + 33 / 10 ^ 5) * M * √(os.length / (1 - c))) ≤
    (1 + 4 / 10 ^ 5) * (M + (len x + ρ)) by nlinarith) (by positivity) (by rw [mul_div_assoc]; positivity)
  refine (add_le_add r1 r4).trans ?_
  rw [mul_div_assoc, mul_div_assoc]
  have r5 := mul_nonneg r3 (show 0 ≤ M + (len x + ρ) by linarith)
  norm_num at r5 ⊢
  linarith

theorem computed_bound_u32 {k F S C s0 s1 w z d D : ℝ} (hD1 : 1 ≤ D) (hk0 : 0 ≤ k) (hk : k ≤ 24 / 10 ^ 8) (hF : 1 ≤ F) (hS : S ≤ F)
    (hC : C ≤ 10 * F) (hS0 : 0 ≤ S) (h0 : s0 ≤ 10) (h1 : s1 ≤ 10) (h0' : 0 ≤ s0) (h1' : 0 ≤ s1) (hw : w ≤ 1)
    (hz : w / z ≤ 1) (hd : d / z ≤ 35 / 10 ^ 7 * D) :
    k * (2 * F * (s0 + 1) + 2 * S * (s1 + 1) + C + 6 * w / z + w) + 2 * d / z * (F * (s0 + 1) + S * (s1 + 1)) ≤
      17 / 10 ^ 5 * D * F := by
  have a1 : F * (s0 + 1) ≤ F * 11 := mul_le_mul_of_nonneg_left (by linarith) (by linarith)
  have a2 : S * (s1 + 1) ≤ F * 11 := mul_le_mul hS (by linarith) (by linarith) (by linarith)
  have a3 : F * (s0 + 1) + S * (s1 + 1) ≤ 22 * F := by linarith
  have a4 : 0 ≤ F * (s0 + 1) + S * (s1 + 1) :=
    add_nonneg (mul_nonneg (by linarith) (by linarith)) (mul_nonneg hS0 (by linarith))
  have a5 : 2 * F * (s0 + 1) + 2 * S * (s1 + 1) + C + 6 * w / z + w ≤ 61 * F := by
    rw [mul_div_assoc]; linarith
  have a6 := mul_le_mul hd a3 a4 (by linarith)
  have a8 : F ≤ D * F := le_mul_of_one_le_left (by linarith) hD1
  have a7 := (mul_le_mul_of_nonneg_left a5 hk0).trans (mul_le_mul_of_nonneg_right hk (show 0 ≤ 61 * F by linarith))
  rw [mul_div_assoc 2 d z, mul_assoc 2 (d / z)]
  norm_num at a6 a7 ⊢
  linarith

theorem computed_bound_v32 {k F C s1 w z d D : ℝ} (hD1 : 1 ≤ D) (hk0 : 0 ≤ k) (hk : k ≤ 24 / 10 ^ 8) (hF : 1 ≤ F)
    (hC : C ≤ 10 * F) (h1 : s1 ≤ 10) (h1' : 0 ≤ s1) (hw : w ≤ 1)
    (hz : w / z ≤ 1) (hd : d / z ≤ 35 / 10 ^ 7 * D) :
    k * (2 * F * (s1 + 1) + C + 4 * w / z + w) + 2 * d / z * (F * (s1 + 1)) ≤ 17 / 10 ^ 5 * D * F := by
  have a1 : F * (s1 + 1) ≤ 11 * F := by nlinarith
  have a4 : 0 ≤ F * (s1 + 1) := mul_nonneg (by linarith) (by linarith)
  have a5 : 2 * F * (s1 + 1) + C + 4 * w / z + w ≤ 61 * F := by
    rw [mul_div_assoc]; linarith
  have a6 := mul_le_mul hd a1 a4 (by linarith)
  have a8 : F ≤ D * F := le_mul_of_one_le_left (by linarith) hD1
  have a7 := (mul_le_mul_of_nonneg_left a5 hk0).trans (mul_le_mul_of_nonneg_right hk (show 0 ≤ 61 * F by linarith))
  rw [mul_div_assoc 2 d z, mul_assoc 2 (d / z)]
  norm_num at a6 a7 ⊢
  linarith

/-- The pixel computed by `world_to_pixel` for an `f32` point is within `1.7e-4 D` focal lengths of the exact
projection. -/
theorem computed_measured32 (g : GoodView32 D M x o) (hD1 : 1 ≤ D) (hD2 : D ≤ 50) (hM1 : 1 ≤ M) (hM2 : M ≤ 2 ^ 20) (w : Points WorldFrame (F32 lib) 1)
    (hw : ∀ a, Flt.Bounded (f := .b32) M (w.data 0 a)) (hx : x = (RustFloat.rounding .b32 lib).vec (w.data 0))
    (hp : o.pixel = (Camera.mk (IntrinsicParametersPerspective.ofParams o.params)
      (fromRotationAndCamcenter o.rotation o.camcenter)).worldToPixel w) : Measured (17 / 10 ^ 5 * D) x o := by
  set fl := RustFloat.rounding .b32 lib with hfl
  have eu : fl.u = 1 / 2 ^ 24 := Format.u_b32
  have hω : fl.ω ≤ 1 / 10 ^ 30 := Format.ω_b32.le.trans (by norm_num)
  have hω0 := fl.ω_nonneg
  have hX : o.position x = ((fromRotationAndCamcenter (fl.quat o.rotation) (fl.vec o.camcenter)).worldToCamera
      ⟨fun i => fl.vec (w.data i)⟩).data 0 := by
    rw [hx]; rfl
  have hdepth := g.depth
  have k8 : ((1 : ℝ) + 1 / 2 ^ 24) ^ 8 - 1 ≤ 48 / 10 ^ 8 := by norm_num
  have k8' : 0 ≤ ((1 : ℝ) + 1 / 2 ^ 24) ^ 8 - 1 := by norm_num
  obtain ⟨n, hn1, hn2⟩ := exists_nat_pow_near hM1 (one_lt_two (α := ℝ))
  have hn20 : n ≤ 20 := by
    by_contra hc
    have : (2 : ℝ) ^ 21 ≤ 2 ^ n := pow_le_pow_right₀ (by norm_num) (by omega)
    norm_num at this hM2
    linarith
  have hk2 : (2 : ℝ) ^ (n + 1) ≤ 2 * M := by rw [pow_succ]; linarith
  have hdepth' : M ≤ 50 * |o.position x 2| :=
    hdepth.trans (mul_le_mul_of_nonneg_right hD2 (abs_nonneg _))
  have hfin := c77_world_to_pixel (m := 20) (k := n + 1) (l := 6) (RustFloat.range .b32 lib) o.params
    (fun y hy => (g.params y hy).inRange le_rfl) (g.rotation.inRange (by norm_num))
    (fun a => (g.center a).inRange hn2.le) w 0 (fun a => (hw a).inRange hn2.le) (o.position x) hX
    (by
      show ((1 + fl.u) ^ 8 - 1) * (97 * 2 ^ (n + 1) + fl.ω * (18 * 2 ^ (n + 1) + 36)) ≤ _
      rw [eu]
      have : (((1 : ℝ) + 1 / 2 ^ 24) ^ 8 - 1) * (97 * 2 ^ (n + 1) + fl.ω * (18 * 2 ^ (n + 1) + 36)) ≤
        48 / 10 ^ 8 * (97 * (2 * M) + 1 / 10 ^ 30 * (18 * (2 * M) + 36)) := by gcongr
      refine this.trans ?_
      norm_num
      linarith)
    (by norm_num; linarith) (by show _ ≤ 127; omega)
  set δ := ((1 + fl.u) ^ 8 - 1) * (rotTight (1 + 1 / 10 ^ 6) fl.ω M + transTight (1 + 1 / 10 ^ 6) fl.ω M) with hδ
  have hδM : δ ≤ 35 / 10 ^ 7 * M := worldToCamera_near_f32 eu hω hM1
  have hZ0 : 0 < |o.position x 2| := by linarith
  have hdM := mul_le_mul_of_nonneg_left hdepth (show (0 : ℝ) ≤ 35 / 10 ^ 7 by norm_num)
  have hδZ : δ / |o.position x 2| ≤ 35 / 10 ^ 7 * D := by
    rw [div_le_iff₀ hZ0]
    norm_num at hδM ⊢
    linarith
  have hωZ : fl.ω / |o.position x 2| ≤ 1 / 10 ^ 28 := by
    rw [div_le_iff₀ hZ0]
    norm_num at hω ⊢
    linarith
  have main := worldToPixel_of_error (fl := fl) o.params o.rotation o.camcenter w 0 (o.position x) (δ := δ)
    (fun b hb => by
      rw [hX]
      exact worldToCamera_tight g.rotation.quatNormSq (fun a => (g.center a).2) w 0 (fun a => (hw a).2) b hb)
    (abs_pos.1 hZ0) (by
      have := hδM
      norm_num at this
      linarith)
  rw [← hp] at hfin main
  have k4 : ((1 : ℝ) + 1 / 2 ^ 24) ^ 4 - 1 ≤ 24 / 10 ^ 8 := by norm_num
  have k4' : 0 ≤ ((1 : ℝ) + 1 / 2 ^ 24) ^ 4 - 1 := by norm_num
  have k3 : ((1 : ℝ) + 1 / 2 ^ 24) ^ 3 - 1 ≤ 24 / 10 ^ 8 := by norm_num
  have k3' : 0 ≤ ((1 : ℝ) + 1 / 2 ^ 24) ^ 3 - 1 := by norm_num
  have F1 := g.fx
  have F2 := g.fy
  have S := g.skew
  have s0 := g.slope0
  have s1 := g.slope1
  have C1 := g.cx
  have C2 := g.cy
  refine ⟨fun a => (hfin a).1, ?_, ?_⟩
  · refine (main.1 (hfin 0).1).trans ?_
    rw [eu]
    exact computed_bound_u32 hD1 k4' k4 F1 S C1 (abs_nonneg _) s0 s1 (abs_nonneg _) (abs_nonneg _) (hω.trans (by norm_num))
      (hωZ.trans (by norm_num)) hδZ
  · refine (main.2 (hfin 1).1).trans ?_
    rw [eu]
    exact computed_bound_v32 hD1 k3' k3 F2 C2 s1 (abs_nonneg _) (hω.trans (by norm_num))
      (hωZ.trans (by norm_num)) hδZ


/-- C99 for pixels computed by the crate: the pixels of an `f32` point in each camera, at depth at least `M / D` with
`D ≤ 50`, projected back and intersected, give the point to within `ρ + 6.5e-5 N / κ * (M + |x| + ρ)`, where
`κ = 1 - |cos θ| - D / 350 - 7.1e-6 N` and `ρ = 0.0026 D M √(N / κ)`. -/
theorem c99_f32_triangulation {lib' : Libm Format.b64} {os : List (Observation (F32 lib))} (h2 : 2 ≤ os.length)
    (hD1 : 1 ≤ D) (hD2 : D ≤ 50) (hM1 : 1 ≤ M) (hM2 : M ≤ 2 ^ 20) (w : Points WorldFrame (F32 lib) 1)
    (hw : ∀ a, Flt.Bounded (f := .b32) M (w.data 0 a)) (hx : x = (RustFloat.rounding .b32 lib).vec (w.data 0))
    (hg : ∀ o ∈ os, GoodView32 D M x o)
    (hp : ∀ o ∈ os, o.pixel = (Camera.mk (IntrinsicParametersPerspective.ofParams o.params)
      (fromRotationAndCamcenter o.rotation o.camcenter)).worldToPixel w)
    {a b : Observation (F32 lib)} (ha : a ∈ os) (hb : b ∈ os) {κ ρ : ℝ}
    (hκ : κ = 1 - absCos (x - a.center) (x - b.center) - D / 350 - 71 / 10000000 * os.length)
    (hκ0 : 101 / 1000000000 < κ) (hρ : ρ = 26 / 10 ^ 4 * D * M * √(os.length / κ)) :
    ∃ pt, bestIntersectionOfRays (Svd3.svd : TrySvd (F64 lib')) (os.map Observation.ray) = .ok pt ∧
      (∀ j, Flt.isFinite (f := .b32) (pt.data 0 j)) ∧
      distance (fun j => Flt.val (f := .b32) (pt.data 0 j)) x ≤
        ρ + 65 / 1000000 * os.length / κ * (M + (len x + ρ)) := by
  have hN : (0 : ℝ) ≤ os.length := Nat.cast_nonneg _
  have κ0 : 0 < κ := by linarith
  have l0 := len_nonneg x
  obtain ⟨pt, p1, p2, p3⟩ := c99_f32_measured (lib' := lib') (σ := 17 / 10 ^ 5 * D) h2 hD1 (by linarith)
    hM1 hM2 (by norm_num; linarith) (fun a => by rw [hx]; exact (hw a).2) hg
    (fun o ho => computed_measured32 (hg o ho) hD1 hD2 hM1 hM2 w hw hx (hp o ho)) ha hb
    rfl (by norm_num at hκ hκ0 ⊢; linarith) rfl
  refine ⟨pt, p1, p2, p3.trans ?_⟩
  generalize hk : 1 - absCos (x - a.center) (x - b.center) - 13 * (17 / 10 ^ 5 * D) - 6 / 10 ^ 4 * D -
    71 / 10000000 * (os.length : ℝ) = κ'
  have hkk : κ ≤ κ' := by rw [← hk, hκ]; norm_num; linarith
  have t1 : (os.length : ℝ) / κ' ≤ os.length / κ := div_le_div_of_nonneg_left hN κ0 hkk
  have t2 : (13 * (17 / 10 ^ 5 * D) + 33 / 10 ^ 5) * M * √(os.length / κ') ≤ ρ := by
    rw [hρ]
    refine mul_le_mul (mul_le_mul_of_nonneg_right ?_ (by linarith)) (Real.sqrt_le_sqrt t1) (Real.sqrt_nonneg _)
      (by positivity)
    norm_num
    linarith
  have t0 : 0 ≤ (13 * (17 / 10 ^ 5 * D) + 33 / 10 ^ 5) * M * √(os.length / κ') := by positivity
  have t3 : 0 ≤ (os.length : ℝ) / κ := div_nonneg hN κ0.le
  refine add_le_add t2 (mul_le_mul ?_ (by linarith) (by positivity) (by positivity))
  rw [mul_div_assoc, mul_div_assoc]
  linarith

/-! ### A concrete pair of cameras -/

/-- A one-digit number. -/
noncomputable def digit32 (lib : Libm Format.b32) (k : Fin 10) : F32 lib := Flt.whole .b32 k (by decide +revert)

theorem val_digit32 (lib : Libm Format.b32) (k : Fin 10) : Flt.val (f := .b32) (digit32 lib k) = (k : ℕ) := by
  show Flt.val (f := .b32) (Flt.whole .b32 k _) = _
  simp [Flt.whole, Flt.val]

/-- Focal lengths 1, principal point (1, 0), no rotation, centre `(c, 0, 0)`, pixel `(p, 0)`. -/
noncomputable def sampleView32 (lib : Libm Format.b32) (c p : Fin 10) : Observation (F32 lib) where
  params := ⟨digit32 lib 1, digit32 lib 1, digit32 lib 0, digit32 lib 1, digit32 lib 0⟩
  rotation := ⟨digit32 lib 1, digit32 lib 0, digit32 lib 0, digit32 lib 0⟩
  camcenter := ![digit32 lib c, digit32 lib 0, digit32 lib 0]
  pixel := ⟨fun _ => ![digit32 lib p, digit32 lib 0]⟩

theorem sampleView32_center (c p : Fin 10) : (sampleView32 lib c p).center = ![((c : ℕ) : ℝ), 0, 0] := by
  funext a
  fin_cases a
  · exact val_digit32 lib c
  · exact (val_digit32 lib 0).trans (by norm_num)
  · exact (val_digit32 lib 0).trans (by norm_num)

theorem sampleView32_position (c p : Fin 10) (x : Vec) : (sampleView32 lib c p).position x = x - ![((c : ℕ) : ℝ), 0, 0] := by
  have e : (RustFloat.rounding .b32 lib).quat (sampleView32 lib c p).rotation = ⟨1, 0, 0, 0⟩ := by
    have h0 : Flt.val (f := .b32) (digit32 lib 0) = 0 := (val_digit32 lib _).trans (by norm_num)
    have h1 : Flt.val (f := .b32) (digit32 lib 1) = 1 := (val_digit32 lib _).trans (by norm_num)
    show Quat.mk (Flt.val (f := .b32) (digit32 lib 1)) (Flt.val (f := .b32) (digit32 lib 0))
      (Flt.val (f := .b32) (digit32 lib 0)) (Flt.val (f := .b32) (digit32 lib 0)) = _
    rw [h0, h1]
  have r : ∀ v : Vec, (⟨1, 0, 0, 0⟩ : Quat ℝ).rotate v = v := by
    intro v
    funext a
    fin_cases a <;> simp [Quat.rotate, V3.add, V3.scale, V3.cross, Quat.vector]
  rw [Observation.position, pose_apply, translation_eq, e, r, r]
  have n : quatNormSq (⟨1, 0, 0, 0⟩ : Quat ℝ) = 1 := by simp [quatNormSq]
  rw [n, sub_self, zero_smul, _root_.add_zero, ← sub_eq_add_neg]
  exact congrArg (x - ·) (sampleView32_center c p)

/-- Both cameras see the point (4, 0, 4). -/
theorem sampleView32_good (c p : Fin 10) (hc : c = 0 ∨ c = 8) : GoodView32 2 8 ![4, 0, 4] (sampleView32 lib c p) := by
  have hpos := sampleView32_position (lib := lib) c p ![4, 0, 4]
  have b : ∀ (k : Fin 10) {B : ℝ}, ((k : ℕ) : ℝ) ≤ B → Flt.Bounded (f := .b32) B (digit32 lib k) := fun k B hk =>
    ⟨trivial, by rw [val_digit32 lib, abs_of_nonneg (Nat.cast_nonneg _)]; exact hk⟩
  have v1 : Flt.val (f := .b32) (digit32 lib 1) = 1 := (val_digit32 lib _).trans (by norm_num)
  have v0 : Flt.val (f := .b32) (digit32 lib 0) = 0 := (val_digit32 lib _).trans (by norm_num)
  have hc8 : ((c : ℕ) : ℝ) ≤ 8 := by
    rcases hc with rfl | rfl <;> norm_num
  have s0 : |((sampleView32 lib c p).position ![4, 0, 4]) 0| = 4 := by
    rw [hpos]
    rcases hc with rfl | rfl <;> norm_num
  have s1 : ((sampleView32 lib c p).position ![4, 0, 4]) 1 = 0 := by rw [hpos]; simp
  have s2 : ((sampleView32 lib c p).position ![4, 0, 4]) 2 = 4 := by rw [hpos]; simp
  refine ⟨⟨trivial, trivial, trivial, trivial, ?_⟩, ?_, ?_, ?_, ?_, ?_, ?_, ?_, ?_, ?_, ?_⟩
  · show |Flt.val (f := .b32) (digit32 lib 1) ^ 2 + Flt.val (f := .b32) (digit32 lib 0) ^ 2 +
      Flt.val (f := .b32) (digit32 lib 0) ^ 2 + Flt.val (f := .b32) (digit32 lib 0) ^ 2 - 1| ≤ _
    rw [v1, v0]
    norm_num
  · intro a
    fin_cases a
    · exact b c hc8
    · exact b 0 (by norm_num)
    · exact b 0 (by norm_num)
  · intro y hy
    simp only [List.mem_cons, List.not_mem_nil, or_false] at hy
    rcases hy with rfl | rfl | rfl | rfl | rfl
    · exact b 1 (by norm_num)
    · exact b 1 (by norm_num)
    · exact b 0 (by norm_num)
    · exact b 1 (by norm_num)
    · exact b 0 (by norm_num)
  · exact (abs_of_nonneg (by rw [show Flt.val (f := .b32) (sampleView32 lib c p).params.fx = 1 from v1]; norm_num)).ge.trans' v1.ge
  · exact (abs_of_nonneg (by rw [show Flt.val (f := .b32) (sampleView32 lib c p).params.fy = 1 from v1]; norm_num)).ge.trans' v1.ge
  · rw [show Flt.val (f := .b32) (sampleView32 lib c p).params.skew = 0 from v0, abs_zero]
    exact abs_nonneg _
  · rw [show Flt.val (f := .b32) (sampleView32 lib c p).params.cx = 1 from v1,
      show Flt.val (f := .b32) (sampleView32 lib c p).params.fx = 1 from v1]
    norm_num
  · rw [show Flt.val (f := .b32) (sampleView32 lib c p).params.cy = 0 from v0, abs_zero]
    exact mul_nonneg (by norm_num) (abs_nonneg _)
  · rw [s2]; norm_num
  · rw [abs_div, s0, s2]; norm_num
  · rw [s1]; norm_num

/-- The pixels (2, 0) and (0, 0) are the images of (4, 0, 4). -/
theorem sampleView32_measured {c p : Fin 10} (h : c = 0 ∧ p = 2 ∨ c = 8 ∧ p = 0) :
    Measured (1 / 1000) ![4, 0, 4] (sampleView32 lib c p) := by
  have hpos := sampleView32_position (lib := lib) c p ![4, 0, 4]
  have v1 : Flt.val (f := .b32) (digit32 lib 1) = 1 := (val_digit32 lib _).trans (by norm_num)
  have v0 : Flt.val (f := .b32) (digit32 lib 0) = 0 := (val_digit32 lib _).trans (by norm_num)
  have e1 : Flt.val (f := .b32) (sampleView32 lib c p).params.fx = 1 := v1
  have e2 : Flt.val (f := .b32) (sampleView32 lib c p).params.fy = 1 := v1
  have e3 : Flt.val (f := .b32) (sampleView32 lib c p).params.skew = 0 := v0
  have e4 : Flt.val (f := .b32) (sampleView32 lib c p).params.cx = 1 := v1
  have e5 : Flt.val (f := .b32) (sampleView32 lib c p).params.cy = 0 := v0
  have e6 : Flt.val (f := .b32) ((sampleView32 lib c p).pixel.data 0 0) = (p : ℕ) := val_digit32 lib p
  have e7 : Flt.val (f := .b32) ((sampleView32 lib c p).pixel.data 0 1) = 0 := v0
  refine ⟨fun a => ?_, ?_, ?_⟩
  · fin_cases a <;> exact trivial
  · rw [Observation.projection, e1, e2, e3, e4, e5, e6, hpos]
    simp only [Spec.pinhole, Pi.sub_apply, Matrix.cons_val]
    rcases h with ⟨rfl, rfl⟩ | ⟨rfl, rfl⟩ <;> norm_num
  · rw [Observation.projection, e1, e2, e3, e4, e5, e7, hpos]
    norm_num [Spec.pinhole]

theorem sampleView32_angle : absCos (![4, 0, 4] - (sampleView32 lib 0 2).center) (![4, 0, 4] - (sampleView32 lib 8 0).center) = 0 := by
  rw [sampleView32_center, sampleView32_center, absCos, vec3_dotProduct]
  simp only [Pi.sub_apply, Matrix.cons_val]
  norm_num

/-- Non-vacuity of C99: two cameras 8 apart see the point (4, 0, 4) at a right angle, the pixels are good to one
thousandth of the focal length: the point found is within a quarter of a unit. -/
example {lib' : Libm Format.b64} :
    ∃ pt, bestIntersectionOfRays (Svd3.svd : TrySvd (F64 lib'))
        [(sampleView32 lib 0 2).ray, (sampleView32 lib 8 0).ray] = .ok pt ∧
      (∀ j, Flt.isFinite (f := .b32) (pt.data 0 j)) ∧
      distance (fun j => Flt.val (f := .b32) (pt.data 0 j)) ![4, 0, 4] ≤ 1 / 4 := by
  obtain ⟨pt, p1, p2, p3⟩ := c99_f32_measured (lib' := lib') (os := [sampleView32 lib 0 2, sampleView32 lib 8 0])
    (D := 2) (M := 8) (σ := 1 / 1000) (x := ![4, 0, 4]) (by simp) (by norm_num) (by norm_num) (by norm_num)
    (by norm_num) (by norm_num) (fun a => by fin_cases a <;> norm_num)
    (fun o ho => by
      simp only [List.mem_cons, List.not_mem_nil, or_false] at ho
      rcases ho with rfl | rfl
      · exact sampleView32_good 0 2 (Or.inl rfl)
      · exact sampleView32_good 8 0 (Or.inr rfl))
    (fun o ho => by
      simp only [List.mem_cons, List.not_mem_nil, or_false] at ho
      rcases ho with rfl | rfl
      · exact sampleView32_measured (Or.inl ⟨rfl, rfl⟩)
      · exact sampleView32_measured (Or.inr ⟨rfl, rfl⟩))
    (a := sampleView32 lib 0 2) (b := sampleView32 lib 8 0) (by simp) (by simp) rfl
    (by rw [sampleView32_angle]; norm_num) rfl
  refine ⟨pt, p1, p2, p3.trans ?_⟩
  rw [sampleView32_angle]
  have l : len ![(4 : ℝ), 0, 4] ≤ 2 * 4 := len_le_entries fun a => by fin_cases a <;> norm_num
  have q : √((([sampleView32 lib 0 2, sampleView32 lib 8 0] : List (Observation (F32 lib))).length : ℝ) /
      (1 - 0 - 13 * (1 / 1000) - 6 / 10 ^ 4 * 2 - 71 / 10000000 *
        (([sampleView32 lib 0 2, sampleView32 lib 8 0] : List (Observation (F32 lib))).length : ℝ))) ≤ 2 := by
    rw [Real.sqrt_le_left (by norm_num)]
    norm_num
  refine (add_le_add (mul_le_mul_of_nonneg_left q (by norm_num)) (mul_le_mul_of_nonneg_left (add_le_add_right
    (add_le_add l (mul_le_mul_of_nonneg_left q (by norm_num))) _) (by norm_num))).trans ?_
  norm_num

/-- Non-vacuity of C99 for computed pixels. -/
example {lib' : Libm Format.b64} (w : Points WorldFrame (F32 lib) 1)
    (hw : w = ⟨fun _ => ![digit32 lib 4, digit32 lib 0, digit32 lib 4]⟩)
    (a b : Observation (F32 lib))
    (ha : a = { sampleView32 lib 0 0 with
      pixel := (Camera.mk (IntrinsicParametersPerspective.ofParams (sampleView32 lib 0 0).params)
        (fromRotationAndCamcenter (sampleView32 lib 0 0).rotation (sampleView32 lib 0 0).camcenter)).worldToPixel w })
    (hb : b = { sampleView32 lib 8 0 with
      pixel := (Camera.mk (IntrinsicParametersPerspective.ofParams (sampleView32 lib 8 0).params)
        (fromRotationAndCamcenter (sampleView32 lib 8 0).rotation (sampleView32 lib 8 0).camcenter)).worldToPixel w }) :
    ∃ pt, bestIntersectionOfRays (Svd3.svd : TrySvd (F64 lib')) [a.ray, b.ray] = .ok pt ∧
      (∀ j, Flt.isFinite (f := .b32) (pt.data 0 j)) ∧
      distance (fun j => Flt.val (f := .b32) (pt.data 0 j)) ![4, 0, 4] ≤ 1 / 10 := by
  have hx : ![4, 0, 4] = (RustFloat.rounding .b32 lib).vec (w.data 0) := by
    rw [hw]
    funext j
    fin_cases j
    · exact ((val_digit32 lib 4).trans (by norm_num)).symm
    · exact ((val_digit32 lib 0).trans (by norm_num)).symm
    · exact ((val_digit32 lib 4).trans (by norm_num)).symm
  obtain ⟨pt, p1, p2, p3⟩ := c99_f32_triangulation (lib' := lib') (os := [a, b])
    (D := 2) (M := 8) (x := ![4, 0, 4]) (by simp) (by norm_num) (by norm_num) (by norm_num) (by norm_num) w
    (fun j => by
      have b : ∀ (k : Fin 10) {B : ℝ}, ((k : ℕ) : ℝ) ≤ B → Flt.Bounded (f := .b32) B (digit32 lib k) := fun k B hk =>
        ⟨trivial, by rw [val_digit32 lib, abs_of_nonneg (Nat.cast_nonneg _)]; exact hk⟩
      rw [hw]
      fin_cases j
      · exact b 4 (by norm_num)
      · exact b 0 (by norm_num)
      · exact b 4 (by norm_num))
    hx
    (fun o ho => by
      simp only [List.mem_cons, List.not_mem_nil, or_false] at ho
      rcases ho with rfl | rfl
      · rw [ha]; exact { sampleView32_good 0 0 (Or.inl rfl) with }
      · rw [hb]; exact { sampleView32_good 8 0 (Or.inr rfl) with })
    (fun o ho => by
      simp only [List.mem_cons, List.not_mem_nil, or_false] at ho
      rcases ho with rfl | rfl
      · rw [ha]
      · rw [hb])
    (a := a) (b := b) (by simp) (by simp) rfl
    (by
      have : absCos (![4, 0, 4] - a.center) (![4, 0, 4] - b.center) = 0 := by rw [ha, hb]; exact sampleView32_angle
      rw [this]; norm_num) rfl
  have hcos : absCos (![4, 0, 4] - a.center) (![4, 0, 4] - b.center) = 0 := by rw [ha, hb]; exact sampleView32_angle
  refine ⟨pt, p1, p2, p3.trans ?_⟩
  rw [hcos]
  have l : len ![(4 : ℝ), 0, 4] ≤ 2 * 4 := len_le_entries fun a => by fin_cases a <;> norm_num
  have q : √((([a, b] : List (Observation (F32 lib))).length : ℝ) /
      (1 - 0 - 2 / 350 - 71 / 10000000 * (([a, b] : List (Observation (F32 lib))).length : ℝ))) ≤ 3 / 2 := by
    rw [Real.sqrt_le_left (by norm_num)]
    norm_num
  refine (add_le_add (mul_le_mul_of_nonneg_left q (by norm_num)) (mul_le_mul_of_nonneg_left (add_le_add_right
    (add_le_add l (mul_le_mul_of_nonneg_left q (by norm_num))) _) (by norm_num))).trans ?_
  norm_num

end

end CamGeom
