import Verif.Props.FloatOrthographic
import Verif.Props.FloatTriangulation32

/-!
# C101: orthographic `f32` cameras, and triangulation with cameras of both kinds

C88 in single precision.  `D` is the bound for coordinates divided by depth in the perspective cameras, as in C99.
-/

namespace CamGeom
open Rounding ExtrinsicParameters Spec Matrix

section
variable {R : Type} [Scalar R] {fl : Rounding R}

theorem rayAxis_near_f32 (hu : fl.u = 1 / 2 ^ 24) (hω : fl.ω ≤ 1 / 10 ^ 30) {q : Quat R} {c d : V3 R}
    (hε : |quatNormSq (fl.quat q) - 1| ≤ 1 / 10 ^ 6) (hd : ∀ a, |fl.val (d a)| ≤ 1) (a : Fin 3)
    (hf : fl.isFinite ((fromRotationAndCamcenter q c).cache.poseInv.transformVector d a)) :
    |fl.val ((fromRotationAndCamcenter q c).cache.poseInv.transformVector d a) -
      (fl.quat q).inverse.rotate (fl.vec d) a| ≤ 2 / 10 ^ 6 := by
  have hω0 := fl.ω_nonneg
  refine (rayDirection_tight hε hd a hf).trans ?_
  rw [hu]
  unfold rotTight
  have hk : ((1 : ℝ) + 1 / 2 ^ 24) ^ 7 - 1 ≤ 4175 / 10 ^ 10 := by norm_num
  calc _ ≤ 4175 / 10 ^ 10 * ((13 / 4 * (1 + 1 / 10 ^ 6) + 1) * 1 + 1 / 10 ^ 30 * (15 * (1 + 1 / 10 ^ 6) + 18) : ℝ) := by
        gcongr
    _ ≤ _ := by norm_num

end

section
variable {lib : Libm Format.b32}

/-- Cameras that are covered: rotation of unit norm up to rounding, coordinates up to `M`, scales from `2^-20` to
`2^20` pixels per unit and an image centre that stands for at most `10 M` units. -/
structure GoodParallel32 (M : ℝ) (o : ParallelView (F32 lib)) : Prop where
  rotation : NearUnit lib (1 / 10 ^ 6) o.rotation
  center : ∀ a, Flt.Bounded (f := .b32) M (o.camcenter a)
  params : ∀ y ∈ [o.params.sx, o.params.sy, o.params.cx, o.params.cy], Flt.Bounded (f := .b32) (2 ^ 50) y
  sx : 1 / 2 ^ 20 ≤ |Flt.val (f := .b32) o.params.sx|
  sy : 1 / 2 ^ 20 ≤ |Flt.val (f := .b32) o.params.sy|
  sx_le : |Flt.val (f := .b32) o.params.sx| ≤ 2 ^ 20
  sy_le : |Flt.val (f := .b32) o.params.sy| ≤ 2 ^ 20
  cx : |Flt.val (f := .b32) o.params.cx| ≤ 10 * M * |Flt.val (f := .b32) o.params.sx|
  cy : |Flt.val (f := .b32) o.params.cy| ≤ 10 * M * |Flt.val (f := .b32) o.params.sy|

variable {D M σ : ℝ} {x : Vec} {o : ParallelView (F32 lib)}

theorem MeasuredParallel.nonneg32 (h : MeasuredParallel σ M x o) (g : GoodParallel32 M o) (hM : 1 ≤ M) : 0 ≤ σ := by
  have h1 := (abs_nonneg _).trans h.u
  have h2 : 0 < M * |Flt.val (f := .b32) o.params.sx| :=
    mul_pos (by linarith) (lt_of_lt_of_le (by positivity) g.sx)
  rw [mul_assoc] at h1
  exact nonneg_of_mul_nonneg_left h1 h2

theorem GoodParallel32.position_le (g : GoodParallel32 M o) (hx : ∀ a, |x a| ≤ M) (a : Fin 3) :
    |o.position x a| ≤ 4001 / 1000 * M := by
  set fl := RustFloat.rounding .b32 lib with hfl
  have hq : |quatNormSq (fl.quat o.rotation) - 1| ≤ 1 / 10 ^ 6 := g.rotation.quatNormSq
  have e := depth_le hq (fl.vec o.camcenter) x a
  rw [← pose_apply] at e
  have lx : len x ≤ 2 * M := len_le_entries hx
  have lc : len (fl.vec o.camcenter) ≤ 2 * M := len_le_entries fun a => (g.center a).2
  have hM0 : 0 ≤ M := (abs_nonneg _).trans (hx 0)
  have hL : distance x (fl.vec o.camcenter) ≤ 4 * M := by
    have := len_add_le x (-fl.vec o.camcenter)
    rw [len_neg, ← sub_eq_add_neg] at this
    exact this.trans (by linarith)
  refine e.trans ?_
  norm_num
  linarith

theorem MeasuredParallel.origin32 (h : MeasuredParallel σ M x o) (g : GoodParallel32 M o) (hσ : σ ≤ 1 / 100)
    (hM1 : 1 ≤ M) (hM2 : M ≤ 2 ^ 20) (hx : ∀ a, |x a| ≤ M) :
    (∀ a, Flt.isFinite (f := .b32) (o.origin a)) ∧
    |Flt.val (f := .b32) (o.origin 0) - o.position x 0| ≤ (σ + 31 / 10 ^ 7) * M ∧
    |Flt.val (f := .b32) (o.origin 1) - o.position x 1| ≤ (σ + 31 / 10 ^ 7) * M ∧
    Flt.val (f := .b32) (o.origin 2) = 0 := by
  set fl := RustFloat.rounding .b32 lib with hfl
  have eu : fl.u = 1 / 2 ^ 24 := Format.u_b32
  have hω : fl.ω ≤ 1 / 10 ^ 30 := Format.ω_b32.le.trans (by norm_num)
  have hM0 : 0 ≤ M := by linarith
  have s1 : 0 < |fl.val o.params.sx| := lt_of_lt_of_le (by positivity) g.sx
  have s2 : 0 < |fl.val o.params.sy| := lt_of_lt_of_le (by positivity) g.sy
  have X0 : |o.position x 0| ≤ 41 / 10 * M := (g.position_le hx 0).trans (by linarith)
  have X1 : |o.position x 1| ≤ 41 / 10 * M := (g.position_le hx 1).trans (by linarith)
  have k2 : ((1 : ℝ) + 1 / 2 ^ 24) ^ 2 - 1 ≤ 12 / 10 ^ 8 := by norm_num
  have k2' : 0 ≤ ((1 : ℝ) + 1 / 2 ^ 24) ^ 2 - 1 := by norm_num
  have big : ∀ {v s : ℝ}, |v| ≤ 15 * M * |s| → |s| ≤ 2 ^ 20 → |v| ≤ 2 ^ 50 := by
    intro v s h1 h2
    refine h1.trans ((mul_le_mul (mul_le_mul_of_nonneg_left hM2 (by norm_num)) h2 (abs_nonneg _) (by norm_num)).trans ?_)
    norm_num
  -- magnitude of the pixel
  have p0 := pixel_le (v := fl.val (o.pixel.data 0 0)) s1 hM0 g.cx X0 h.u hσ
  have p1 := pixel_le (v := fl.val (o.pixel.data 0 1)) s2 hM0 g.cy X1 h.v hσ
  have hpx : ∀ a, InRange fl 50 (o.pixel.data 0 a) := by
    intro a
    refine ⟨h.finite a, ?_⟩
    fin_cases a
    · exact big p0 g.sx_le
    · exact big p1 g.sy_le
  have hfin : ∀ a, fl.isFinite (o.origin a) := fun a =>
    (c77_orthographic_pixel_to_camera (m := 50) (l := 20) (RustFloat.range Format.b32 lib) o.params
      (fun y hy => (g.params y hy).inRange le_rfl) g.sx g.sy o.pixel 0 hpx (by show _ ≤ 127; norm_num) a).1
  obtain ⟨d0, d1, d2⟩ := c48_orthographic_origin fl o.params o.pixel 0
  have d0 := d0 (g.params o.params.sx (by simp)).1 (hfin 0)
  have d1 := d1 (g.params o.params.sy (by simp)).1 (hfin 1)
  rw [eu] at d0 d1
  have r0 := (offset_near (v := fl.val (o.pixel.data 0 0)) s1 hM0 g.cx X0 h.u hσ k2' d0)
  have r1 := (offset_near (v := fl.val (o.pixel.data 0 1)) s2 hM0 g.cy X1 h.v hσ k2' d1)
  have fin : (((1 : ℝ) + 1 / 2 ^ 24) ^ 2 - 1) * (25 * M + fl.ω) ≤ 31 / 10 ^ 7 * M := by
    have : (((1 : ℝ) + 1 / 2 ^ 24) ^ 2 - 1) * (25 * M + fl.ω) ≤ 12 / 10 ^ 8 * (25 * M + 1 / 10 ^ 30) :=
      mul_le_mul k2 (by linarith) (add_nonneg (by linarith) fl.ω_nonneg) (by norm_num)
    norm_num at this ⊢
    linarith
  refine ⟨hfin, r0.trans (by linarith), r1.trans (by linarith), d2⟩

/-- The computed ray of a measured pixel passes near the point, along the optical axis. -/
theorem MeasuredParallel.ray32 (h : MeasuredParallel σ M x o) (g : GoodParallel32 M o) (hσ : σ ≤ 1 / 100) (hM1 : 1 ≤ M)
    (hM2 : M ≤ 2 ^ 20) (hx : ∀ a, |x a| ≤ M) (r : Ray WorldFrame ℝ)
    (hr : r = vray (RustFloat.rounding .b32 lib) o.ray) :
    SafeRay (RustFloat.rounding .b32 lib) 60 o.ray ∧ (∀ a, |r.center a| ≤ 6 * M) ∧
    o.axis ≠ 0 ∧ r.direction ≠ 0 ∧
      distance x (r.center + o.position x 2 • r.direction) ≤ (13 * σ + 33 / 10 ^ 5) * M ∧
      len (r.direction - o.axis) ≤ 6 / 10 ^ 6 * len o.axis := by
  set fl := RustFloat.rounding .b32 lib with hfl
  have eu : fl.u = 1 / 2 ^ 24 := Format.u_b32
  have hω : fl.ω ≤ 1 / 10 ^ 30 := Format.ω_b32.le.trans (by norm_num)
  have hq : |quatNormSq (fl.quat o.rotation) - 1| ≤ 1 / 10 ^ 6 := g.rotation.quatNormSq
  have hσ0 := h.nonneg32 g hM1
  have hM0 : 0 ≤ M := by linarith
  have σM := mul_nonneg hσ0 hM0
  have σM' := mul_le_mul_of_nonneg_right hσ hM0
  obtain ⟨df, s0, s1, s2⟩ := h.origin32 g hσ hM1 hM2 hx
  have hX := fun a => g.position_le hx a
  set X := o.position x with hXd
  set c' := fl.vec o.camcenter with hc'
  set t := (fromRotationAndCamcenter (fl.quat o.rotation) c').translation with ht
  have eX : X = (fl.quat o.rotation).rotate x + t := pose_apply _ _ _
  have near : ∀ {d Y : ℝ}, |d - Y| ≤ (σ + 31 / 10 ^ 7) * M → |Y| ≤ 4001 / 1000 * M → |d| ≤ 5 * M := by
    intro d Y h1 h2
    have e := (abs_sub_abs_le_abs_sub d Y).trans h1
    norm_num at e
    linarith
  have hv : ∀ a, |fl.val (o.origin a)| ≤ 5 * M := by
    intro a
    fin_cases a
    · exact near s0 (hX 0)
    · exact near s1 (hX 1)
    · show |fl.val (o.origin 2)| ≤ 5 * M
      rw [show fl.val (o.origin 2) = 0 from s2, abs_zero]
      linarith
  have z : ∀ b, InRange fl 23 ((![0, 0, 1] : V3 (F32 lib)) b) := by
    intro b; fin_cases b
    · exact InRange.zero fl
    · exact InRange.zero fl
    · exact (InRange.one fl).mono (by omega)
  have zv : fl.vec (![0, 0, 1] : V3 (F32 lib)) = ![0, 0, 1] := by
    funext b; fin_cases b
    · exact fl.zero.2
    · exact fl.zero.2
    · exact fl.one.2
  have hin : ∀ a, InRange fl 23 (o.origin a) := fun a =>
    ⟨df a, (hv a).trans (le_trans (mul_le_mul_of_nonneg_left hM2 (by norm_num)) (by norm_num))⟩
  have hci : ∀ a, InRange fl 23 (o.camcenter a) := fun a => (g.center a).inRange (hM2.trans (by norm_num))
  have hqi := g.rotation.inRange (by norm_num)
  have hrc : ∀ a, InRange fl 38 (o.ray.center a) := by
    intro a
    rw [ParallelView.ray_eq]
    exact (hqi.poseInv (RustFloat.range .b32 lib) hci hin (by show _ ≤ 127; norm_num) a).1
  have hrd : ∀ a, InRange fl 30 (o.ray.direction a) := by
    intro a
    rw [ParallelView.ray_eq]
    exact (hqi.poseInv (RustFloat.range .b32 lib) hci z (by show _ ≤ 127; norm_num) a).2
  have ec : ∀ a, r.center a = fl.val (o.ray.center a) := fun a => by rw [hr]; rfl
  have ed : ∀ a, r.direction a = fl.val (o.ray.direction a) := fun a => by rw [hr]; rfl
  set v := fl.vec o.origin with hvd
  set w := (fl.quat o.rotation).inverse.rotate ![0, 0, 1] with hw
  have e1 : len (r.center - ((fl.quat o.rotation).inverse.rotate v + (fl.quat o.rotation).inverse.rotate (-t))) ≤
      2 * (32 / 10 ^ 6 * M) := by
    refine len_le_entries fun a => ?_
    have hf := (hrc a).1
    rw [Pi.sub_apply, ec]
    rw [ParallelView.ray_eq] at hf ⊢
    exact rayOrigin_near_f32 eu hω hM1 hq (fun a => (g.center a).2) hv a hf
  have e2 : len (r.direction - w) ≤ 2 * (2 / 10 ^ 6) := by
    refine len_le_entries fun a => ?_
    have hf := (hrd a).1
    rw [Pi.sub_apply, ed]
    rw [ParallelView.ray_eq] at hf ⊢
    have := rayAxis_near_f32 eu hω hq (d := ![0, 0, 1]) (fun b => by
      have : fl.val ((![0, 0, 1] : V3 (F32 lib)) b) = (![0, 0, 1] : Vec) b := congrFun zv b
      rw [this]
      fin_cases b <;> norm_num) a hf
    rw [zv] at this
    exact this
  have e3 := ray_exact hq (by norm_num) t x (v + X 2 • ![0, 0, 1]) 1
  rw [← eX, one_smul, one_smul, rotate_add, rotate_smul, ← hw] at e3
  have e4 : len (v + X 2 • ![0, 0, 1] - X) ≤ (σ + 31 / 10 ^ 7) * M + (σ + 31 / 10 ^ 7) * M := by
    refine len_le_two ?_ ?_ ?_
    · show |v 0 + X 2 * 0 - X 0| ≤ _
      rw [MulZeroClass.mul_zero, _root_.add_zero]
      exact s0
    · show |v 1 + X 2 * 0 - X 1| ≤ _
      rw [MulZeroClass.mul_zero, _root_.add_zero]
      exact s1
    · show v 2 + X 2 * 1 - X 2 = 0
      rw [show v 2 = 0 from s2]; ring
  have lx : len x ≤ 2 * M := len_le_entries hx
  have hE : distance x (r.center + X 2 • r.direction) ≤
      (1 + 3 * (1 / 10 ^ 6)) * ((σ + 31 / 10 ^ 7) * M + (σ + 31 / 10 ^ 7) * M) +
        5 * (1 / 10 ^ 6) * (2 * M) + 2 * (32 / 10 ^ 6 * M) + 4001 / 1000 * M * (2 * (2 / 10 ^ 6)) := by
    have e : r.center + X 2 • r.direction - x =
        ((fl.quat o.rotation).inverse.rotate (-t) + ((fl.quat o.rotation).inverse.rotate v + X 2 • w) - x) +
        ((r.center - ((fl.quat o.rotation).inverse.rotate v + (fl.quat o.rotation).inverse.rotate (-t))) +
          X 2 • (r.direction - w)) := by
      rw [smul_sub]; abel
    rw [distance, len_sub_comm, e]
    refine (len_add_le _ _).trans ?_
    refine (add_le_add e3 (len_add_le _ _)).trans ?_
    rw [len_smul]
    have i1 := mul_le_mul (hX 2) e2 (len_nonneg _) (by linarith)
    have i2 := mul_le_mul_of_nonneg_left e4 (show (0 : ℝ) ≤ 1 + 3 * (1 / 10 ^ 6) by norm_num)
    have i3 := mul_le_mul_of_nonneg_left lx (show (0 : ℝ) ≤ 5 * (1 / 10 ^ 6) by norm_num)
    linarith
  have hE1 : distance x (r.center + X 2 • r.direction) ≤ (13 * σ + 33 / 10 ^ 5) * M := by
    refine hE.trans ?_
    norm_num
    linarith
  have hA : len (w - o.axis) ≤ 1 / 10 ^ 6 := axis_near hq
  have lw : 99 / 100 ≤ len w := by
    have := len_rotate_ge hq (by norm_num) ![0, 0, 1]
    have l1 : len ![(0 : ℝ), 0, 1] = 1 := by simp [len, Fin.sum_univ_three]
    rw [l1, _root_.mul_one] at this
    exact this
  have lw2 : len w ≤ 1 + 3 * (1 / 10 ^ 6) := by
    have c : |quatNormSq (fl.quat o.rotation).inverse - 1| ≤ 1 / 10 ^ 6 := by rw [quatNormSq_inverse]; exact hq
    have := len_rotate_le c ![0, 0, 1]
    have l1 : len ![(0 : ℝ), 0, 1] = 1 := by simp [len, Fin.sum_univ_three]
    rw [l1, _root_.mul_one] at this
    exact this
  have la : 98 / 100 ≤ len o.axis := by
    have t := len_add_le (w - o.axis) o.axis
    rw [sub_add_cancel] at t
    norm_num at hA
    linarith
  have ld : 98 / 100 ≤ len r.direction := by
    have t := len_add_le (w - r.direction) r.direction
    rw [sub_add_cancel, len_sub_comm] at t
    norm_num at e2
    linarith
  have ld2 : len r.direction ≤ 1001 / 1000 := by
    have t := len_add_le (r.direction - w) w
    rw [sub_add_cancel] at t
    norm_num at e2 lw2
    linarith
  have hDne : r.direction ≠ 0 := len_pos.1 (by linarith)
  refine ⟨⟨fun a => (hrc a).mono (by norm_num), fun a => (hrd a).mono (by norm_num), ?_, ?_⟩, fun a => ?_,
    len_pos.1 (by linarith), hDne, hE1, ?_⟩
  · by_contra hn
    push Not at hn
    exact hDne (funext fun a => (ed a).trans (hn a))
  · have : (fun a => fl.val (o.ray.direction a)) = r.direction := funext fun a => (ed a).symm
    rw [this]
    have i1 := pow_le_pow_left₀ (by norm_num) ld 2
    refine le_trans ?_ i1
    norm_num at hω ⊢
    linarith
  · have i1 := (abs_apply_le_len (r.center + X 2 • r.direction - x) a).trans ((len_sub_comm _ _).le.trans hE1)
    have i2 : (r.center + X 2 • r.direction - x) a = r.center a + X 2 * r.direction a - x a := rfl
    rw [i2] at i1
    have i3 : |X 2 * r.direction a| ≤ 4001 / 1000 * M * (1001 / 1000) := by
      rw [abs_mul]
      exact mul_le_mul (hX 2) ((abs_apply_le_len _ a).trans ld2) (abs_nonneg _) (by linarith)
    have i4 := abs_le.1 i1
    have i5 := abs_le.1 i3
    have i6 := abs_le.1 (hx a)
    rw [abs_le]
    norm_num at i4
    constructor <;> linarith
  · have t := len_add_le (r.direction - w) (w - o.axis)
    rw [sub_add_sub_cancel] at t
    refine t.trans ?_
    norm_num at e2 hA ⊢
    linarith

/-! ### The pixel computed for a point -/

theorem computed_offset32 {d X s c v D k K ω M : ℝ} (hs : 1 / 2 ^ 20 ≤ |s|) (hM : 1 ≤ M) (hc : |c| ≤ 10 * M * |s|)
    (hX : |X| ≤ 4001 / 1000 * M) (hd : |d - X| ≤ D) (hD : D ≤ 35 / 10 ^ 7 * M) (hω : ω ≤ 1 / 10 ^ 30)
    (hk : k ≤ 12 / 10 ^ 8) (hk0 : 0 ≤ k) (hK : K = |d * s| + |c| + ω) (hv : |v - (d * s + c)| ≤ k * K) :
    |v - (s * X + c)| ≤ 54 / 10 ^ 7 * M * |s| := by
  have hs0 : 0 < |s| := lt_of_lt_of_le (by positivity) hs
  have ms : 1 / 2 ^ 20 ≤ M * |s| := hs.trans (le_mul_of_one_le_left hs0.le hM)
  have h1 : |d * s - s * X| ≤ 35 / 10 ^ 7 * (M * |s|) := by
    rw [mul_comm d s, ← mul_sub, abs_mul]
    exact (mul_le_mul_of_nonneg_left (hd.trans hD) hs0.le).trans (le_of_eq (by ring))
  have h2 : |s * X| ≤ 4001 / 1000 * (M * |s|) := by
    rw [abs_mul]
    exact (mul_le_mul_of_nonneg_left hX hs0.le).trans (le_of_eq (by ring))
  have h3 := abs_sub_abs_le_abs_sub (d * s) (s * X)
  have h4 : K ≤ 15 * (M * |s|) := by
    rw [hK]
    rw [mul_assoc] at hc
    linarith
  have h5 : k * K ≤ 12 / 10 ^ 8 * (15 * (M * |s|)) :=
    (mul_le_mul_of_nonneg_left h4 hk0).trans (mul_le_mul_of_nonneg_right hk (by linarith [show (0 : ℝ) ≤ 1 / 2 ^ 20 by positivity]))
  have h6 := abs_add_le (v - (d * s + c)) (d * s - s * X)
  rw [show v - (d * s + c) + (d * s - s * X) = v - (s * X + c) by ring] at h6
  rw [mul_assoc]
  linarith

/-- C101: the pixel that an orthographic camera computes for an `f32` point is finite, and within the image of
`5.4e-6 M` units of the exact projection. -/
theorem c101_f32_world_to_pixel (g : GoodParallel32 M o) (hM1 : 1 ≤ M) (hM2 : M ≤ 2 ^ 26) (w : Points WorldFrame (F32 lib) 1)
    (hw : ∀ a, Flt.Bounded (f := .b32) M (w.data 0 a)) (hx : x = (RustFloat.rounding .b32 lib).vec (w.data 0))
    (hp : o.pixel = o.camera.worldToPixel w) : MeasuredParallel (54 / 10 ^ 7) M x o := by
  set fl := RustFloat.rounding .b32 lib with hfl
  have eu : fl.u = 1 / 2 ^ 24 := Format.u_b32
  have hω : fl.ω ≤ 1 / 10 ^ 30 := Format.ω_b32.le.trans (by norm_num)
  have hω0 := fl.ω_nonneg
  have hX : o.position x = ((fromRotationAndCamcenter (fl.quat o.rotation) (fl.vec o.camcenter)).worldToCamera
      ⟨fun i => fl.vec (w.data i)⟩).data 0 := by
    rw [hx]; rfl
  have hxM : ∀ a, |x a| ≤ M := fun a => by rw [hx]; exact (hw a).2
  have k2 : ((1 : ℝ) + 1 / 2 ^ 24) ^ 2 - 1 ≤ 12 / 10 ^ 8 := by norm_num
  have k2' : 0 ≤ ((1 : ℝ) + 1 / 2 ^ 24) ^ 2 - 1 := by norm_num
  have hwc := c77_world_to_camera (k := 26) (RustFloat.range .b32 lib) (g.rotation.inRange (by norm_num))
    (fun a => (g.center a).inRange hM2) w 0 (fun a => (hw a).inRange hM2) (by show _ ≤ 127; norm_num)
  have hfin := c77_orthographic_camera_to_pixel (m := 50) (k := 34) (RustFloat.range .b32 lib) o.params
    (fun y hy => (g.params y hy).inRange le_rfl)
    ((fromRotationAndCamcenter o.rotation o.camcenter).worldToCamera w) 0 hwc (by show _ ≤ 127; norm_num)
  have hδM := worldToCamera_near_f32 (fl := fl) eu hω hM1
  have herr := fun a => worldToCamera_tight g.rotation.quatNormSq (fun a => (g.center a).2) w 0 (fun a => (hw a).2) a
    (hwc a).1
  rw [← hX] at herr
  have ep : o.pixel = (IntrinsicParametersOrthographic.ofParams o.params).cameraToPixel
    ((fromRotationAndCamcenter o.rotation o.camcenter).worldToCamera w) := hp
  obtain ⟨pu, pv⟩ := c48_orthographic fl o.params ((fromRotationAndCamcenter o.rotation o.camcenter).worldToCamera w) 0
    _ _ rfl rfl
  have pu := pu (hfin 0).1
  have pv := pv (hfin 1).1
  rw [← ep] at hfin pu pv
  rw [eu] at pu pv
  exact ⟨fun a => (hfin a).1,
    computed_offset32 g.sx hM1 g.cx (g.position_le hxM 0) (herr 0) hδM hω k2 k2' rfl pu,
    computed_offset32 g.sy hM1 g.cy (g.position_le hxM 1) (herr 1) hδM hω k2 k2' rfl pv⟩

/-! ### The round trip of a pixel -/

theorem GoodParallel32.mono (g : GoodParallel32 M o) {M' : ℝ} (h : M ≤ M') : GoodParallel32 M' o where
  rotation := g.rotation
  center := fun a => ⟨(g.center a).1, (g.center a).2.trans h⟩
  params := g.params
  sx := g.sx
  sy := g.sy
  sx_le := g.sx_le
  sy_le := g.sy_le
  cx := g.cx.trans (mul_le_mul_of_nonneg_right (by linarith) (abs_nonneg _))
  cy := g.cy.trans (mul_le_mul_of_nonneg_right (by linarith) (abs_nonneg _))

/-- C101: the round trip from a pixel to a point on its ray and back: finite, and within the image of `7e-4 M` units
of the pixel. -/
theorem c101_f32_roundtrip (g : GoodParallel32 M o) (hM1 : 1 ≤ M) (hM2 : M ≤ 2 ^ 20)
    (hf : ∀ a, Flt.isFinite (f := .b32) (o.pixel.data 0 a)) (s : F32 lib) (a : Fin 2)
    (hs : s = ![o.params.sx, o.params.sy] a)
    (hu : |Flt.val (f := .b32) (o.pixel.data 0 0)| ≤ 15 * M * |Flt.val (f := .b32) o.params.sx|)
    (hv : |Flt.val (f := .b32) (o.pixel.data 0 1)| ≤ 15 * M * |Flt.val (f := .b32) o.params.sy|) :
    Flt.isFinite (f := .b32) ((o.camera.worldToPixel (o.camera.pixelToWorld o.pixel).pointOnRay).data 0 a) ∧
    |Flt.val (f := .b32) ((o.camera.worldToPixel (o.camera.pixelToWorld o.pixel).pointOnRay).data 0 a) -
      Flt.val (f := .b32) (o.pixel.data 0 a)| ≤ 7 / 10 ^ 4 * M * |Flt.val (f := .b32) s| := by
  set fl := RustFloat.rounding .b32 lib with hfl
  have eu : fl.u = 1 / 2 ^ 24 := Format.u_b32
  have hω : fl.ω ≤ 1 / 10 ^ 30 := Format.ω_b32.le.trans (by norm_num)
  have hω0 := fl.ω_nonneg
  have hM0 : 0 ≤ M := by linarith
  have k2 : ((1 : ℝ) + 1 / 2 ^ 24) ^ 2 - 1 ≤ 12 / 10 ^ 8 := by norm_num
  have s1 : 0 < |fl.val o.params.sx| := lt_of_lt_of_le (by positivity) g.sx
  have s2 : 0 < |fl.val o.params.sy| := lt_of_lt_of_le (by positivity) g.sy
  have big : ∀ {v s : ℝ}, |v| ≤ 15 * M * |s| → |s| ≤ 2 ^ 20 → |v| ≤ 2 ^ 50 := by
    intro v s h1 h2
    refine h1.trans ((mul_le_mul (mul_le_mul_of_nonneg_left hM2 (by norm_num)) h2 (abs_nonneg _) (by norm_num)).trans ?_)
    norm_num
  have hpx : ∀ a, InRange fl 50 (o.pixel.data 0 a) := by
    intro a
    refine ⟨hf a, ?_⟩
    fin_cases a
    · exact big hu g.sx_le
    · exact big hv g.sy_le
  have hfin : ∀ a, fl.isFinite (o.origin a) := fun a =>
    (c77_orthographic_pixel_to_camera (m := 50) (l := 20) (RustFloat.range Format.b32 lib) o.params
      (fun y hy => (g.params y hy).inRange le_rfl) g.sx g.sy o.pixel 0 hpx (by show _ ≤ 127; norm_num) a).1
  obtain ⟨d0, d1, d2⟩ := c48_orthographic_origin fl o.params o.pixel 0
  have d0 := d0 (g.params o.params.sx (by simp)).1 (hfin 0)
  have d1 := d1 (g.params o.params.sy (by simp)).1 (hfin 1)
  rw [eu] at d0 d1
  have size : ∀ {d v c s : ℝ}, 0 < |s| → |v| ≤ 15 * M * |s| → |c| ≤ 10 * M * |s| →
      |d - (v - c) / s| ≤ (((1 : ℝ) + 1 / 2 ^ 24) ^ 2 - 1) * ((|v| + |c|) / |s| + fl.ω) →
      |d - (v - c) / s| ≤ 31 / 10 ^ 7 * M ∧ |d| ≤ 251 / 10 * M := by
    intro d v c s h1 h2 h3 h4
    have e1 : (|v| + |c|) / |s| ≤ 25 * M := by
      rw [div_le_iff₀ h1]; linarith
    have e2 : |(v - c) / s| ≤ 25 * M := by
      rw [abs_div]
      exact (div_le_div_of_nonneg_right (abs_sub v c) h1.le).trans e1
    have e3 := abs_sub_abs_le_abs_sub d ((v - c) / s)
    have e4 : (((1 : ℝ) + 1 / 2 ^ 24) ^ 2 - 1) * ((|v| + |c|) / |s| + fl.ω) ≤ 12 / 10 ^ 8 * (25 * M + 1 / 10 ^ 30) :=
      mul_le_mul k2 (by linarith) (add_nonneg (div_nonneg (add_nonneg (abs_nonneg _) (abs_nonneg _)) h1.le) hω0) (by norm_num)
    have e5 : 12 / 10 ^ 8 * (25 * M + 1 / 10 ^ 30) ≤ 31 / 10 ^ 7 * M := by norm_num; linarith
    have e6 : 31 / 10 ^ 7 * M ≤ 1 / 10 * M := by norm_num; linarith
    exact ⟨h4.trans (e4.trans e5), by linarith⟩
  obtain ⟨n0, b0⟩ := size s1 hu g.cx d0
  obtain ⟨n1, b1⟩ := size s2 hv g.cy d1
  have d2' : fl.val (o.origin 2) = 0 := d2
  have hd : ∀ a, |fl.val (o.origin a)| ≤ 251 / 10 * M := by
    intro a
    fin_cases a
    · exact b0
    · exact b1
    · show |fl.val (o.origin 2)| ≤ _
      rw [d2', abs_zero]
      linarith
  have hq : |quatNormSq (fl.quat o.rotation) - 1| ≤ 1 / 10 ^ 6 := g.rotation.quatNormSq
  have hq' : |quatNormSq (fl.quat o.rotation).inverse - 1| ≤ 1 / 10 ^ 6 := by rw [quatNormSq_inverse]; exact hq
  -- the computed point
  set w := (o.camera.pixelToWorld o.pixel).pointOnRay with hw
  have ew : ∀ b, w.data 0 b =
      (fromRotationAndCamcenter o.rotation o.camcenter).cache.poseInv.transformVector ![0, 0, 1] b +
      (fromRotationAndCamcenter o.rotation o.camcenter).cache.poseInv.transformPoint o.origin b := by
    intro b
    rw [hw]
    unfold ParallelView.camera ParallelView.origin
    simp only [Camera.pixelToWorld, rayCameraToWorld, RayBundle.toPose, RayBundle.pointOnRay, Bundle.pointOnRay,
      Bundle.toPose, IntrinsicParameters.pixelToCamera, sd_toPose, sd_pointOnRay,
      ortho_pixelToCamera, SharedDirectionRayBundle.newPluszSharedDirection]
  have fin : ∀ b, InRange fl 50 (w.data 0 b) := fun b =>
    (c77_orthographic_ray_point (k := 25) (RustFloat.range .b32 lib) o.params (g.rotation.inRange (by norm_num))
      (fun a => (g.center a).inRange (hM2.trans (by norm_num))) o.pixel 0
      (fun a => ⟨hfin a, (hd a).trans (le_trans (mul_le_mul_of_nonneg_left hM2 (by norm_num)) (by norm_num))⟩)
      o.camera rfl (by show _ ≤ 127; norm_num) b).1.mono (by norm_num)
  have zv : fl.vec (![0, 0, 1] : V3 (F32 lib)) = ![0, 0, 1] := by
    funext b; fin_cases b
    · exact fl.zero.2
    · exact fl.zero.2
    · exact fl.one.2
  set t := (fromRotationAndCamcenter (fl.quat o.rotation) (fl.vec o.camcenter)).translation with ht
  set v := fl.vec o.origin with hvd
  set y : Vec := v + ![0, 0, 1] with hy
  set Q := (fl.quat o.rotation).inverse with hQ
  have herr : ∀ b, |fl.val (w.data 0 b) - Q.rotate (y - t) b| ≤ 119 / 10 ^ 6 * M := by
    intro b
    have hfb := (fin b).1
    rw [ew] at hfb ⊢
    obtain ⟨f1, f2, -⟩ := fl.add hfb
    have h1 := rotate_tight (v := ![0, 0, 1]) (v' := ![0, 0, 1]) (M := 1) (k := 0) (n := 1 + 1 / 10 ^ 6) (QExact.quat fl o.rotation).inverse
      (by rw [quatNormSq_inverse]; exact quatNormSq_le hq) (by norm_num) (fun b => by
        fin_cases b
        · exact (Comp.of_le (x := (0 : F32 lib)) (by rw [fl.zero.2]; norm_num)).congr fl.zero.2
        · exact (Comp.of_le (x := (0 : F32 lib)) (by rw [fl.zero.2]; norm_num)).congr fl.zero.2
        · exact (Comp.of_le (x := (1 : F32 lib)) (by rw [fl.one.2]; norm_num)).congr fl.one.2) b
    have h2 := rayOrigin_comp hq (fun a => (g.center a).2) hd b
    have h3 := (((h1.mono (k' := 15) (by norm_num) le_rfl).add h2) hfb).2
    have e : Q.rotate (y - t) b = Q.rotate ![0, 0, 1] b + (Q.rotate v b + Q.rotate (-t) b) := by
      rw [hy, sub_eq_add_neg, rotate_add, rotate_add]
      show Q.rotate v b + Q.rotate ![0, 0, 1] b + Q.rotate (-t) b = _
      ring
    rw [e]
    refine h3.trans ?_
    rw [eu]
    unfold rotTight transTight
    have hk : ((1 : ℝ) + 1 / 2 ^ 24) ^ (15 + 1) - 1 ≤ 954 / 10 ^ 9 := by norm_num
    calc _ ≤ 954 / 10 ^ 9 * ((13 / 4 * (1 + 1 / 10 ^ 6) + 1) * 1 + 1 / 10 ^ 30 * (15 * (1 + 1 / 10 ^ 6) + 18) +
        ((13 / 4 * (1 + 1 / 10 ^ 6) + 1) * (251 / 10 * M) + 1 / 10 ^ 30 * (15 * (1 + 1 / 10 ^ 6) + 18) +
        ((13 / 4 * (1 + 1 / 10 ^ 6) + 1) * (3 * ((1 + 1 / 10 ^ 6 + 6 * (1 / 10 ^ 30)) * M + 1 / 10 ^ 30)) +
          1 / 10 ^ 30 * (15 * (1 + 1 / 10 ^ 6) + 18)))) := by gcongr
      _ ≤ _ := by norm_num; linarith
  -- sizes
  have lc : len (fl.vec o.camcenter) ≤ 2 * M := len_le_entries fun a => (g.center a).2
  have lt : len t ≤ 21 / 10 * M := by
    have c0 := len_nonneg (fl.vec o.camcenter)
    rw [ht, translation_eq, len_neg]
    refine (len_add_le _ _).trans ?_
    rw [len_smul]
    have i1 := len_rotate_le hq (fl.vec o.camcenter)
    have i2 := mul_le_mul_of_nonneg_right hq c0
    norm_num at i1 i2 ⊢
    linarith
  have ly : len (y - t) ≤ 39 * M := by
    have lv : len v ≤ 357 / 10 * M := by
      rw [len]
      refine Real.sqrt_le_left (by linarith) |>.2 ?_
      rw [Fin.sum_univ_three]
      have a0 : fl.val (o.origin 0) ^ 2 ≤ (251 / 10 * M) ^ 2 := sq_le_sq' (abs_le.1 b0).1 (abs_le.1 b0).2
      have a1 : fl.val (o.origin 1) ^ 2 ≤ (251 / 10 * M) ^ 2 := sq_le_sq' (abs_le.1 b1).1 (abs_le.1 b1).2
      show fl.val (o.origin 0) ^ 2 + fl.val (o.origin 1) ^ 2 + fl.val (o.origin 2) ^ 2 ≤ _
      rw [d2']
      nlinarith
    have le : len ![(0 : ℝ), 0, 1] = 1 := by simp [len, Fin.sum_univ_three]
    have i1 := len_add_le v ![0, 0, 1]
    have i2 := len_add_le y (-t)
    rw [len_neg, ← sub_eq_add_neg] at i2
    rw [le] at i1
    linarith
  have lE : len (fl.vec (w.data 0) - Q.rotate (y - t)) ≤ 2 * (119 / 10 ^ 6 * M) := len_le_entries herr
  have hsize : ∀ b, |fl.val (w.data 0 b)| ≤ 40 * M := by
    intro b
    have i1 := herr b
    have i2 := (abs_apply_le_len (Q.rotate (y - t)) b).trans (len_rotate_le hq' (y - t))
    have i3 := abs_sub_abs_le_abs_sub (fl.val (w.data 0 b)) (Q.rotate (y - t) b)
    norm_num at i1 i2
    linarith
  -- the point seen by the camera
  have hpos : len (o.position (fl.vec (w.data 0)) - y) ≤ 44 / 10 ^ 5 * M := by
    have e : o.position (fl.vec (w.data 0)) = (fl.quat o.rotation).rotate (fl.vec (w.data 0)) + t := pose_apply _ _ _
    rw [e]
    refine (trip_exact hq (by norm_num) t y _).trans ?_
    rw [← hQ]
    norm_num at lE ⊢
    linarith
  have hpix := c101_f32_world_to_pixel (o := { o with pixel := o.camera.worldToPixel w }) (M := 40 * M)
    (x := fl.vec (w.data 0)) { g.mono (show M ≤ 40 * M by linarith) with }
    (by linarith) (le_trans (mul_le_mul_of_nonneg_left hM2 (by norm_num)) (by norm_num)) w
    (fun b => ⟨(fin b).1, hsize b⟩) rfl rfl
  refine ⟨hpix.finite a, ?_⟩
  have last : ∀ {z P d S c v Y : ℝ}, 0 < |S| → |z - (S * P + c)| ≤ 54 / 10 ^ 7 * (40 * M) * |S| →
      |P - Y| ≤ 44 / 10 ^ 5 * M → Y = d → |d - (v - c) / S| ≤ 31 / 10 ^ 7 * M →
      |z - v| ≤ 7 / 10 ^ 4 * M * |S| := by
    intro z P d S c v Y h0 h1 h2 h3 h4
    subst h3
    have hS : S ≠ 0 := abs_pos.1 h0
    have e : z - v = (z - (S * P + c)) + (S * (P - Y) + S * (Y - (v - c) / S)) := by
      field_simp
      ring
    have i1 := abs_add_three (z - (S * P + c)) (S * (P - Y)) (S * (Y - (v - c) / S))
    rw [add_assoc, ← e, abs_mul, abs_mul] at i1
    have i2 := mul_le_mul_of_nonneg_left h2 h0.le
    have i3 := mul_le_mul_of_nonneg_left h4 h0.le
    have i4 := mul_nonneg hM0 h0.le
    norm_num at h1 i2 i3 ⊢
    linarith
  have z0 := abs_apply_le_len (o.position (fl.vec (w.data 0)) - y) 0
  have z1 := abs_apply_le_len (o.position (fl.vec (w.data 0)) - y) 1
  subst hs
  fin_cases a
  · exact last s1 hpix.u (z0.trans hpos) (show v 0 + 0 = fl.val (o.origin 0) by rw [_root_.add_zero]; rfl) n0
  · exact last s2 hpix.v (z1.trans hpos) (show v 1 + 0 = fl.val (o.origin 1) by rw [_root_.add_zero]; rfl) n1

/-! ### Cameras of both kinds -/

/-- The cameras covered. -/
def View.Good32 (D M : ℝ) (x : Vec) : View (F32 lib) → Prop
  | .perspective o => GoodView32 D M x o
  | .orthographic o => GoodParallel32 M o

theorem View.Measured.facts32 {o : View (F32 lib)} (h : o.Measured σ M x) (g : o.Good32 D M x) (hσ : σ ≤ 1 / 100) (hD1 : 1 ≤ D) (hD2 : D ≤ 300)
    (hM1 : 1 ≤ M) (hM2 : M ≤ 2 ^ 20) (hx : ∀ a, |x a| ≤ M) (r : Ray WorldFrame ℝ)
    (hr : r = vray (RustFloat.rounding .b32 lib) o.ray) :
    0 ≤ σ ∧ SafeRay (RustFloat.rounding .b32 lib) 60 o.ray ∧ (∀ a, |r.center a| ≤ 6 * M) ∧
    o.sight x ≠ 0 ∧ r.direction ≠ 0 ∧
      (∃ Z : ℝ, distance x (r.center + Z • r.direction) ≤ (13 * σ + 33 / 10 ^ 5) * M) ∧
      ∃ Z : ℝ, Z ≠ 0 ∧ len (Z • r.direction - o.sight x) ≤ (31 / 10 * σ + 15 / 10 ^ 5 * D) * len (o.sight x) := by
  cases o with
  | perspective o =>
    have hσ0 := CamGeom.Measured.nonneg32 h g
    obtain ⟨h1, h2, h3, h4, Z, h5, h6, h7⟩ := CamGeom.Measured.ray32 h g hσ hD1 hD2 hM1 hM2 hx r hr
    exact ⟨hσ0, h1, fun a => (h2 a).trans (by norm_num; linarith), h3, h4, ⟨Z, h6⟩, Z, h5, h7⟩
  | orthographic o =>
    have hσ0 := MeasuredParallel.nonneg32 h g hM1
    obtain ⟨h1, h2, h3, h4, h5, h6⟩ := MeasuredParallel.ray32 h g hσ hM1 hM2 hx r hr
    refine ⟨hσ0, h1, h2, h3, h4, ⟨_, h5⟩, 1, one_ne_zero, ?_⟩
    rw [one_smul]
    exact h6.trans (mul_le_mul_of_nonneg_right (by norm_num; linarith) (len_nonneg _))

/-- C101: a point seen by several `f32` cameras, perspective and orthographic, is recovered from measured pixels.  Two
of the cameras see it at the angle `θ`; `κ = 1 - |cos θ| - 13 σ - 6e-4 D - 7.1e-6 N`, `ρ = (13 σ + 3.3e-4) M √(N / κ)`: the
point found is within `ρ + 6.4e-5 N / κ * (6 M + |x| + ρ)` of the true one. -/
theorem c101_f32_measured {lib' : Libm Format.b64} {os : List (View (F32 lib))} (h2 : 2 ≤ os.length)
    (hD1 : 1 ≤ D) (hD2 : D ≤ 300) (hM1 : 1 ≤ M) (hM2 : M ≤ 2 ^ 20) (hσ : σ ≤ 1 / 100) (hx : ∀ a, |x a| ≤ M)
    (hg : ∀ o ∈ os, o.Good32 D M x) (hm : ∀ o ∈ os, o.Measured σ M x)
    {a b : View (F32 lib)} (ha : a ∈ os) (hb : b ∈ os) {κ ρ : ℝ}
    (hκ : κ = 1 - absCos (a.sight x) (b.sight x) - 13 * σ - 6 / 10 ^ 4 * D - 71 / 10000000 * os.length)
    (hκ0 : 101 / 1000000000 < κ) (hρ : ρ = (13 * σ + 33 / 10 ^ 5) * M * √(os.length / κ)) :
    ∃ pt, bestIntersectionOfRays (Svd3.svd : TrySvd (F64 lib')) (os.map View.ray) = .ok pt ∧
      (∀ j, Flt.isFinite (f := .b32) (pt.data 0 j)) ∧
      distance (fun j => Flt.val (f := .b32) (pt.data 0 j)) x ≤
        ρ + 64 / 1000000 * os.length / κ * (6 * M + (len x + ρ)) := by
  set fl := RustFloat.rounding .b32 lib with hfl
  have hN : (2 : ℝ) ≤ os.length := by exact_mod_cast h2
  have hR : ∀ o (ho : o ∈ os), _ := fun o ho => (hm o ho).facts32 (hg o ho) hσ hD1 hD2 hM1 hM2 hx _ rfl
  have hlen : (os.map View.ray).length = os.length := List.length_map ..
  obtain ⟨hσ0, -, -, na, da, -, Za, za, la⟩ := hR a ha
  obtain ⟨-, -, -, nb, db, -, Zb, zb, lb⟩ := hR b hb
  have hcos := absCos_near na nb (smul_ne_zero za da) (smul_ne_zero zb db) la lb
  rw [absCos_smul za zb] at hcos
  set c := absCos (vray fl a.ray).direction (vray fl b.ray).direction with hc
  have τ0 : 0 ≤ (13 * σ + 33 / 10 ^ 5) * M := mul_nonneg (by linarith [show (0 : ℝ) ≤ 2 / 10 ^ 12 by norm_num]) (by linarith)
  have hκ' : κ ≤ 1 - c - 71 / 10000000 * os.length := by
    rw [hκ]
    norm_num at hcos
    linarith
  obtain ⟨pt, p1, p2, p3⟩ := c84_f32_near_point (lib' := lib') (rays := os.map View.ray) (by rw [hlen]; exact h2)
    (fun r hr => by
      obtain ⟨o, ho, rfl⟩ := List.mem_map.1 hr
      exact (hR o ho).2.1)
    (M := 6 * M) (le_trans (by rw [div_le_one (by positivity)]; exact one_le_pow₀ (by norm_num)) (hM1.trans (by linarith)))
    (fun r hr i => by
      obtain ⟨o, ho, rfl⟩ := List.mem_map.1 hr
      exact (hR o ho).2.2.1 i)
    (List.mem_map_of_mem ha) (List.mem_map_of_mem hb) hc (κ := 1 - c - 71 / 10000000 * os.length) (by rw [hlen])
    (by linarith) (x := x) (τ := (13 * σ + 33 / 10 ^ 5) * M) (fun r hr => by
      obtain ⟨o, ho, rfl⟩ := List.mem_map.1 hr
      obtain ⟨-, -, -, -, -, ⟨Z, h⟩, -⟩ := hR o ho
      exact (distTo_le (show _ ∈ line _ _ from ⟨Z, rfl⟩)).trans h) rfl
  refine ⟨pt, p1, p2, p3.trans ?_⟩
  rw [hlen]
  have κ0 : 0 < κ := by linarith
  have l0 := len_nonneg x
  have r1 : (13 * σ + 33 / 10 ^ 5) * M * √(os.length / (1 - c)) ≤ ρ := by
    rw [hρ]
    refine mul_le_mul_of_nonneg_left (Real.sqrt_le_sqrt ?_) τ0
    exact div_le_div_of_nonneg_left (by linarith) κ0 (by linarith)
  have r0 : 0 ≤ (13 * σ + 33 / 10 ^ 5) * M * √(os.length / (1 - c)) := mul_nonneg τ0 (Real.sqrt_nonneg _)
  have r2 : 64 / 1000000 * (os.length : ℝ) / (1 - c - 71 / 10000000 * os.length) ≤ 64 / 1000000 * os.length / κ :=
    div_le_div_of_nonneg_left (by linarith) κ0 hκ'
  refine add_le_add r1 (mul_le_mul r2 (by linarith) (by linarith) (div_nonneg (by linarith) κ0.le))

/-- C101 for pixels computed by the crate: within `ρ + 6.5e-5 N / κ * (6 M + |x| + ρ)`, where
`κ = 1 - |cos θ| - D / 350 - 7.1e-6 N` and `ρ = 0.0026 D M √(N / κ)`. -/
theorem c101_f32_triangulation {lib' : Libm Format.b64} {os : List (View (F32 lib))} (h2 : 2 ≤ os.length)
    (hD1 : 1 ≤ D) (hD2 : D ≤ 50) (hM1 : 1 ≤ M) (hM2 : M ≤ 2 ^ 20) (w : Points WorldFrame (F32 lib) 1)
    (hw : ∀ a, Flt.Bounded (f := .b32) M (w.data 0 a)) (hx : x = (RustFloat.rounding .b32 lib).vec (w.data 0))
    (hg : ∀ o ∈ os, o.Good32 D M x) (hp : ∀ o ∈ os, o.Computed w)
    {a b : View (F32 lib)} (ha : a ∈ os) (hb : b ∈ os) {κ ρ : ℝ}
    (hκ : κ = 1 - absCos (a.sight x) (b.sight x) - D / 350 - 71 / 10000000 * os.length)
    (hκ0 : 101 / 1000000000 < κ) (hρ : ρ = 26 / 10 ^ 4 * D * M * √(os.length / κ)) :
    ∃ pt, bestIntersectionOfRays (Svd3.svd : TrySvd (F64 lib')) (os.map View.ray) = .ok pt ∧
      (∀ j, Flt.isFinite (f := .b32) (pt.data 0 j)) ∧
      distance (fun j => Flt.val (f := .b32) (pt.data 0 j)) x ≤
        ρ + 65 / 1000000 * os.length / κ * (6 * M + (len x + ρ)) := by
  have hN : (0 : ℝ) ≤ os.length := Nat.cast_nonneg _
  have κ0 : 0 < κ := by linarith
  have l0 := len_nonneg x
  have hm : ∀ o ∈ os, o.Measured (17 / 10 ^ 5 * D) M x := by
    intro o ho
    have g := hg o ho
    have p := hp o ho
    cases o with
    | perspective o => exact computed_measured32 g hD1 hD2 hM1 hM2 w hw hx p
    | orthographic o =>
      have := c101_f32_world_to_pixel g hM1 (hM2.trans (by norm_num)) w hw hx p
      have m : ∀ {s : ℝ}, 0 ≤ s → 54 / 10 ^ 7 * M * s ≤ 17 / 10 ^ 5 * D * M * s := fun hs =>
        mul_le_mul_of_nonneg_right (mul_le_mul_of_nonneg_right (by norm_num; linarith) (by linarith)) hs
      exact ⟨this.finite, this.u.trans (m (abs_nonneg _)), this.v.trans (m (abs_nonneg _))⟩
  obtain ⟨pt, p1, p2, p3⟩ := c101_f32_measured (lib' := lib') (σ := 17 / 10 ^ 5 * D) h2 hD1 (by linarith)
    hM1 hM2 (by norm_num; linarith) (fun a => by rw [hx]; exact (hw a).2) hg hm ha hb
    rfl (by norm_num at hκ hκ0 ⊢; linarith) rfl
  refine ⟨pt, p1, p2, p3.trans ?_⟩
  generalize hk : 1 - absCos (a.sight x) (b.sight x) - 13 * (17 / 10 ^ 5 * D) - 6 / 10 ^ 4 * D -
    71 / 10000000 * (os.length : ℝ) = κ'
  have hkk : κ ≤ κ' := by rw [← hk, hκ]; norm_num; linarith
  have t1 : (os.length : ℝ) / κ' ≤ os.length / κ := div_le_div_of_nonneg_left hN κ0 hkk
  have t2 : (13 * (17 / 10 ^ 5 * D) + 33 / 10 ^ 5) * M * √(os.length / κ') ≤ ρ := by
    rw [hρ]
    refine mul_le_mul (mul_le_mul_of_nonneg_right ?_ (by linarith)) (Real.sqrt_le_sqrt t1) (Real.sqrt_nonneg _)
      (by positivity)
    norm_num
    linarith
  have t0 : 0 ≤ (13 * (17 / 10 ^ 5 * D) + 33 / 10 ^ 5) * M * √(os.length / κ') := by positivity
  have t3 : 0 ≤ (os.length : ℝ) / κ := div_nonneg hN κ0.le
  refine add_le_add t2 (mul_le_mul ?_ (by linarith) (by positivity) (by positivity))
  rw [mul_div_assoc, mul_div_assoc]
  linarith

/-! ### A concrete pair of cameras -/

/-- Scales 1, image centre (1, 0), no rotation, centre (0, 0, 0), pixel `(p, 0)`. -/
noncomputable def sampleParallel32 (lib : Libm Format.b32) (p : Fin 10) : ParallelView (F32 lib) where
  params := ⟨digit32 lib 1, digit32 lib 1, digit32 lib 1, digit32 lib 0⟩
  rotation := ⟨digit32 lib 1, digit32 lib 0, digit32 lib 0, digit32 lib 0⟩
  camcenter := ![digit32 lib 0, digit32 lib 0, digit32 lib 0]
  pixel := ⟨fun _ => ![digit32 lib p, digit32 lib 0]⟩

theorem sampleParallel32_quat (p : Fin 10) :
    (RustFloat.rounding .b32 lib).quat (sampleParallel32 lib p).rotation = ⟨1, 0, 0, 0⟩ := by
  have h0 : Flt.val (f := .b32) (digit32 lib 0) = 0 := (val_digit32 lib _).trans (by norm_num)
  have h1 : Flt.val (f := .b32) (digit32 lib 1) = 1 := (val_digit32 lib _).trans (by norm_num)
  show Quat.mk (Flt.val (f := .b32) (digit32 lib 1)) (Flt.val (f := .b32) (digit32 lib 0))
    (Flt.val (f := .b32) (digit32 lib 0)) (Flt.val (f := .b32) (digit32 lib 0)) = _
  rw [h0, h1]

theorem sampleParallel32_position (p : Fin 10) (x : Vec) : (sampleParallel32 lib p).position x = x :=
  (sampleView32_position (lib := lib) 0 0 x).trans (by
    funext j; fin_cases j <;> simp)

theorem sampleParallel32_axis (p : Fin 10) : (sampleParallel32 lib p).axis = ![0, 0, 1] := by
  unfold ParallelView.axis
  rw [sampleParallel32_quat]
  funext j
  fin_cases j <;> simp [Quat.toRotationMatrix]

theorem sampleParallel32_good (p : Fin 10) : GoodParallel32 8 (sampleParallel32 lib p) := by
  have b : ∀ (k : Fin 10) {B : ℝ}, ((k : ℕ) : ℝ) ≤ B → Flt.Bounded (f := .b32) B (digit32 lib k) := fun k B hk =>
    ⟨trivial, by rw [val_digit32 lib, abs_of_nonneg (Nat.cast_nonneg _)]; exact hk⟩
  have v1 : Flt.val (f := .b32) (digit32 lib 1) = 1 := (val_digit32 lib _).trans (by norm_num)
  have v0 : Flt.val (f := .b32) (digit32 lib 0) = 0 := (val_digit32 lib _).trans (by norm_num)
  have e1 : Flt.val (f := .b32) (sampleParallel32 lib p).params.sx = 1 := v1
  have e2 : Flt.val (f := .b32) (sampleParallel32 lib p).params.sy = 1 := v1
  have e3 : Flt.val (f := .b32) (sampleParallel32 lib p).params.cx = 1 := v1
  have e4 : Flt.val (f := .b32) (sampleParallel32 lib p).params.cy = 0 := v0
  refine ⟨⟨trivial, trivial, trivial, trivial, ?_⟩, ?_, ?_, ?_, ?_, ?_, ?_, ?_, ?_⟩
  · show |Flt.val (f := .b32) (digit32 lib 1) ^ 2 + Flt.val (f := .b32) (digit32 lib 0) ^ 2 +
      Flt.val (f := .b32) (digit32 lib 0) ^ 2 + Flt.val (f := .b32) (digit32 lib 0) ^ 2 - 1| ≤ _
    rw [v1, v0]
    norm_num
  · intro a
    fin_cases a <;> exact b 0 (by norm_num)
  · intro y hy
    simp only [List.mem_cons, List.not_mem_nil, or_false] at hy
    rcases hy with rfl | rfl | rfl | rfl
    · exact b 1 (by norm_num)
    · exact b 1 (by norm_num)
    · exact b 1 (by norm_num)
    · exact b 0 (by norm_num)
  · rw [e1]; norm_num
  · rw [e2]; norm_num
  · rw [e1]; norm_num
  · rw [e2]; norm_num
  · rw [e1, e3]; norm_num
  · rw [e2, e4]; norm_num

/-- The pixel (5, 0) is the image of (4, 0, 4). -/
theorem sampleParallel32_measured : MeasuredParallel (1 / 1000) 8 ![4, 0, 4] (sampleParallel32 lib 5) := by
  have v1 : Flt.val (f := .b32) (digit32 lib 1) = 1 := (val_digit32 lib _).trans (by norm_num)
  have v0 : Flt.val (f := .b32) (digit32 lib 0) = 0 := (val_digit32 lib _).trans (by norm_num)
  have v5 : Flt.val (f := .b32) (digit32 lib 5) = 5 := (val_digit32 lib _).trans (by norm_num)
  have e1 : Flt.val (f := .b32) (sampleParallel32 lib 5).params.sx = 1 := v1
  have e2 : Flt.val (f := .b32) (sampleParallel32 lib 5).params.sy = 1 := v1
  have e3 : Flt.val (f := .b32) (sampleParallel32 lib 5).params.cx = 1 := v1
  have e4 : Flt.val (f := .b32) (sampleParallel32 lib 5).params.cy = 0 := v0
  have e5 : Flt.val (f := .b32) ((sampleParallel32 lib 5).pixel.data 0 0) = 5 := v5
  have e6 : Flt.val (f := .b32) ((sampleParallel32 lib 5).pixel.data 0 1) = 0 := v0
  refine ⟨fun a => ?_, ?_, ?_⟩
  · fin_cases a <;> exact trivial
  · rw [ParallelView.projection, e1, e2, e3, e4, e5, sampleParallel32_position]
    norm_num [Spec.orthographic]
  · rw [ParallelView.projection, e1, e2, e3, e4, e6, sampleParallel32_position]
    norm_num [Spec.orthographic]

theorem sampleParallel32_angle :
    absCos ((View.perspective (sampleView32 lib 0 2)).sight ![4, 0, 4])
      ((View.orthographic (sampleParallel32 lib 5)).sight ![4, 0, 4]) ≤ 3 / 4 := by
  show absCos (![4, 0, 4] - (sampleView32 lib 0 2).center) (sampleParallel32 lib 5).axis ≤ 3 / 4
  rw [sampleView32_center, sampleParallel32_axis, absCos, vec3_dotProduct]
  have e : (![4, 0, 4] - ![(((0 : Fin 10) : ℕ) : ℝ), 0, 0] : Vec) = ![4, 0, 4] := by
    funext j; fin_cases j <;> simp
  have l1 : len ![(0 : ℝ), 0, 1] = 1 := by simp [len, Fin.sum_univ_three]
  have l2 : 16 / 3 ≤ len ![(4 : ℝ), 0, 4] := by
    rw [len]
    refine Real.le_sqrt_of_sq_le ?_
    simp [Fin.sum_univ_three]
    norm_num
  rw [e, l1, _root_.mul_one]
  rw [div_le_iff₀ (by linarith)]
  simp only [Matrix.cons_val]
  norm_num
  linarith

/-- Non-vacuity of C101: a perspective and an orthographic camera see the point (4, 0, 4). -/
example {lib' : Libm Format.b64} :
    ∃ pt, bestIntersectionOfRays (Svd3.svd : TrySvd (F64 lib'))
        [(sampleView32 lib 0 2).ray, (sampleParallel32 lib 5).ray] = .ok pt ∧
      (∀ j, Flt.isFinite (f := .b32) (pt.data 0 j)) ∧
      distance (fun j => Flt.val (f := .b32) (pt.data 0 j)) ![4, 0, 4] ≤ 2 / 5 := by
  have ang := sampleParallel32_angle (lib := lib)
  obtain ⟨pt, p1, p2, p3⟩ := c101_f32_measured (lib' := lib')
    (D := 2) (os := [.perspective (sampleView32 lib 0 2), .orthographic (sampleParallel32 lib 5)])
    (M := 8) (σ := 1 / 1000) (x := ![4, 0, 4]) (by simp) (by norm_num) (by norm_num) (by norm_num) (by norm_num) (by norm_num)
    (fun a => by fin_cases a <;> norm_num)
    (fun o ho => by
      simp only [List.mem_cons, List.not_mem_nil, or_false] at ho
      rcases ho with rfl | rfl
      · exact sampleView32_good 0 2 (Or.inl rfl)
      · exact sampleParallel32_good 5)
    (fun o ho => by
      simp only [List.mem_cons, List.not_mem_nil, or_false] at ho
      rcases ho with rfl | rfl
      · exact sampleView32_measured (Or.inl ⟨rfl, rfl⟩)
      · exact sampleParallel32_measured)
    (a := .perspective (sampleView32 lib 0 2)) (b := .orthographic (sampleParallel32 lib 5)) (by simp) (by simp) rfl
    (by
      simp only [List.length_cons, List.length_nil]
      norm_num
      linarith) rfl
  refine ⟨pt, p1, p2, p3.trans ?_⟩
  have l : len ![(4 : ℝ), 0, 4] ≤ 2 * 4 := len_le_entries fun a => by fin_cases a <;> norm_num
  have l0 := len_nonneg ![(4 : ℝ), 0, 4]
  have n : (([.perspective (sampleView32 lib 0 2), .orthographic (sampleParallel32 lib 5)] :
    List (View (F32 lib))).length : ℝ) = 2 := by simp
  rw [n]
  generalize hk : (1 : ℝ) - absCos ((View.perspective (sampleView32 lib 0 2)).sight ![4, 0, 4])
    ((View.orthographic (sampleParallel32 lib 5)).sight ![4, 0, 4]) - 13 * (1 / 1000) - 6 / 10 ^ 4 * 2 - 71 / 10000000 * 2 = κ
  have hκ : 23 / 100 ≤ κ := by rw [← hk]; norm_num; linarith
  have hκ0 : 0 < κ := by linarith
  have q1 : 2 / κ ≤ 9 := by rw [div_le_iff₀ hκ0]; linarith
  have q : √(2 / κ) ≤ 3 := by
    rw [Real.sqrt_le_left (by norm_num)]
    linarith
  have q0 := Real.sqrt_nonneg (2 / κ)
  generalize √(2 / κ) = s at *
  have q2 : 64 / 1000000 * 2 / κ ≤ 576 / 1000000 := by rw [mul_div_assoc]; linarith
  refine (add_le_add (mul_le_mul_of_nonneg_left q (by norm_num)) (mul_le_mul q2 (add_le_add_right
    (add_le_add l (mul_le_mul_of_nonneg_left q (by norm_num))) _) (by norm_num; positivity) (by norm_num))).trans ?_
  norm_num

/-- Non-vacuity of C101 for computed pixels: the camera above sees the point (4, 0, 4). -/
example (w : Points WorldFrame (F32 lib) 1) (hw : w = ⟨fun _ => ![digit32 lib 4, digit32 lib 0, digit32 lib 4]⟩)
    (o : ParallelView (F32 lib)) (ho : o = { sampleParallel32 lib 0 with pixel := (sampleParallel32 lib 0).camera.worldToPixel w }) :
    |Flt.val (f := .b32) (o.pixel.data 0 0) - 5| ≤ 1 / 10 ^ 4 := by
  have b : ∀ (k : Fin 10) {B : ℝ}, ((k : ℕ) : ℝ) ≤ B → Flt.Bounded (f := .b32) B (digit32 lib k) := fun k B hk =>
    ⟨trivial, by rw [val_digit32 lib, abs_of_nonneg (Nat.cast_nonneg _)]; exact hk⟩
  have hx : ![4, 0, 4] = (RustFloat.rounding .b32 lib).vec (w.data 0) := by
    rw [hw]
    funext j
    fin_cases j
    · exact ((val_digit32 lib 4).trans (by norm_num)).symm
    · exact ((val_digit32 lib 0).trans (by norm_num)).symm
    · exact ((val_digit32 lib 4).trans (by norm_num)).symm
  have h := c101_f32_world_to_pixel (o := o) (M := 8) (x := ![4, 0, 4])
    (by rw [ho]; exact { sampleParallel32_good 0 with }) (by norm_num) (by norm_num) w
    (fun j => by
      rw [hw]
      fin_cases j
      · exact b 4 (by norm_num)
      · exact b 0 (by norm_num)
      · exact b 4 (by norm_num)) hx (by rw [ho]; rfl)
  have v1 : Flt.val (f := .b32) (digit32 lib 1) = 1 := (val_digit32 lib _).trans (by norm_num)
  have e1 : Flt.val (f := .b32) o.params.sx = 1 := by rw [ho]; exact v1
  have e3 : Flt.val (f := .b32) o.params.cx = 1 := by rw [ho]; exact v1
  have e : o.projection ![4, 0, 4] 0 = 5 := by
    have hp : o.position ![4, 0, 4] = ![4, 0, 4] := by rw [ho]; exact sampleParallel32_position 0 _
    rw [ParallelView.projection, hp, e1, e3]
    norm_num [Spec.orthographic]
  have := h.u
  rw [e, e1] at this
  refine this.trans ?_
  norm_num

/-- Non-vacuity of the round trip of C101: the pixel (5, 0) of the camera above. -/
example : |Flt.val (f := .b32) (((sampleParallel32 lib 5).camera.worldToPixel
      ((sampleParallel32 lib 5).camera.pixelToWorld (sampleParallel32 lib 5).pixel).pointOnRay).data 0 0) - 5| ≤ 6 / 1000 := by
  have v1 : Flt.val (f := .b32) (digit32 lib 1) = 1 := (val_digit32 lib _).trans (by norm_num)
  have v0 : Flt.val (f := .b32) (digit32 lib 0) = 0 := (val_digit32 lib _).trans (by norm_num)
  have v5 : Flt.val (f := .b32) (digit32 lib 5) = 5 := (val_digit32 lib _).trans (by norm_num)
  have e1 : Flt.val (f := .b32) (sampleParallel32 lib 5).params.sx = 1 := v1
  have e2 : Flt.val (f := .b32) (sampleParallel32 lib 5).params.sy = 1 := v1
  have e5 : Flt.val (f := .b32) ((sampleParallel32 lib 5).pixel.data 0 0) = 5 := v5
  have e6 : Flt.val (f := .b32) ((sampleParallel32 lib 5).pixel.data 0 1) = 0 := v0
  have h := (c101_f32_roundtrip (sampleParallel32_good (lib := lib) 5) (by norm_num) (by norm_num)
    (fun a => by fin_cases a <;> exact trivial) _ 0 rfl (by rw [e1, e5]; norm_num) (by rw [e2, e6]; norm_num)).2
  rw [e5] at h
  refine h.trans ?_
  show 7 / 10 ^ 4 * 8 * |Flt.val (f := .b32) (sampleParallel32 lib 5).params.sx| ≤ _
  rw [e1]
  norm_num

end

end CamGeom
