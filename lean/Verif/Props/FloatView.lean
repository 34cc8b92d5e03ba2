import Verif.Lemmas.InRangeView
import Verif.Props.FloatCamera

/-!
# C79: a well-posed view is a finite and accurate camera

C76 bounds the error of `from_view` under the hypothesis that its intermediate results and its result are
finite.  Here that finiteness is proved from ranges of the arguments, first for any arithmetic that obeys the
rounding laws and then for `f64` and `f32`.
-/

namespace CamGeom
open Spec Matrix ExtrinsicParameters Rounding

variable {R : Type} [Scalar R] {fl : Rounding R} {k n : ℕ}

/-- C79: the quaternion of a well-posed view is finite with components at most two in magnitude. -/
theorem c79_rotation_finite (r : RoundingRange fl) (m : RoundingMore fl) (vw : RoundingView fl)
    (hbig : 4 ≤ m.big) (hω : fl.ω ≤ 1 / 4)
    (hsin : InRange fl 1 (Scalar.sin (Scalar.pi / Scalar.lit 2 : R)))
    (hcos : InRange fl 1 (Scalar.cos (Scalar.pi / Scalar.lit 2 : R))) {c l up : V3 R}
    (hc : ∀ a, InRange fl k (c a)) (hl : ∀ a, InRange fl k (l a)) (hup : ∀ a, InRange fl k (up a))
    (hk : 2 * k + 10 ≤ r.top) (dir_big : 4 * fl.ω ≤ len (fl.vec l - fl.vec c) ^ 2)
    (up_big : fl.ω ≤ len (fl.vec up))
    (cross_big : 4 * fl.ω ≤ (sine (fl.vec l - fl.vec c) (fl.vec up) * len (fl.vec up)) ^ 2)
    {s : ℝ} (hs : s = sine (fl.vec l - fl.vec c) (fl.vec up)) (hs0 : 0 < s) (hsu : 11000 * fl.u ≤ s) :
    ViewInRange fl c l up ∧ QFinite fl (fromView nalgebra c l up).pose.rotation ∧
      QInRange fl (fromView nalgebra c l up).pose.rotation := by
  obtain ⟨h1, h2⟩ := view_finite r m vw hω hsin hcos hc hl hup hk dir_big up_big cross_big hs hs0 hsu
  refine ⟨h1, h2, ?_⟩
  obtain ⟨Q, hQ, -, -, hn⟩ := c76_quaternion m vw hbig hω h1 hs hs0 hsu h2
  obtain ⟨bw, bi, bj, bk⟩ := unitQuat_abs hQ
  have hb : 350 * fl.u / s ≤ 1 := by rw [div_le_iff₀ hs0]; linarith [fl.u_nonneg]
  have b : ∀ {x : R} {X : ℝ}, fl.isFinite x → |fl.val x - X| ≤ 350 * fl.u / s → |X| ≤ 1 →
      InRange fl 1 x := by
    intro x X hx h hX
    have := abs_add_le (fl.val x - X) X
    rw [sub_add_cancel] at this
    exact ⟨hx, by linarith⟩
  exact ⟨b h2.w hn.w bw, b h2.i hn.i bi, b h2.j hn.j bj, b h2.k hn.k bk⟩

/-- What is asked of the arguments of `from_view` at a floating-point type: finite numbers up to `2 ^ k`, a
viewing direction and an up vector of length at least `1 / 2 ^ 10`, and an angle between them whose sine is
at least `1 / 2`. -/
structure WellPosed {f : Format} (lib : Libm f) (k : ℕ) (c l up : V3 (RustFloat f lib)) : Prop where
  center : ∀ a, Flt.Bounded (f := f) (2 ^ k) (c a)
  lookat : ∀ a, Flt.Bounded (f := f) (2 ^ k) (l a)
  upward : ∀ a, Flt.Bounded (f := f) (2 ^ k) (up a)
  dir_len : 1 / 2 ^ 10 ≤ len ((RustFloat.rounding f lib).vec l - (RustFloat.rounding f lib).vec c)
  up_len : 1 / 2 ^ 10 ≤ len ((RustFloat.rounding f lib).vec up)
  angle : 1 / 2 ≤ sine ((RustFloat.rounding f lib).vec l - (RustFloat.rounding f lib).vec c)
    ((RustFloat.rounding f lib).vec up)

theorem RustFloat.four_le_big {f : Format} (lib : Libm f) (hcut : f.Cutoff) (h : 3 ≤ f.emax) :
    4 ≤ (RustFloat.roundingMore lib hcut).big := by
  show (4 : ℝ) ≤ 2 ^ (f.emax - 1)
  exact le_trans (by norm_num) (zpow_le_zpow_right₀ (by norm_num : (1 : ℝ) ≤ 2)
    (show (2 : ℤ) ≤ f.emax - 1 by omega))

/-- The pose of a well-posed view at a floating-point type is finite. -/
theorem float_view {f : Format} (hf : f.Sub64) (hcut : f.Cutoff) {lib : Libm f} (hl : lib.Accurate)
    {c l up : V3 (RustFloat f lib)} (h : WellPosed lib k c l up) (hk : 2 * k + 10 ≤ f.emax.toNat - 1)
    (hu : 11000 * f.u ≤ 1 / 2) (hω : f.ω ≤ 1 / 2 ^ 30) :
    ViewInRange (RustFloat.rounding f lib) c l up ∧
      QFinite (RustFloat.rounding f lib) (fromView nalgebra c l up).pose.rotation ∧
      QInRange (RustFloat.rounding f lib) (fromView nalgebra c l up).pose.rotation := by
  have vw := RustFloat.roundingView hf hl
  obtain ⟨f1, f2⟩ := RustFloat.half_pi_finite hf hl
  have hu0 := f.u_pos
  have hω0 := f.ω_pos
  have eu : (RustFloat.rounding f lib).u = f.u := rfl
  have eω : (RustFloat.rounding f lib).ω = f.ω := rfl
  have b1 := vw.sin_half_pi
  have b2 := vw.cos_half_pi
  rw [eu] at b1 b2
  have hs := h.angle
  set fl := RustFloat.rounding f lib with hfl
  set s := sine (fl.vec l - fl.vec c) (fl.vec up) with hs'
  have h1 : (1 / 2 ^ 10 : ℝ) ^ 2 ≤ len (fl.vec l - fl.vec c) ^ 2 := by gcongr; exact h.dir_len
  have h2 : (1 / 2 * (1 / 2 ^ 10) : ℝ) ^ 2 ≤ (s * len (fl.vec up)) ^ 2 := by
    gcongr
    exact h.up_len
  have hup := h.up_len
  refine c79_rotation_finite (RustFloat.range f lib) (RustFloat.roundingMore lib hcut) vw ?_ ?_ ⟨f1, ?_⟩
    ⟨f2, ?_⟩ (fun a => (h.center a).inRange le_rfl) (fun a => (h.lookat a).inRange le_rfl)
    (fun a => (h.upward a).inRange le_rfl) hk ?_ ?_ ?_ (s := s) rfl (by linarith) ?_
  · exact RustFloat.four_le_big lib hcut (by omega)
  · rw [eω]; exact hω.trans (by norm_num)
  · have := abs_add_le (fl.val (Scalar.sin (Scalar.pi / Scalar.lit 2 : RustFloat f lib)) - 1) 1
    rw [sub_add_cancel, abs_one] at this
    linarith
  · linarith
  · rw [eω]; refine le_trans ?_ h1; norm_num at hω ⊢; linarith
  · rw [eω]; refine le_trans ?_ hup; norm_num at hω ⊢; linarith
  · rw [eω]; refine le_trans ?_ h2; norm_num at hω ⊢; linarith
  · rw [eu]; linarith

/-- C79: `world_to_camera` of a well-posed `f64` view with coordinates up to `M` is finite and within
`8e-13 M` of the exact view. -/
theorem c79_f64_world_to_camera {lib : Libm Format.b64} (hl : lib.Accurate) {c l up : V3 (F64 lib)}
    (h : WellPosed lib 10 c l up) {M : ℝ} (hM : 1 ≤ M) (hM' : M ≤ 2 ^ 10)
    (hc : ∀ a, Flt.Bounded (f := .b64) M (c a)) (w : Points WorldFrame (F64 lib) n) (i : Fin n)
    (hx : ∀ a, Flt.Bounded (f := .b64) M (w.data i a)) (a : Fin 3) :
    Flt.isFinite (f := .b64) (((fromView nalgebra c l up).worldToCamera w).data i a) ∧
    |Flt.val (f := .b64) (((fromView nalgebra c l up).worldToCamera w).data i a) -
      ((fromView nalgebra ((RustFloat.rounding .b64 lib).vec c) ((RustFloat.rounding .b64 lib).vec l)
          ((RustFloat.rounding .b64 lib).vec up)).worldToCamera
        ⟨fun i => (RustFloat.rounding .b64 lib).vec (w.data i)⟩).data i a| ≤ 8 / 10 ^ 13 * M := by
  have hω : Format.b64.ω ≤ 1 / 2 ^ 30 := Format.ω_b64.trans (by norm_num)
  obtain ⟨h1, h2, h3⟩ := float_view Format.sub64_b64 Format.cutoff_b64 hl h
    (by show _ ≤ 1023; norm_num) (by rw [Format.u_b64]; norm_num) hω
  have hfin := c77_world_to_camera (k := 10) (RustFloat.range .b64 lib) h3
    (fun a => h.center a) w i (fun a => (hx a).inRange hM') (by show _ ≤ 1023; norm_num) a
  exact ⟨hfin.1, c76_f64 (RustFloat.roundingMore lib Format.cutoff_b64)
    (RustFloat.roundingView Format.sub64_b64 hl) (RustFloat.four_le_big _ _ (by show (3 : ℤ) ≤ 1024; norm_num)) Format.u_b64 (hω.trans (by norm_num)) h1 h.angle h2 hM
    (fun a => (hc a).2) w i (fun a => (hx a).2) a hfin.1⟩

/-- C79: the entries of `rotation()` of a well-posed view at `f64` are finite and within `1.7e-13` of the
exact view. -/
theorem c79_f64_rotation {lib : Libm Format.b64} (hl : lib.Accurate) {c l up : V3 (F64 lib)}
    (h : WellPosed lib 500 c l up) (a b : Fin 3) :
    Flt.isFinite (f := .b64) ((fromView nalgebra c l up).rotation a b) ∧
    |Flt.val (f := .b64) ((fromView nalgebra c l up).rotation a b) -
      (fromView nalgebra ((RustFloat.rounding .b64 lib).vec c) ((RustFloat.rounding .b64 lib).vec l)
          ((RustFloat.rounding .b64 lib).vec up)).rotation a b| ≤ 17 / 10 ^ 14 := by
  have hω : Format.b64.ω ≤ 1 / 2 ^ 30 := Format.ω_b64.trans (by norm_num)
  have hu : 11000 * Format.b64.u ≤ 1 / 2 := by rw [Format.u_b64]; norm_num
  obtain ⟨h1, h2, h3⟩ := float_view Format.sub64_b64 Format.cutoff_b64 hl h
    (by show _ ≤ 1023; norm_num) hu hω
  have hfin := h3.rotationMatrix (RustFloat.range .b64 lib) (by show _ ≤ 1023; norm_num) a b
  have hs := h.angle
  refine ⟨hfin.1, (c76_rotation (RustFloat.roundingMore lib Format.cutoff_b64)
    (RustFloat.roundingView Format.sub64_b64 hl)
    (RustFloat.four_le_big _ _ (by show (3 : ℤ) ≤ 1024; norm_num)) (hω.trans (by norm_num)) h1 rfl
    (by linarith) (hu.trans hs) h2 a b hfin.1).trans ?_⟩
  show 750 * Format.b64.u / _ ≤ _
  rw [div_le_iff₀ (by linarith), Format.u_b64]
  norm_num
  linarith

/-- C79: the entries of `rotation()` of a well-posed view at `f32` are finite and within `9e-5` of the exact
view. -/
theorem c79_f32_rotation {lib : Libm Format.b32} (hl : lib.Accurate) {c l up : V3 (F32 lib)}
    (h : WellPosed lib 50 c l up) (a b : Fin 3) :
    Flt.isFinite (f := .b32) ((fromView nalgebra c l up).rotation a b) ∧
    |Flt.val (f := .b32) ((fromView nalgebra c l up).rotation a b) -
      (fromView nalgebra ((RustFloat.rounding .b32 lib).vec c) ((RustFloat.rounding .b32 lib).vec l)
          ((RustFloat.rounding .b32 lib).vec up)).rotation a b| ≤ 9 / 10 ^ 5 := by
  have hω : Format.b32.ω ≤ 1 / 2 ^ 30 := by rw [Format.ω_b32]; norm_num
  have hu : 11000 * Format.b32.u ≤ 1 / 2 := by rw [Format.u_b32]; norm_num
  obtain ⟨h1, h2, h3⟩ := float_view Format.sub64_b32 Format.cutoff_b32 hl h
    (by show _ ≤ 127; norm_num) hu hω
  have hfin := h3.rotationMatrix (RustFloat.range .b32 lib) (by show _ ≤ 127; norm_num) a b
  have hs := h.angle
  refine ⟨hfin.1, (c76_rotation (RustFloat.roundingMore lib Format.cutoff_b32)
    (RustFloat.roundingView Format.sub64_b32 hl)
    (RustFloat.four_le_big _ _ (by show (3 : ℤ) ≤ 128; norm_num)) (hω.trans (by norm_num)) h1 rfl
    (by linarith) (hu.trans hs) h2 a b hfin.1).trans ?_⟩
  show 750 * Format.b32.u / _ ≤ _
  rw [div_le_iff₀ (by linarith), Format.u_b32]
  norm_num
  linarith

/-- C79: `world_to_camera` of a well-posed `f32` view with coordinates up to `M` is finite and within
`4.2e-4 M` of the exact view. -/
theorem c79_f32_world_to_camera {lib : Libm Format.b32} (hl : lib.Accurate) {c l up : V3 (F32 lib)}
    (h : WellPosed lib 10 c l up) {M : ℝ} (hM : 1 ≤ M) (hM' : M ≤ 2 ^ 10)
    (hc : ∀ a, Flt.Bounded (f := .b32) M (c a)) (w : Points WorldFrame (F32 lib) n) (i : Fin n)
    (hx : ∀ a, Flt.Bounded (f := .b32) M (w.data i a)) (a : Fin 3) :
    Flt.isFinite (f := .b32) (((fromView nalgebra c l up).worldToCamera w).data i a) ∧
    |Flt.val (f := .b32) (((fromView nalgebra c l up).worldToCamera w).data i a) -
      ((fromView nalgebra ((RustFloat.rounding .b32 lib).vec c) ((RustFloat.rounding .b32 lib).vec l)
          ((RustFloat.rounding .b32 lib).vec up)).worldToCamera
        ⟨fun i => (RustFloat.rounding .b32 lib).vec (w.data i)⟩).data i a| ≤ 42 / 10 ^ 5 * M := by
  have hω : Format.b32.ω ≤ 1 / 2 ^ 30 := by rw [Format.ω_b32]; norm_num
  have hu : 11000 * Format.b32.u ≤ 1 / 2 := by rw [Format.u_b32]; norm_num
  obtain ⟨h1, h2, h3⟩ := float_view Format.sub64_b32 Format.cutoff_b32 hl h
    (by show _ ≤ 127; norm_num) hu hω
  have hfin := c77_world_to_camera (k := 10) (RustFloat.range .b32 lib) h3
    (fun a => h.center a) w i (fun a => (hx a).inRange hM') (by show _ ≤ 127; norm_num) a
  have hs := h.angle
  refine ⟨hfin.1, (c76_world_to_camera (RustFloat.roundingMore lib Format.cutoff_b32)
    (RustFloat.roundingView Format.sub64_b32 hl)
    (RustFloat.four_le_big _ _ (by show (3 : ℤ) ≤ 128; norm_num)) (hω.trans (by norm_num)) h1 rfl
    (by linarith) (hu.trans hs) h2 hM (fun a => (hc a).2) w i (fun a => (hx a).2) a hfin.1).trans ?_⟩
  show 3500 * M * Format.b32.u / _ ≤ _
  rw [div_le_iff₀ (by linarith), Format.u_b32]
  have := mul_le_mul_of_nonneg_left hs (show 0 ≤ 42 / 10 ^ 5 * M by linarith)
  refine le_trans ?_ this
  norm_num
  linarith

/-- The pixel of a point seen by a perspective camera whose camera coordinates are computed to within `δ M`. -/
theorem view_pixel {f : Format} {lib : Libm f} (hfr : 60 ≤ (RustFloat.range f lib).top)
    {e : ExtrinsicParameters (RustFloat f lib)} {M F r δ g : ℝ} (hM : 1 ≤ M) (hF : 1 ≤ F) (hF' : F ≤ 2 ^ 20)
    (p : PerspectiveParams (RustFloat f lib))
    (hp : ∀ x ∈ [p.fx, p.fy, p.skew, p.cx, p.cy], Flt.Bounded (f := f) F x)
    (w : Points WorldFrame (RustFloat f lib) n) (i : Fin n) {X : V3 ℝ}
    (hcam : ∀ b, InRange (RustFloat.rounding f lib) 18 ((e.worldToCamera w).data i b))
    (near : ∀ b, |(RustFloat.rounding f lib).val ((e.worldToCamera w).data i b) - X b| ≤ δ * M)
    (hδ : δ ≤ 1 / 2000) (hg : (1 + f.u) ^ 4 - 1 ≤ g) (hω : f.ω ≤ 1 / 2 ^ 30) (hZM : |X 2| ≤ 4 * M)
    (hZ : M / 1000 ≤ |X 2|) (h0 : |X 0 / X 2| ≤ r) (h1 : |X 1 / X 2| ≤ r) (a : Fin 2) :
    Flt.isFinite (f := f) (((Camera.mk (IntrinsicParametersPerspective.ofParams p) e).worldToPixel w).data i a) ∧
    |Flt.val (f := f) (((Camera.mk (IntrinsicParametersPerspective.ofParams p) e).worldToPixel w).data i a) -
      Spec.pinhole (Flt.val (f := f) p.fx) (Flt.val (f := f) p.fy) (Flt.val (f := f) p.skew)
        (Flt.val (f := f) p.cx) (Flt.val (f := f) p.cy) X a| ≤ (4 * δ + 21 * g) * (M / |X 2|) * F * (r + 1) := by
  set fl := RustFloat.rounding f lib with hfl
  have hω0 : 0 < fl.ω := f.ω_pos
  have hω' : fl.ω ≤ 1 / 2 ^ 30 := hω
  have hu0 : 0 ≤ fl.u := fl.u_nonneg
  have hg' : (1 + fl.u) ^ 4 - 1 ≤ g := hg
  have hZp : 0 < |X 2| := by linarith
  have hδM : δ * M ≤ |X 2| / 2 := by nlinarith
  have hZ0 : X 2 ≠ 0 := abs_pos.1 hZp
  have hz : 1 / 2 ^ 11 ≤ |fl.val ((e.worldToCamera w).data i 2)| := by
    have h5 := abs_sub_abs_le_abs_sub (X 2) (fl.val ((e.worldToCamera w).data i 2))
    rw [abs_sub_comm] at h5
    have := near 2
    norm_num
    linarith
  have fin := fun a => (c77_camera_to_pixel (m := 20) (k := 18) (l := 11) (RustFloat.range f lib) p
    (fun x hx => (hp x hx).inRange hF') (e.worldToCamera w) i hcam hz (by omega) a).1
  refine ⟨fin a, ?_⟩
  obtain ⟨eU, eV⟩ := c48_perspective fl p (e.worldToCamera w) i _ _ _ rfl rfl rfl
  have p3 : 0 ≤ (1 + fl.u) ^ 3 - 1 := sub_nonneg.2 (one_le_pow₀ (by linarith))
  have p4 : 0 ≤ (1 + fl.u) ^ 4 - 1 := sub_nonneg.2 (one_le_pow₀ (by linarith))
  have p34 : (1 + fl.u) ^ 3 ≤ (1 + fl.u) ^ 4 := pow_le_pow_right₀ (by linarith) (by norm_num)
  have g3 : (1 + fl.u) ^ 3 - 1 ≤ g := by linarith
  have g0 : 0 ≤ g := p4.trans hg'
  have b1 : |fl.val p.fx| ≤ F := (hp _ (by simp)).2
  have b2 : |fl.val p.fy| ≤ F := (hp _ (by simp)).2
  have b3 : |fl.val p.skew| ≤ F := (hp _ (by simp)).2
  have b4 : |fl.val p.cx| ≤ F := (hp _ (by simp)).2
  have b5 : |fl.val p.cy| ≤ F := (hp _ (by simp)).2
  have r0 : 0 ≤ r := (abs_nonneg _).trans h0
  have hM0 : 0 ≤ M := by linarith
  have hF0 : 0 ≤ F := by linarith
  have δ0 : 0 ≤ δ := nonneg_of_mul_nonneg_left ((abs_nonneg _).trans (near 0)) (by linarith)
  have hωZ : ∀ m : ℝ, 0 ≤ m → m ≤ 3 → 2 * m * fl.ω / |X 2| ≤ 1 / 100000 := fun m hm hm3 => by
    rw [div_le_iff₀ hZp]
    have : m * fl.ω ≤ 3 * (1 / 2 ^ 30) := by gcongr
    norm_num at this ⊢
    linarith
  have hFr : F ≤ F * (r + 1) := by nlinarith
  set t := M / |X 2| with ht
  have ht4 : 1 / 4 ≤ t := by rw [ht, le_div_iff₀ hZp]; linarith
  have hδt : 2 * (δ * M) / |X 2| = 2 * δ * t := by rw [ht]; ring
  have hG : F * (r + 1) ≤ 4 * (t * F * (r + 1)) := by
    have : 1 / 4 * (F * (r + 1)) ≤ t * (F * (r + 1)) := by gcongr
    linarith
  have hgG : g * (F * (r + 1)) ≤ g * (4 * (t * F * (r + 1))) := by gcongr
  have hgF : g * 1 ≤ g * (F * (r + 1)) := by gcongr; exact hF.trans hFr
  fin_cases a
  · have h := pixel_combine hZ0 hδM (near 0) (near 1) (near 2) p4 hω0.le (by norm_num) (eU (fin 0)).2
    refine le_trans (le_of_eq ?_) (h.trans ?_)
    · congr 2
    have h6 := hωZ 3 (by norm_num) (by norm_num)
    rw [hδt]
    calc _ ≤ g * (2 * F * (r + 1) + 2 * F * (r + 1) + F * (r + 1) + 1 / 100000 + 1 / 2 ^ 30) +
        2 * δ * t * (F * (r + 1) + F * (r + 1)) := by gcongr; exact b4.trans hFr
      _ ≤ _ := by norm_num; linarith
  · have h := pixel_combine (f := fl.val p.fy) (s := 0) (m := 2) hZ0 hδM (near 1) (near 1) (near 2) p3 hω0.le
      (by norm_num) (by simpa using (eV (fin 1)).2)
    refine le_trans (le_of_eq ?_) (h.trans ?_)
    · congr 2
      simp [Spec.pinhole]
      rfl
    have h6 := hωZ 2 (by norm_num) (by norm_num)
    rw [abs_zero, hδt]
    calc _ ≤ g * (2 * F * (r + 1) + 2 * F * (r + 1) + F * (r + 1) + 1 / 100000 + 1 / 2 ^ 30) +
        2 * δ * t * (F * (r + 1) + F * (r + 1)) := by
          gcongr
          exact b5.trans hFr
      _ ≤ _ := by norm_num; linarith

/-- Depth of a point in an exact view. -/
theorem view_depth_le {c l up : Vec} (h : (l - c) ⨯₃ up ≠ 0) {M : ℝ} (hc : ∀ a, |c a| ≤ M)
    (w : Points WorldFrame ℝ n) (i : Fin n) (hx : ∀ a, |w.data i a| ≤ M) :
    |((fromView nalgebra c l up).worldToCamera w).data i 2| ≤ 4 * M := by
  obtain ⟨q, hq, hv, -⟩ := fromView_spec nalgebra_rot h
  rw [hv, worldToCamera_row hq]
  refine (abs_coord_le _ 2).trans ?_
  rw [len_rotate hq]
  refine (len_le_entries (e := 2 * M) fun a => ?_).trans (le_of_eq (by ring))
  have := (abs_sub (w.data i a) (c a)).trans (add_le_add (hx a) (hc a))
  exact this.trans (by linarith)

/-- C79: the pixel of a point seen by an `f64` perspective camera placed by `from_view`, with coordinates up
to `M`, parameters up to `F`, depth at least `M / 1000` and slopes at most `r` (all measured in the exact view),
is finite and within `4e-12 (M / depth) F (r + 1)` of the exact pixel. -/
theorem c79_f64_world_to_pixel {lib : Libm Format.b64} (hl : lib.Accurate) {c l up : V3 (F64 lib)}
    (h : WellPosed lib 10 c l up) {M F r : ℝ} (hM : 1 ≤ M) (hM' : M ≤ 2 ^ 10)
    (hc : ∀ a, Flt.Bounded (f := .b64) M (c a)) (hF : 1 ≤ F) (hF' : F ≤ 2 ^ 20)
    (p : PerspectiveParams (F64 lib))
    (hp : ∀ x ∈ [p.fx, p.fy, p.skew, p.cx, p.cy], Flt.Bounded (f := .b64) F x)
    (w : Points WorldFrame (F64 lib) n) (i : Fin n)
    (hx : ∀ a, Flt.Bounded (f := .b64) M (w.data i a)) (X : V3 ℝ)
    (hX : X = ((fromView nalgebra ((RustFloat.rounding .b64 lib).vec c)
        ((RustFloat.rounding .b64 lib).vec l) ((RustFloat.rounding .b64 lib).vec up)).worldToCamera
          ⟨fun i => (RustFloat.rounding .b64 lib).vec (w.data i)⟩).data i)
    (hZ : M / 1000 ≤ |X 2|) (h0 : |X 0 / X 2| ≤ r) (h1 : |X 1 / X 2| ≤ r) (a : Fin 2) :
    Flt.isFinite (f := .b64) (((Camera.mk (IntrinsicParametersPerspective.ofParams p)
        (fromView nalgebra c l up)).worldToPixel w).data i a) ∧
    |Flt.val (f := .b64) (((Camera.mk (IntrinsicParametersPerspective.ofParams p)
        (fromView nalgebra c l up)).worldToPixel w).data i a) -
      Spec.pinhole (Flt.val (f := .b64) p.fx) (Flt.val (f := .b64) p.fy) (Flt.val (f := .b64) p.skew)
        (Flt.val (f := .b64) p.cx) (Flt.val (f := .b64) p.cy) X a| ≤ 4 / 10 ^ 12 * (M / |X 2|) * F * (r + 1) := by
  set fl := RustFloat.rounding .b64 lib with hfl
  have hω : Format.b64.ω ≤ 1 / 2 ^ 30 := Format.ω_b64.trans (by norm_num)
  obtain ⟨v1, v2, v3⟩ := float_view Format.sub64_b64 Format.cutoff_b64 hl h
    (by show _ ≤ 1023; norm_num) (by rw [Format.u_b64]; norm_num) hω
  have hcam := fun b => (c77_world_to_camera (k := 10) (RustFloat.range .b64 lib) v3
    (fun a => h.center a) w i (fun a => (hx a).inRange hM') (by show _ ≤ 1023; norm_num) b)
  have near : ∀ b, |fl.val (((fromView nalgebra c l up).worldToCamera w).data i b) - X b| ≤
      8 / 10 ^ 13 * M := fun b => by
    rw [hX]
    exact (c79_f64_world_to_camera hl h hM hM' hc w i hx b).2
  have hs := h.angle
  have hDU : (fl.vec l - fl.vec c) ⨯₃ fl.vec up ≠ 0 := by
    intro h
    rw [sine, h, len_eq_zero.2 rfl, zero_div] at hs
    norm_num at hs
  have hZM : |X 2| ≤ 4 * M := by
    rw [hX]
    exact view_depth_le hDU (fun a => (hc a).2) _ i (fun a => (hx a).2)
  obtain ⟨k1, k2⟩ := view_pixel (g := 1 / 10 ^ 15) (by show _ ≤ 1023; norm_num) hM hF hF' p hp w i hcam near (by norm_num)
    (by rw [Format.u_b64]; norm_num) hω hZM hZ h0 h1 a
  have r0 : 0 ≤ r := (abs_nonneg _).trans h0
  have t0 : 0 ≤ M / |X 2| := div_nonneg (by linarith) (abs_nonneg _)
  refine ⟨k1, k2.trans ?_⟩
  gcongr
  norm_num

/-- C79: the pixel of a point seen by an `f32` perspective camera placed by `from_view`, with coordinates up
to `M`, parameters up to `F`, depth at least `M / 1000` and slopes at most `r` (all measured in the exact view),
is finite and within `1.7e-3 (M / depth) F (r + 1)` of the exact pixel. -/
theorem c79_f32_world_to_pixel {lib : Libm Format.b32} (hl : lib.Accurate) {c l up : V3 (F32 lib)}
    (h : WellPosed lib 10 c l up) {M F r : ℝ} (hM : 1 ≤ M) (hM' : M ≤ 2 ^ 10)
    (hc : ∀ a, Flt.Bounded (f := .b32) M (c a)) (hF : 1 ≤ F) (hF' : F ≤ 2 ^ 20)
    (p : PerspectiveParams (F32 lib))
    (hp : ∀ x ∈ [p.fx, p.fy, p.skew, p.cx, p.cy], Flt.Bounded (f := .b32) F x)
    (w : Points WorldFrame (F32 lib) n) (i : Fin n)
    (hx : ∀ a, Flt.Bounded (f := .b32) M (w.data i a)) (X : V3 ℝ)
    (hX : X = ((fromView nalgebra ((RustFloat.rounding .b32 lib).vec c)
        ((RustFloat.rounding .b32 lib).vec l) ((RustFloat.rounding .b32 lib).vec up)).worldToCamera
          ⟨fun i => (RustFloat.rounding .b32 lib).vec (w.data i)⟩).data i)
    (hZ : M / 1000 ≤ |X 2|) (h0 : |X 0 / X 2| ≤ r) (h1 : |X 1 / X 2| ≤ r) (a : Fin 2) :
    Flt.isFinite (f := .b32) (((Camera.mk (IntrinsicParametersPerspective.ofParams p)
        (fromView nalgebra c l up)).worldToPixel w).data i a) ∧
    |Flt.val (f := .b32) (((Camera.mk (IntrinsicParametersPerspective.ofParams p)
        (fromView nalgebra c l up)).worldToPixel w).data i a) -
      Spec.pinhole (Flt.val (f := .b32) p.fx) (Flt.val (f := .b32) p.fy) (Flt.val (f := .b32) p.skew)
        (Flt.val (f := .b32) p.cx) (Flt.val (f := .b32) p.cy) X a| ≤ 17 / 10 ^ 4 * (M / |X 2|) * F * (r + 1) := by
  set fl := RustFloat.rounding .b32 lib with hfl
  have hω : Format.b32.ω ≤ 1 / 2 ^ 30 := by rw [Format.ω_b32]; norm_num
  obtain ⟨v1, v2, v3⟩ := float_view Format.sub64_b32 Format.cutoff_b32 hl h
    (by show _ ≤ 127; norm_num) (by rw [Format.u_b32]; norm_num) hω
  have hcam := fun b => (c77_world_to_camera (k := 10) (RustFloat.range .b32 lib) v3
    (fun a => h.center a) w i (fun a => (hx a).inRange hM') (by show _ ≤ 127; norm_num) b)
  have near : ∀ b, |fl.val (((fromView nalgebra c l up).worldToCamera w).data i b) - X b| ≤
      42 / 10 ^ 5 * M := fun b => by
    rw [hX]
    exact (c79_f32_world_to_camera hl h hM hM' hc w i hx b).2
  have hs := h.angle
  have hDU : (fl.vec l - fl.vec c) ⨯₃ fl.vec up ≠ 0 := by
    intro h
    rw [sine, h, len_eq_zero.2 rfl, zero_div] at hs
    norm_num at hs
  have hZM : |X 2| ≤ 4 * M := by
    rw [hX]
    exact view_depth_le hDU (fun a => (hc a).2) _ i (fun a => (hx a).2)
  obtain ⟨k1, k2⟩ := view_pixel (g := 3 / 10 ^ 7) (by show _ ≤ 127; norm_num) hM hF hF' p hp w i hcam near (by norm_num)
    (by rw [Format.u_b32]; norm_num) hω hZM hZ h0 h1 a
  have r0 : 0 ≤ r := (abs_nonneg _).trans h0
  have t0 : 0 ≤ M / |X 2| := div_nonneg (by linarith) (abs_nonneg _)
  refine ⟨k1, k2.trans ?_⟩
  gcongr
  norm_num

/-- C79: the point looked at, at a distance of at least `M / 1000`, is imaged within `4e-12 (M / distance) F` of the
principal point in `f64`. -/
theorem c79_f64_lookat {lib : Libm Format.b64} (hl : lib.Accurate) {c l up : V3 (F64 lib)}
    (h : WellPosed lib 10 c l up) {M F : ℝ} (hM : 1 ≤ M) (hM' : M ≤ 2 ^ 10)
    (hc : ∀ a, Flt.Bounded (f := .b64) M (c a)) (hlM : ∀ a, Flt.Bounded (f := .b64) M (l a)) (hF : 1 ≤ F)
    (hF' : F ≤ 2 ^ 20) (p : PerspectiveParams (F64 lib))
    (hp : ∀ x ∈ [p.fx, p.fy, p.skew, p.cx, p.cy], Flt.Bounded (f := .b64) F x) {d : ℝ}
    (hd : d = distance ((RustFloat.rounding .b64 lib).vec l) ((RustFloat.rounding .b64 lib).vec c))
    (hd1 : M / 1000 ≤ d)
    {px : Pixels (F64 lib) 1} (hpx : px = (Camera.mk (IntrinsicParametersPerspective.ofParams p)
      (fromView nalgebra c l up)).worldToPixel (.single l)) :
    (∀ a, Flt.isFinite (f := .b64) (px.data 0 a)) ∧
      |Flt.val (f := .b64) (px.data 0 0) - Flt.val (f := .b64) p.cx| ≤ 4 / 10 ^ 12 * (M / d) * F ∧
      |Flt.val (f := .b64) (px.data 0 1) - Flt.val (f := .b64) p.cy| ≤ 4 / 10 ^ 12 * (M / d) * F := by
  set fl := RustFloat.rounding .b64 lib with hfl
  have hs := h.angle
  have hDU : (fl.vec l - fl.vec c) ⨯₃ fl.vec up ≠ 0 := by
    intro h
    rw [sine, h, len_eq_zero.2 rfl, zero_div] at hs
    norm_num at hs
  obtain ⟨q, hq, hv, hrot, -⟩ := fromView_spec nalgebra_rot hDU
  have hX : (![0, 0, len (fl.vec l - fl.vec c)] : V3 ℝ) = ((fromView nalgebra (fl.vec c) (fl.vec l)
      (fl.vec up)).worldToCamera ⟨fun i => fl.vec ((Points.single l : Points WorldFrame (F64 lib) 1).data i)⟩).data 0 := by
    rw [hv, worldToCamera_row hq]
    exact hrot.symm
  have h2 : |(![0, 0, len (fl.vec l - fl.vec c)] : V3 ℝ) 2| = d := by
    rw [show (![0, 0, len (fl.vec l - fl.vec c)] : V3 ℝ) 2 = len (fl.vec l - fl.vec c) from rfl,
      abs_of_nonneg (len_nonneg _), hd, distance]
  have key := c79_f64_world_to_pixel hl h hM hM' hc hF hF' p hp (.single l) 0 hlM _ hX (r := 0)
    (by rw [h2]; exact hd1) (by simp) (by simp)
  rw [← hpx, h2] at key
  refine ⟨fun a => (key a).1, ?_, ?_⟩
  · have := (key 0).2
    simpa [Spec.pinhole] using this
  · have := (key 1).2
    simpa [Spec.pinhole] using this

/-- C79: the point looked at, at a distance of at least `M / 1000`, is imaged within `1.7e-3 (M / distance) F` of the
principal point in `f32`. -/
theorem c79_f32_lookat {lib : Libm Format.b32} (hl : lib.Accurate) {c l up : V3 (F32 lib)}
    (h : WellPosed lib 10 c l up) {M F : ℝ} (hM : 1 ≤ M) (hM' : M ≤ 2 ^ 10)
    (hc : ∀ a, Flt.Bounded (f := .b32) M (c a)) (hlM : ∀ a, Flt.Bounded (f := .b32) M (l a)) (hF : 1 ≤ F)
    (hF' : F ≤ 2 ^ 20) (p : PerspectiveParams (F32 lib))
    (hp : ∀ x ∈ [p.fx, p.fy, p.skew, p.cx, p.cy], Flt.Bounded (f := .b32) F x) {d : ℝ}
    (hd : d = distance ((RustFloat.rounding .b32 lib).vec l) ((RustFloat.rounding .b32 lib).vec c))
    (hd1 : M / 1000 ≤ d)
    {px : Pixels (F32 lib) 1} (hpx : px = (Camera.mk (IntrinsicParametersPerspective.ofParams p)
      (fromView nalgebra c l up)).worldToPixel (.single l)) :
    (∀ a, Flt.isFinite (f := .b32) (px.data 0 a)) ∧
      |Flt.val (f := .b32) (px.data 0 0) - Flt.val (f := .b32) p.cx| ≤ 17 / 10 ^ 4 * (M / d) * F ∧
      |Flt.val (f := .b32) (px.data 0 1) - Flt.val (f := .b32) p.cy| ≤ 17 / 10 ^ 4 * (M / d) * F := by
  set fl := RustFloat.rounding .b32 lib with hfl
  have hs := h.angle
  have hDU : (fl.vec l - fl.vec c) ⨯₃ fl.vec up ≠ 0 := by
    intro h
    rw [sine, h, len_eq_zero.2 rfl, zero_div] at hs
    norm_num at hs
  obtain ⟨q, hq, hv, hrot, -⟩ := fromView_spec nalgebra_rot hDU
  have hX : (![0, 0, len (fl.vec l - fl.vec c)] : V3 ℝ) = ((fromView nalgebra (fl.vec c) (fl.vec l)
      (fl.vec up)).worldToCamera ⟨fun i => fl.vec ((Points.single l : Points WorldFrame (F32 lib) 1).data i)⟩).data 0 := by
    rw [hv, worldToCamera_row hq]
    exact hrot.symm
  have h2 : |(![0, 0, len (fl.vec l - fl.vec c)] : V3 ℝ) 2| = d := by
    rw [show (![0, 0, len (fl.vec l - fl.vec c)] : V3 ℝ) 2 = len (fl.vec l - fl.vec c) from rfl,
      abs_of_nonneg (len_nonneg _), hd, distance]
  have key := c79_f32_world_to_pixel hl h hM hM' hc hF hF' p hp (.single l) 0 hlM _ hX (r := 0)
    (by rw [h2]; exact hd1) (by simp) (by simp)
  rw [← hpx, h2] at key
  refine ⟨fun a => (key a).1, ?_, ?_⟩
  · have := (key 0).2
    simpa [Spec.pinhole] using this
  · have := (key 1).2
    simpa [Spec.pinhole] using this

/-- Non-vacuity of C79: a camera at the origin looking along the z axis with the y axis up is well-posed in
both formats, and correctly rounded sine and cosine are accurate. -/
theorem wellPosed_sample (f : Format) (hf : 1 < 2 ^ f.p) (k : ℕ) :
    let z : RustFloat f (Libm.rounded f) := Flt.whole f 0 (by positivity)
    let o : RustFloat f (Libm.rounded f) := Flt.whole f 1 hf
    WellPosed (Libm.rounded f) k ![z, z, z] ![z, z, o] ![z, o, z] ∧ (Libm.rounded f).Accurate := by
  intro z o
  refine ⟨?_, Libm.rounded_accurate f⟩
  have hz : (RustFloat.rounding f (Libm.rounded f)).val z = 0 := by
    show Flt.val (f := f) (Flt.whole f 0 (by positivity)) = 0
    simp [Flt.whole, Flt.val]
  have ho : (RustFloat.rounding f (Libm.rounded f)).val o = 1 := by
    show Flt.val (f := f) (Flt.whole f 1 hf) = 1
    simp [Flt.whole, Flt.val]
  have bz : Flt.Bounded (f := f) (2 ^ k) z := Flt.bounded_whole _ (by simp)
  have bo : Flt.Bounded (f := f) (2 ^ k) o := Flt.bounded_whole _ (by simpa using one_le_pow₀ (by norm_num))
  have ev : ∀ x y w : RustFloat f (Libm.rounded f), (RustFloat.rounding f (Libm.rounded f)).vec ![x, y, w] =
      ![(RustFloat.rounding f (Libm.rounded f)).val x, (RustFloat.rounding f (Libm.rounded f)).val y,
        (RustFloat.rounding f (Libm.rounded f)).val w] := by
    intro x y w
    funext a; fin_cases a <;> rfl
  have l1 : len ![(0 : ℝ), 0, 1] = 1 := by simp [len, Fin.sum_univ_three]
  have l2 : len ![(0 : ℝ), 1, 0] = 1 := by simp [len, Fin.sum_univ_three]
  have l3 : len ![(-1 : ℝ), 0, 0] = 1 := by simp [len, Fin.sum_univ_three]
  have d : ![(0 : ℝ), 0, 1] - ![0, 0, 0] = ![0, 0, 1] := by funext a; fin_cases a <;> simp
  refine ⟨?_, ?_, ?_, ?_, ?_, ?_⟩
  · intro a; fin_cases a <;> exact bz
  · intro a; fin_cases a
    exacts [bz, bz, bo]
  · intro a; fin_cases a
    exacts [bz, bo, bz]
  · rw [ev, ev, hz, ho, d, l1]; norm_num
  · rw [ev, hz, ho, l2]; norm_num
  · rw [ev, ev, ev, hz, ho, d, sine, l1, l2]
    have : ![(0 : ℝ), 0, 1] ⨯₃ ![0, 1, 0] = ![-1, 0, 0] := by simp [crossProduct]
    rw [this, l3]; norm_num

example := wellPosed_sample .b64 (by norm_num [Format.b64]) 500

end CamGeom
