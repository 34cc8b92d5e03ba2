import Verif.Props.NearRays
import Verif.Lemmas.ViewRay

/-!
# C85: triangulation in `f64`, from measured pixels to the world point

The whole pipeline a user runs: `pixel_to_world` of one pixel per camera, `to_single_ray`,
`best_intersection_of_rays`, every operation rounded.
-/

namespace CamGeom
open Rounding ExtrinsicParameters Spec Matrix

/-! ### Angles between nearly equal vectors -/

theorem normalize_sub_le {a a' : Vec} (h : a ≠ 0) (h' : a' ≠ 0) {η : ℝ} (he : len (a' - a) ≤ η * len a) :
    len (V3.normalize a' - V3.normalize a) ≤ 2 * η := by
  have hp := len_pos.2 h
  have hp' := len_pos.2 h'
  have e : V3.normalize a' - V3.normalize a = (len a)⁻¹ • (a' - a) + ((len a')⁻¹ - (len a)⁻¹) • a' := by
    rw [normalize_eq, normalize_eq, smul_sub, sub_smul]
    abel
  rw [e]
  refine (len_add_le _ _).trans ?_
  rw [len_smul, len_smul, abs_of_pos (inv_pos.2 hp)]
  have h1 : (len a)⁻¹ * len (a' - a) ≤ η := by
    rw [inv_mul_le_iff₀ hp]; linarith
  have h2 : |(len a')⁻¹ - (len a)⁻¹| * len a' ≤ η := by
    rw [show (len a')⁻¹ - (len a)⁻¹ = (len a - len a') / (len a * len a') by field_simp,
      abs_div, abs_of_pos (mul_pos hp hp'), div_mul_eq_mul_div, div_le_iff₀ (mul_pos hp hp')]
    have h3 : |len a - len a'| ≤ len (a' - a) := by
      rw [abs_le]
      have t1 := len_add_le (a' - a) a
      have t2 := len_add_le (a - a') a'
      rw [sub_add_cancel] at t1 t2
      rw [len_sub_comm] at t2
      constructor <;> linarith
    have h4 := mul_le_mul_of_nonneg_right (h3.trans he) hp'.le
    linarith
  linarith

theorem absCos_near {a b a' b' : Vec} (ha : a ≠ 0) (hb : b ≠ 0) (ha' : a' ≠ 0) (hb' : b' ≠ 0) {η : ℝ}
    (h1 : len (a' - a) ≤ η * len a) (h2 : len (b' - b) ≤ η * len b) : absCos a' b' ≤ absCos a b + 4 * η := by
  rw [← absCos_eq ha hb, ← absCos_eq ha' hb']
  have c1 := normalize_sub_le ha ha' h1
  have c2 := normalize_sub_le hb hb' h2
  have l1 := len_normalize ha
  have l2 := len_normalize hb'
  generalize V3.normalize a = u at *
  generalize V3.normalize b = v at *
  generalize V3.normalize a' = u' at *
  generalize V3.normalize b' = v' at *
  have e : u' ⬝ᵥ v' - u ⬝ᵥ v = (u' - u) ⬝ᵥ v' + u ⬝ᵥ (v' - v) := by
    rw [sub_dotProduct, dotProduct_sub]; ring
  have d1 := abs_dot_le (u' - u) v'
  have d2 := abs_dot_le u (v' - v)
  have d3 := abs_add_le ((u' - u) ⬝ᵥ v') (u ⬝ᵥ (v' - v))
  rw [← e] at d3
  rw [l2, _root_.mul_one] at d1
  rw [l1, _root_.one_mul] at d2
  have d4 := abs_sub_abs_le_abs_sub (u' ⬝ᵥ v') (u ⬝ᵥ v)
  linarith

/-! ### Cameras and observations -/

/-- A perspective camera and a pixel. -/
structure Observation (R : Type) where
  params : PerspectiveParams R
  rotation : Quat R
  camcenter : V3 R
  pixel : Pixels R 1

/-- The ray the crate computes for the pixel. -/
def Observation.ray {R : Type} [Scalar R] (o : Observation R) : Ray WorldFrame R :=
  pixelRay o.params o.rotation o.camcenter o.pixel

section
variable {f : Format} {lib : Libm f}

/-- Exact camera coordinates of the point `x`. -/
noncomputable def Observation.position (o : Observation (RustFloat f lib)) (x : Vec) : Vec :=
  ((fromRotationAndCamcenter ((RustFloat.rounding f lib).quat o.rotation)
    ((RustFloat.rounding f lib).vec o.camcenter)).worldToCamera (.single x)).data 0

/-- The camera centre as real numbers. -/
noncomputable def Observation.center (o : Observation (RustFloat f lib)) : Vec :=
  (RustFloat.rounding f lib).vec o.camcenter

/-- The exact pixel of the point `x`. -/
noncomputable def Observation.projection (o : Observation (RustFloat f lib)) (x : Vec) : Fin 2 → ℝ :=
  Spec.pinhole (Flt.val (f := f) o.params.fx) (Flt.val (f := f) o.params.fy)
    (Flt.val (f := f) o.params.skew) (Flt.val (f := f) o.params.cx) (Flt.val (f := f) o.params.cy)
    (o.position x)

/-- The pixel is finite and within `σ` focal lengths of the projection of the point. -/
structure Measured (σ : ℝ) (x : Vec) (o : Observation (RustFloat f lib)) : Prop where
  finite : ∀ a, Flt.isFinite (f := f) (o.pixel.data 0 a)
  u : |Flt.val (f := f) (o.pixel.data 0 0) - o.projection x 0| ≤ σ * |Flt.val (f := f) o.params.fx|
  v : |Flt.val (f := f) (o.pixel.data 0 1) - o.projection x 1| ≤ σ * |Flt.val (f := f) o.params.fy|

/-- The computed direction in the camera frame. -/
noncomputable def Observation.slope (o : Observation (RustFloat f lib)) : V3 (RustFloat f lib) :=
  ((IntrinsicParametersPerspective.ofParams o.params).pixelToCamera o.pixel).data 0

end

section
variable {lib : Libm Format.b64}

/-- Cameras that are covered: rotation of unit norm up to `ε`, coordinates up to `M`, focal lengths from 1 to
`2^20` pixels, skew at most the focal length and principal point within ten focal lengths; the point is at a depth
of at least `M / 100`, with slopes at most 10. -/
structure NearView (ε M : ℝ) (x : Vec) (o : Observation (F64 lib)) : Prop where
  rotation : NearUnit lib ε o.rotation
  center : ∀ a, Flt.Bounded (f := .b64) M (o.camcenter a)
  params : ∀ y ∈ [o.params.fx, o.params.fy, o.params.skew, o.params.cx, o.params.cy],
    Flt.Bounded (f := .b64) (2 ^ 20) y
  fx : 1 ≤ |Flt.val (f := .b64) o.params.fx|
  fy : 1 ≤ |Flt.val (f := .b64) o.params.fy|
  skew : |Flt.val (f := .b64) o.params.skew| ≤ |Flt.val (f := .b64) o.params.fx|
  cx : |Flt.val (f := .b64) o.params.cx| ≤ 10 * |Flt.val (f := .b64) o.params.fx|
  cy : |Flt.val (f := .b64) o.params.cy| ≤ 10 * |Flt.val (f := .b64) o.params.fy|
  depth : M / 100 ≤ |o.position x 2|
  slope0 : |o.position x 0 / o.position x 2| ≤ 10
  slope1 : |o.position x 1 / o.position x 2| ≤ 10

/-- The rotation is of unit norm up to rounding. -/
abbrev GoodView (M : ℝ) (x : Vec) (o : Observation (F64 lib)) : Prop := NearView (1 / 10 ^ 15) M x o

variable {M σ ε : ℝ} {x : Vec} {o : Observation (F64 lib)}

theorem Measured.nonneg (h : Measured σ x o) (g : NearView ε M x o) : 0 ≤ σ := by
  have h1 := (abs_nonneg _).trans h.u
  have h2 := g.fx
  by_contra hn
  have : σ * |Flt.val (f := .b64) o.params.fx| < 0 := mul_neg_of_neg_of_pos (not_le.1 hn) (by linarith)
  linarith

theorem Measured.inRange (h : Measured σ x o) (g : NearView ε M x o) (hσ : σ ≤ 1 / 100) (a : Fin 2) :
    InRange (RustFloat.rounding .b64 lib) 26 (o.pixel.data 0 a) := by
  refine ⟨h.finite a, ?_⟩
  have b1 := g.params o.params.fx (by simp)
  have b2 := g.params o.params.fy (by simp)
  have b3 := g.params o.params.skew (by simp)
  have b4 := g.params o.params.cx (by simp)
  have b5 := g.params o.params.cy (by simp)
  have hu := h.u
  have hv := h.v
  simp only [Observation.projection, Spec.pinhole, Matrix.cons_val] at hu hv
  show |Flt.val (f := .b64) (o.pixel.data 0 a)| ≤ _
  have s0 := g.slope0
  have s1 := g.slope1
  have m : ∀ {y s : ℝ}, |y| ≤ 2 ^ 20 → |s| ≤ 10 → |y * s| ≤ 10 * 2 ^ 20 := by
    intro y s h1 h2
    rw [abs_mul]
    exact (mul_le_mul h1 h2 (abs_nonneg _) (by positivity)).trans (le_of_eq (by ring))
  have f0 := abs_nonneg (Flt.val (f := .b64) o.params.fx)
  have f1 := abs_nonneg (Flt.val (f := .b64) o.params.fy)
  have hfx := mul_le_mul_of_nonneg_right hσ f0
  have hfy := mul_le_mul_of_nonneg_right hσ f1
  have b1' := b1.2
  have b2' := b2.2
  have b4' := b4.2
  have b5' := b5.2
  fin_cases a
  · have t1 := abs_sub_abs_le_abs_sub (Flt.val (f := .b64) (o.pixel.data 0 0)) _ |>.trans hu
    have t2 := abs_add_three (Flt.val (f := .b64) o.params.fx * (o.position x 0 / o.position x 2))
      (Flt.val (f := .b64) o.params.skew * (o.position x 1 / o.position x 2)) (Flt.val (f := .b64) o.params.cx)
    have t3 := m b1.2 s0
    have t4 := m b3.2 s1
    show |Flt.val (f := .b64) (o.pixel.data 0 0)| ≤ _
    norm_num at *
    linarith
  · have t1 := abs_sub_abs_le_abs_sub (Flt.val (f := .b64) (o.pixel.data 0 1)) _ |>.trans hv
    have t2 := abs_add_le (Flt.val (f := .b64) o.params.fy * (o.position x 1 / o.position x 2))
      (Flt.val (f := .b64) o.params.cy)
    have t3 := m b2.2 s1
    show |Flt.val (f := .b64) (o.pixel.data 0 1)| ≤ _
    norm_num at *
    linarith

theorem Measured.slope (h : Measured σ x o) (g : NearView ε M x o) (hσ : σ ≤ 1 / 100) :
    (∀ a, Flt.isFinite (f := .b64) (o.slope a)) ∧
    |Flt.val (f := .b64) (o.slope 0) - o.position x 0 / o.position x 2| ≤ 2 * σ + 5 / 10 ^ 14 ∧
    |Flt.val (f := .b64) (o.slope 1) - o.position x 1 / o.position x 2| ≤ σ + 1 / 10 ^ 14 ∧
    Flt.val (f := .b64) (o.slope 2) = 1 := by
  set fl := RustFloat.rounding .b64 lib with hfl
  have eu : fl.u = 1 / 2 ^ 53 := Format.u_b64
  have hω : fl.ω ≤ 1 / 10 ^ 100 := Format.ω_b64
  have hω0 := fl.ω_nonneg
  have hfin : ∀ a, fl.isFinite (o.slope a) := fun a =>
    (c77_pixel_to_camera (m := 26) (l := 0) (RustFloat.range Format.b64 lib) o.params
      (fun y hy => (g.params y hy).inRange (pow_le_pow_right₀ (by norm_num) (by norm_num)))
      (le_of_eq_of_le (by norm_num) g.fx) (le_of_eq_of_le (by norm_num) g.fy) o.pixel 0 (h.inRange g hσ) (by show _ ≤ 1023; norm_num) a).1
  have b1 := g.params o.params.fx (by simp)
  have b2 := g.params o.params.fy (by simp)
  have b3 := g.params o.params.skew (by simp)
  have b4 := g.params o.params.cx (by simp)
  have b5 := g.params o.params.cy (by simp)
  have f1 : 0 < |fl.val o.params.fx| := lt_of_lt_of_le one_pos g.fx
  have f2 : 0 < |fl.val o.params.fy| := lt_of_lt_of_le one_pos g.fy
  have k2 : ((1 : ℝ) + 1 / 2 ^ 53) ^ 2 - 1 ≤ 3 / 10 ^ 16 := by norm_num
  have k2' : 0 ≤ ((1 : ℝ) + 1 / 2 ^ 53) ^ 2 - 1 := by norm_num
  have k6 : ((1 : ℝ) + 1 / 2 ^ 53) ^ 6 - 1 ≤ 67 / 10 ^ 17 := by norm_num
  have k6' : 0 ≤ ((1 : ℝ) + 1 / 2 ^ 53) ^ 6 - 1 := by norm_num
  have dv := c48_direction_v fl o.params o.pixel 0 b2.1 (hfin 1)
  have du := c48_direction_u fl o.params o.pixel 0 b1.1 b2.1 (hfin 0)
  rw [eu] at dv du
  obtain ⟨h1, h2, h3⟩ := slope_v (v := fl.val (o.pixel.data 0 1)) f2 g.cy g.slope1 h.v hσ k2' dv
  have h4 := slope_u (u := fl.val (o.pixel.data 0 0)) f1 g.skew g.cx g.slope0 g.slope1 h3 h2
    (div_nonneg (add_nonneg (abs_nonneg _) (abs_nonneg _)) (abs_nonneg _)) hω0 (hω.trans (by norm_num)) g.fx h.u hσ k6' du
  refine ⟨hfin, h4.trans ?_, h1.trans ?_, (c48_direction_z fl o.params o.pixel 0).2⟩
  · linarith
  · have : (((1 : ℝ) + 1 / 2 ^ 53) ^ 2 - 1) * (31 + fl.ω) ≤ 3 / 10 ^ 16 * (31 + 1 / 10 ^ 100) := by gcongr
    norm_num at this ⊢
    linarith

theorem len_le_two {v : Vec} {a b : ℝ} (h0 : |v 0| ≤ a) (h1 : |v 1| ≤ b) (h2 : v 2 = 0) : len v ≤ a + b := by
  have ha := (abs_nonneg _).trans h0
  have hb := (abs_nonneg _).trans h1
  refine abs_le_of_sq_le_sq' ?_ (by positivity) |>.2
  rw [len_sq, vec3_dotProduct, h2]
  have t0 := pow_le_pow_left₀ (abs_nonneg _) h0 2
  have t1 := pow_le_pow_left₀ (abs_nonneg _) h1 2
  rw [sq_abs] at t0 t1
  nlinarith [mul_nonneg ha hb]

/-- The computed ray of a measured pixel starts near the camera centre and reaches the neighbourhood of the point at
the parameter given by the depth. -/
theorem Measured.rayAtNear (h : Measured σ x o) (g : NearView ε M x o) (hε : ε ≤ 1 / 10 ^ 9) (hσ : σ ≤ 1 / 100) (hM1 : 1 ≤ M) (hM2 : M ≤ 2 ^ 20)
    (hx : ∀ a, |x a| ≤ M) (r : Ray WorldFrame ℝ) (hr : r = vray (RustFloat.rounding .b64 lib) o.ray) :
    SafeRay (RustFloat.rounding .b64 lib) 500 o.ray ∧ (∀ a, |r.center a| ≤ (1 + (14 * ε + 7 / 10 ^ 13)) * M) ∧
    x - o.center ≠ 0 ∧ r.direction ≠ 0 ∧ o.position x 2 ≠ 0 ∧
      distance x (r.center + o.position x 2 • r.direction) ≤ (13 * σ + 11 * ε + 19 / 10 ^ 13) * M ∧
      len (o.position x 2 • r.direction - (x - o.center)) ≤ (31 / 10 * σ + 2500 * ε + 14 / 10 ^ 11) * len (x - o.center) ∧
      len (r.center - o.center) ≤ (14 * ε + 7 / 10 ^ 13) * M ∧ 8 / 10 ≤ len r.direction := by
  set fl := RustFloat.rounding .b64 lib with hfl
  have eu : fl.u = 1 / 2 ^ 53 := Format.u_b64
  have hω : fl.ω ≤ 1 / 10 ^ 100 := Format.ω_b64
  have hq : |quatNormSq (fl.quat o.rotation) - 1| ≤ ε := g.rotation.quatNormSq
  have hε0 : 0 ≤ ε := (abs_nonneg _).trans hq
  have hε4 : ε ≤ 1 / 4 := hε.trans (by norm_num)
  have hσ0 := h.nonneg g
  have hM0 : 0 ≤ M := by linarith
  obtain ⟨df, s0, s1, s2⟩ := h.slope g hσ
  set c' := o.center with hc'
  set t := (fromRotationAndCamcenter (fl.quat o.rotation) c').translation with ht
  set X := o.position x with hX
  have eX : X = (fl.quat o.rotation).rotate x + t := pose_apply _ _ _
  set Z := X 2 with hZ
  have hdepth : M / 100 ≤ |Z| := g.depth
  have hZ0 : Z ≠ 0 := by
    intro h0
    rw [h0, abs_zero] at hdepth
    linarith
  -- finiteness and magnitude of the direction in the camera frame
  have d0 : |fl.val (o.slope 0)| ≤ 11 := by
    have e := abs_sub_abs_le_abs_sub (fl.val (o.slope 0)) (X 0 / X 2) |>.trans s0
    have := g.slope0
    norm_num at e ⊢
    linarith
  have d1 : |fl.val (o.slope 1)| ≤ 11 := by
    have e := abs_sub_abs_le_abs_sub (fl.val (o.slope 1)) (X 1 / X 2) |>.trans s1
    have := g.slope1
    norm_num at e ⊢
    linarith
  have d2 : fl.val (o.slope 2) = 1 := s2
  have hd : ∀ a, |fl.val (o.slope a)| ≤ 11 := by
    intro a
    fin_cases a
    · exact d0
    · exact d1
    · show |fl.val (o.slope 2)| ≤ 11
      rw [d2]; norm_num
  have hin : ∀ a, InRange fl 20 (o.slope a) := fun a => ⟨df a, (hd a).trans (by norm_num)⟩
  have hci : ∀ a, InRange fl 20 (o.camcenter a) := fun a => (g.center a).inRange hM2
  have hqi := g.rotation.inRange (hε.trans (by norm_num))
  have hrc : ∀ a, InRange fl 35 (o.ray.center a) := by
    intro a
    rw [Observation.ray, pixelRay_eq]
    exact (hqi.poseInv (RustFloat.range .b64 lib) hci (v := fun _ => Scalar.lit 0)
      (fun _ => InRange.lit_zero fl) (by show _ ≤ 1023; norm_num) a).1
  have hrd : ∀ a, InRange fl 27 (o.ray.direction a) := by
    intro a
    rw [Observation.ray, pixelRay_eq]
    exact (hqi.poseInv (RustFloat.range .b64 lib) hci hin (by show _ ≤ 1023; norm_num) a).2
  -- errors of the ray
  have ec : ∀ a, r.center a = fl.val (o.ray.center a) := fun a => by rw [hr]; rfl
  have ed : ∀ a, r.direction a = fl.val (o.ray.direction a) := fun a => by rw [hr]; rfl
  have e1 : len (r.center - (fl.quat o.rotation).inverse.rotate (-t)) ≤ 2 * (3 / 10 ^ 13 * M) := by
    refine len_le_entries fun a => ?_
    have hf := (hrc a).1
    rw [Pi.sub_apply, ec]
    rw [Observation.ray, pixelRay_eq] at hf ⊢
    exact rayCenter_near_f64 eu hω hM1 hq hε (fun a => (g.center a).2) a hf
  have e2 : len (r.direction - (fl.quat o.rotation).inverse.rotate (fl.vec o.slope)) ≤ 2 * (12 / 10 ^ 14) := by
    refine len_le_entries fun a => ?_
    have hf := (hrd a).1
    rw [Pi.sub_apply, ed]
    rw [Observation.ray, pixelRay_eq] at hf ⊢
    exact rayDirection_near_f64 eu hω hq hε hd a hf
  have e3 := ray_exact hq hε4 t x (fl.vec o.slope) Z
  rw [← eX] at e3
  have e4 : len (Z • fl.vec o.slope - X) ≤ |Z| * (2 * σ + 5 / 10 ^ 14) + |Z| * (σ + 1 / 10 ^ 14) := by
    have key : ∀ a, (Z • fl.vec o.slope - X) a = Z * (fl.val (o.slope a) - X a / X 2) := by
      intro a
      show Z * fl.val (o.slope a) - X a = _
      rw [mul_sub, hZ, mul_div_cancel₀ _ hZ0]
    refine len_le_two ?_ ?_ ?_
    · rw [key, abs_mul]
      exact mul_le_mul_of_nonneg_left s0 (abs_nonneg _)
    · rw [key, abs_mul]
      exact mul_le_mul_of_nonneg_left s1 (abs_nonneg _)
    · rw [key, d2, div_self hZ0, sub_self, MulZeroClass.mul_zero]
  have e5 := center_exact hq hε4 c'
  rw [← ht] at e5
  have e6 := depth_le hq c' x 2
  rw [← ht, ← eX, ← hZ] at e6
  have e6' : |Z| ≤ (1 + 3 / 10 ^ 9) * distance x c' + 1 / 10 ^ 9 * len c' := by
    have i1 := mul_le_mul_of_nonneg_right hε (show 0 ≤ distance x c' from len_nonneg _)
    have i2 := mul_le_mul_of_nonneg_right hε (len_nonneg c')
    norm_num at i1 i2 ⊢
    linarith
  replace e6 := e6'
  have hεM : 0 ≤ ε * M := mul_nonneg hε0 hM0
  have lx : len x ≤ 2 * M := len_le_entries hx
  have lc : len c' ≤ 2 * M := len_le_entries fun a => (g.center a).2
  have hL : distance x c' ≤ 4 * M := by
    have := len_add_le x (-c')
    rw [len_neg, ← sub_eq_add_neg] at this
    exact this.trans (by linarith)
  -- distance from the point
  have hE : distance x (r.center + Z • r.direction) ≤
      (1 + 3 / 10 ^ 9) * (|Z| * (2 * σ + 5 / 10 ^ 14) + |Z| * (σ + 1 / 10 ^ 14)) +
        5 * ε * (2 * M) + 2 * (3 / 10 ^ 13 * M) + |Z| * (2 * (12 / 10 ^ 14)) := by
    have e : r.center + Z • r.direction - x =
        ((fl.quat o.rotation).inverse.rotate (-t) + Z • (fl.quat o.rotation).inverse.rotate (fl.vec o.slope) - x) +
        ((r.center - (fl.quat o.rotation).inverse.rotate (-t)) +
          Z • (r.direction - (fl.quat o.rotation).inverse.rotate (fl.vec o.slope))) := by
      rw [smul_sub]; abel
    rw [distance, len_sub_comm, e]
    refine (len_add_le _ _).trans ?_
    refine (add_le_add e3 (len_add_le _ _)).trans ?_
    rw [len_smul]
    have i1 := mul_le_mul_of_nonneg_left e2 (abs_nonneg Z)
    have i2 := mul_le_mul (show 1 + 3 * ε ≤ 1 + 3 / 10 ^ 9 by norm_num at hε ⊢; linarith) e4 (len_nonneg _) (by norm_num)
    have i3 := mul_le_mul_of_nonneg_left lx (show (0 : ℝ) ≤ 5 * ε by linarith)
    linarith
  have hG : len (r.center - c') ≤ (14 * ε + 7 / 10 ^ 13) * M := by
    have := distance_triangle r.center ((fl.quat o.rotation).inverse.rotate (-t)) c'
    simp only [distance] at this e5
    refine this.trans ((add_le_add e1 e5).trans ?_)
    have i3 := mul_le_mul_of_nonneg_left lc (show (0 : ℝ) ≤ 7 * ε by linarith)
    norm_num at i3 ⊢
    linarith
  -- sizes
  have L0 : 0 ≤ distance x c' := len_nonneg _
  have m1 : M ≤ 101 * distance x c' := by
    norm_num at e6
    linarith
  have m2 : |Z| ≤ 1001 / 1000 * distance x c' := by
    norm_num at e6
    linarith
  have m4 : ε * M ≤ 101 * (ε * distance x c') := by nlinarith
  have m3 : |Z| ≤ 4001 / 1000 * M := by
    norm_num at e6
    linarith
  have z0 : 0 < |Z| := abs_pos.2 hZ0
  have Lp : 0 < distance x c' := by linarith
  have n2 := mul_le_mul_of_nonneg_right m2 hσ0
  have n3 := mul_le_mul_of_nonneg_right m3 hσ0
  have hE1 : distance x (r.center + Z • r.direction) ≤ (13 * σ + 11 * ε + 19 / 10 ^ 13) * M := by
    refine hE.trans ?_
    have := mul_nonneg hσ0 hM0
    norm_num at n3 ⊢
    linarith
  have hD : len (Z • r.direction - (x - c')) ≤ (31 / 10 * σ + 2500 * ε + 14 / 10 ^ 11) * distance x c' := by
    have e : Z • r.direction - (x - c') = (r.center + Z • r.direction - x) - (r.center - c') := by abel
    rw [e]
    have i1 := len_add_le (r.center + Z • r.direction - x) (-(r.center - c'))
    rw [len_neg, ← sub_eq_add_neg, len_sub_comm (r.center + Z • r.direction) x] at i1
    have i2 := mul_nonneg hσ0 L0
    have i3 := mul_nonneg hε0 L0
    refine i1.trans ((add_le_add hE hG).trans ?_)
    norm_num at n2 ⊢
    linarith
  have hD' : 8 / 10 ≤ len r.direction := by
    have i1 := len_add_le (x - c' - Z • r.direction) (Z • r.direction)
    rw [sub_add_cancel, len_smul, len_sub_comm (x - c') (Z • r.direction)] at i1
    have i2 : len (x - c') = distance x c' := rfl
    have i3 : (31 / 10 * σ + 2500 * ε + 14 / 10 ^ 11) * distance x c' ≤ 1 / 10 * distance x c' :=
      mul_le_mul_of_nonneg_right (by norm_num; linarith) L0
    have i4 : |Z| * (8 / 10) ≤ |Z| * len r.direction := by linarith
    exact le_of_mul_le_mul_left i4 z0
  have hDne : r.direction ≠ 0 := len_pos.1 (by linarith)
  refine ⟨⟨fun a => (hrc a).mono (by norm_num), fun a => (hrd a).mono (by norm_num), ?_, ?_⟩, fun a => ?_,
    len_pos.1 Lp, hDne, hZ0, hE1, hD, hG, hD'⟩
  · by_contra hn
    push Not at hn
    exact hDne (funext fun a => (ed a).trans (hn a))
  · have : (fun a => fl.val (o.ray.direction a)) = r.direction := funext fun a => (ed a).symm
    rw [this]
    have i1 := pow_le_pow_left₀ (by norm_num) hD' 2
    refine le_trans ?_ i1
    norm_num at hω ⊢
    linarith
  · have i1 := (abs_apply_le_len (r.center - c') a).trans hG
    rw [Pi.sub_apply] at i1
    have i2 := abs_sub_abs_le_abs_sub (r.center a) (c' a)
    have i3 : |c' a| ≤ M := (g.center a).2
    norm_num at i1 ⊢
    linarith

/-- The same for rotations of unit norm up to rounding. -/
theorem Measured.rayAt (h : Measured σ x o) (g : GoodView M x o) (hσ : σ ≤ 1 / 100) (hM1 : 1 ≤ M) (hM2 : M ≤ 2 ^ 20)
    (hx : ∀ a, |x a| ≤ M) (r : Ray WorldFrame ℝ) (hr : r = vray (RustFloat.rounding .b64 lib) o.ray) :
    SafeRay (RustFloat.rounding .b64 lib) 500 o.ray ∧ (∀ a, |r.center a| ≤ (1 + 1 / 10 ^ 10) * M) ∧
    x - o.center ≠ 0 ∧ r.direction ≠ 0 ∧ o.position x 2 ≠ 0 ∧
      distance x (r.center + o.position x 2 • r.direction) ≤ (13 * σ + 2 / 10 ^ 12) * M ∧
      len (o.position x 2 • r.direction - (x - o.center)) ≤ (31 / 10 * σ + 2 / 10 ^ 10) * len (x - o.center) ∧
      len (r.center - o.center) ≤ 1 / 10 ^ 12 * M ∧ 8 / 10 ≤ len r.direction := by
  obtain ⟨h1, h2, h3, h4, h5, h6, h7, h8, h9⟩ := h.rayAtNear g (by norm_num) hσ hM1 hM2 hx r hr
  have l0 := len_nonneg (x - o.center)
  have M0 : 0 ≤ M := by linarith
  refine ⟨h1, fun a => (h2 a).trans (mul_le_mul_of_nonneg_right ?_ M0), h3, h4, h5,
    h6.trans (mul_le_mul_of_nonneg_right ?_ M0), h7.trans (mul_le_mul_of_nonneg_right ?_ l0),
    h8.trans (mul_le_mul_of_nonneg_right ?_ M0), h9⟩ <;> linarith

/-- The computed ray of a measured pixel passes near the point, in the right direction. -/
theorem Measured.ray (h : Measured σ x o) (g : GoodView M x o) (hσ : σ ≤ 1 / 100) (hM1 : 1 ≤ M) (hM2 : M ≤ 2 ^ 20)
    (hx : ∀ a, |x a| ≤ M) (r : Ray WorldFrame ℝ) (hr : r = vray (RustFloat.rounding .b64 lib) o.ray) :
    SafeRay (RustFloat.rounding .b64 lib) 500 o.ray ∧ (∀ a, |r.center a| ≤ (1 + 1 / 10 ^ 10) * M) ∧
    x - o.center ≠ 0 ∧ r.direction ≠ 0 ∧ ∃ Z : ℝ, Z ≠ 0 ∧
      distance x (r.center + Z • r.direction) ≤ (13 * σ + 2 / 10 ^ 12) * M ∧
      len (Z • r.direction - (x - o.center)) ≤ (31 / 10 * σ + 2 / 10 ^ 10) * len (x - o.center) := by
  obtain ⟨h1, h2, h3, h4, h5, h6, h7, -, -⟩ := h.rayAt g hσ hM1 hM2 hx r hr
  exact ⟨h1, h2, h3, h4, _, h5, h6, h7⟩

/-- C85: a point seen by several `f64` cameras is recovered from measured pixels.  With every pixel within `σ` focal
lengths of the exact projection of the point, all coordinates at most `M`, and two of the cameras seeing the point at
the angle `θ`, the pipeline `pixel_to_world`, `to_single_ray`, `best_intersection_of_rays` returns a finite point
within `ρ + 1.7e-6 N / κ * (M + |x| + ρ)` of the true one, where `κ = 1 - |cos θ| - 13 σ - 1.5e-6 N` and
`ρ = (13 σ + 2e-12) M √(N / κ)`. -/
theorem c85_f64_measured {lib' : Libm Format.b64} {os : List (Observation (F64 lib))} (h2 : 2 ≤ os.length)
    (hM1 : 1 ≤ M) (hM2 : M ≤ 2 ^ 20) (hσ : σ ≤ 1 / 100) (hx : ∀ a, |x a| ≤ M)
    (hg : ∀ o ∈ os, GoodView M x o) (hm : ∀ o ∈ os, Measured σ x o)
    {a b : Observation (F64 lib)} (ha : a ∈ os) (hb : b ∈ os) {κ ρ : ℝ}
    (hκ : κ = 1 - absCos (x - a.center) (x - b.center) - 13 * σ - 15 / 10000000 * os.length)
    (hκ0 : 101 / 1000000000 < κ) (hρ : ρ = (13 * σ + 2 / 10 ^ 12) * M * √(os.length / κ)) :
    ∃ pt, bestIntersectionOfRays (Svd3.svd : TrySvd (F64 lib')) (os.map Observation.ray) = .ok pt ∧
      (∀ j, Flt.isFinite (f := .b64) (pt.data 0 j)) ∧
      distance (fun j => Flt.val (f := .b64) (pt.data 0 j)) x ≤
        ρ + 17 / 10000000 * os.length / κ * (M + (len x + ρ)) := by
  set fl := RustFloat.rounding .b64 lib with hfl
  have hN : (2 : ℝ) ≤ os.length := by exact_mod_cast h2
  have hR : ∀ o (ho : o ∈ os), _ := fun o ho => (hm o ho).ray (hg o ho) hσ hM1 hM2 hx _ rfl
  have hlen : (os.map Observation.ray).length = os.length := List.length_map ..
  obtain ⟨-, -, na, da, Za, za, -, la⟩ := hR a ha
  obtain ⟨-, -, nb, db, Zb, zb, -, lb⟩ := hR b hb
  have hcos := absCos_near na nb (smul_ne_zero za da) (smul_ne_zero zb db) la lb
  rw [absCos_smul za zb] at hcos
  set c := absCos (vray fl a.ray).direction (vray fl b.ray).direction with hc
  have τ0 : 0 ≤ (13 * σ + 2 / 10 ^ 12) * M := by
    obtain ⟨-, -, -, -, Z, -, h, -⟩ := hR a ha
    exact (len_nonneg _).trans h
  have hκ' : κ ≤ 1 - c - 14 / 10000000 * os.length := by
    rw [hκ]
    have := (hm a ha).nonneg (hg a ha)
    norm_num at hcos
    linarith
  obtain ⟨pt, p1, p2, p3⟩ := c84_f64_near_point (lib' := lib') (rays := os.map Observation.ray) (by rw [hlen]; exact h2)
    (fun r hr => by
      obtain ⟨o, ho, rfl⟩ := List.mem_map.1 hr
      exact (hR o ho).1)
    (M := (1 + 1 / 10 ^ 10) * M) (le_trans (by rw [div_le_one (by positivity)]; exact one_le_pow₀ (by norm_num)) (hM1.trans (by linarith)))
    (fun r hr i => by
      obtain ⟨o, ho, rfl⟩ := List.mem_map.1 hr
      exact (hR o ho).2.1 i)
    (List.mem_map_of_mem ha) (List.mem_map_of_mem hb) hc (κ := 1 - c - 14 / 10000000 * os.length) (by rw [hlen])
    (by linarith) (x := x) (τ := (13 * σ + 2 / 10 ^ 12) * M) (fun r hr => by
      obtain ⟨o, ho, rfl⟩ := List.mem_map.1 hr
      obtain ⟨-, -, -, -, Z, -, h, -⟩ := hR o ho
      exact (distTo_le (show _ ∈ line _ _ from ⟨Z, rfl⟩)).trans h) rfl
  refine ⟨pt, p1, p2, p3.trans ?_⟩
  rw [hlen]
  have κ0 : 0 < κ := by linarith
  have l0 := len_nonneg x
  have r1 : (13 * σ + 2 / 10 ^ 12) * M * √(os.length / (1 - c)) ≤ ρ := by
    rw [hρ]
    refine mul_le_mul_of_nonneg_left (Real.sqrt_le_sqrt ?_) τ0
    exact div_le_div_of_nonneg_left (by linarith) κ0 (by linarith)
  have r0 : 0 ≤ (13 * σ + 2 / 10 ^ 12) * M * √(os.length / (1 - c)) := mul_nonneg τ0 (Real.sqrt_nonneg _)
  have r2 : 16 / 10000000 * (os.length : ℝ) / (1 - c - 14 / 10000000 * os.length) ≤ 16 / 10000000 * os.length / κ :=
    div_le_div_of_nonneg_left (by linarith) κ0 hκ'
  have r3 : 0 ≤ (os.length : ℝ) / κ := div_nonneg (by linarith) κ0.le
  have r4 := mul_le_mul r2 (show (1 + 1 / 10 ^ 10) * M + (len x + (13 * σ + 2 / 10 ^ 12) * M * √(os.length / (1 - c))) ≤
    (1 + 1 / 10 ^ 10) * (M + (len x + ρ)) by nlinarith) (by positivity) (by rw [mul_div_assoc]; positivity)
  refine (add_le_add r1 r4).trans ?_
  rw [mul_div_assoc, mul_div_assoc]
  have r5 := mul_nonneg r3 (show 0 ≤ M + (len x + ρ) by linarith)
  norm_num at r5 ⊢
  linarith

theorem computed_bound_u {k F S C s0 s1 w z d : ℝ} (hk0 : 0 ≤ k) (hk : k ≤ 5 / 10 ^ 16) (hF : 1 ≤ F) (hS : S ≤ F)
    (hC : C ≤ 10 * F) (hS0 : 0 ≤ S) (h0 : s0 ≤ 10) (h1 : s1 ≤ 10) (h0' : 0 ≤ s0) (h1' : 0 ≤ s1) (hw : w ≤ 1)
    (hz : w / z ≤ 1) (hd : d / z ≤ 23 / 10 ^ 13) :
    k * (2 * F * (s0 + 1) + 2 * S * (s1 + 1) + C + 6 * w / z + w) + 2 * d / z * (F * (s0 + 1) + S * (s1 + 1)) ≤
      11 / 10 ^ 11 * F := by
  have a1 : F * (s0 + 1) ≤ F * 11 := mul_le_mul_of_nonneg_left (by linarith) (by linarith)
  have a2 : S * (s1 + 1) ≤ F * 11 := mul_le_mul hS (by linarith) (by linarith) (by linarith)
  have a3 : F * (s0 + 1) + S * (s1 + 1) ≤ 22 * F := by linarith
  have a4 : 0 ≤ F * (s0 + 1) + S * (s1 + 1) :=
    add_nonneg (mul_nonneg (by linarith) (by linarith)) (mul_nonneg hS0 (by linarith))
  have a5 : 2 * F * (s0 + 1) + 2 * S * (s1 + 1) + C + 6 * w / z + w ≤ 61 * F := by
    rw [mul_div_assoc]; linarith
  have a6 := mul_le_mul hd a3 a4 (by norm_num)
  have a7 := (mul_le_mul_of_nonneg_left a5 hk0).trans (mul_le_mul_of_nonneg_right hk (show 0 ≤ 61 * F by linarith))
  rw [mul_div_assoc 2 d z, mul_assoc 2 (d / z)]
  norm_num at a6 a7 ⊢
  linarith

theorem computed_bound_v {k F C s1 w z d : ℝ} (hk0 : 0 ≤ k) (hk : k ≤ 5 / 10 ^ 16) (hF : 1 ≤ F)
    (hC : C ≤ 10 * F) (h1 : s1 ≤ 10) (h1' : 0 ≤ s1) (hw : w ≤ 1)
    (hz : w / z ≤ 1) (hd : d / z ≤ 23 / 10 ^ 13) :
    k * (2 * F * (s1 + 1) + C + 4 * w / z + w) + 2 * d / z * (F * (s1 + 1)) ≤ 11 / 10 ^ 11 * F := by
  have a1 : F * (s1 + 1) ≤ 11 * F := by nlinarith
  have a4 : 0 ≤ F * (s1 + 1) := mul_nonneg (by linarith) (by linarith)
  have a5 : 2 * F * (s1 + 1) + C + 4 * w / z + w ≤ 61 * F := by
    rw [mul_div_assoc]; linarith
  have a6 := mul_le_mul hd a1 a4 (by norm_num)
  have a7 := (mul_le_mul_of_nonneg_left a5 hk0).trans (mul_le_mul_of_nonneg_right hk (show 0 ≤ 61 * F by linarith))
  rw [mul_div_assoc 2 d z, mul_assoc 2 (d / z)]
  norm_num at a6 a7 ⊢
  linarith

/-- The pixel computed by `world_to_pixel` for an `f64` point is within `1.1e-10` focal lengths of the exact
projection. -/
theorem computed_measured (g : NearView ε M x o) (hε : ε ≤ 1 / 10 ^ 9) (hM1 : 1 ≤ M) (hM2 : M ≤ 2 ^ 20) (w : Points WorldFrame (F64 lib) 1)
    (hw : ∀ a, Flt.Bounded (f := .b64) M (w.data 0 a)) (hx : x = (RustFloat.rounding .b64 lib).vec (w.data 0))
    (hp : o.pixel = (Camera.mk (IntrinsicParametersPerspective.ofParams o.params)
      (fromRotationAndCamcenter o.rotation o.camcenter)).worldToPixel w) : Measured (11 / 10 ^ 11) x o := by
  set fl := RustFloat.rounding .b64 lib with hfl
  have eu : fl.u = 1 / 2 ^ 53 := Format.u_b64
  have hω : fl.ω ≤ 1 / 10 ^ 100 := Format.ω_b64
  have hω0 := fl.ω_nonneg
  have hX : o.position x = ((fromRotationAndCamcenter (fl.quat o.rotation) (fl.vec o.camcenter)).worldToCamera
      ⟨fun i => fl.vec (w.data i)⟩).data 0 := by
    rw [hx]; rfl
  have hdepth := g.depth
  have k8 : ((1 : ℝ) + 1 / 2 ^ 53) ^ 8 - 1 ≤ 89 / 10 ^ 17 := by norm_num
  have k8' : 0 ≤ ((1 : ℝ) + 1 / 2 ^ 53) ^ 8 - 1 := by norm_num
  have hfin := c77_world_to_pixel (m := 20) (k := 20) (l := 7) (RustFloat.range .b64 lib) o.params
    (fun y hy => (g.params y hy).inRange le_rfl) (g.rotation.inRange (hε.trans (by norm_num)))
    (fun a => (g.center a).inRange hM2) w 0 (fun a => (hw a).inRange hM2) (o.position x) hX
    (by
      show ((1 + fl.u) ^ 8 - 1) * (97 * 2 ^ 20 + fl.ω * (18 * 2 ^ 20 + 36)) ≤ _
      rw [eu]
      have : (((1 : ℝ) + 1 / 2 ^ 53) ^ 8 - 1) * (97 * 2 ^ 20 + fl.ω * (18 * 2 ^ 20 + 36)) ≤
        89 / 10 ^ 17 * (97 * 2 ^ 20 + 1 / 10 ^ 100 * (18 * 2 ^ 20 + 36)) := by gcongr
      norm_num at this ⊢
      linarith)
    (by norm_num; linarith) (by show _ ≤ 1023; norm_num)
  obtain ⟨q1, q2, q3, q4⟩ := g.rotation.comps
  have hQ : 1 + ε ≤ 1001 / 1000 := by norm_num at hε ⊢; linarith
  set δ := ((1 + fl.u) ^ 8 - 1) *
      ((24 * (1001 / 1000 : ℝ) ^ 2 + 1) * M + fl.ω * (18 * M + 15 * (1001 / 1000) + 6)) with hδ
  have hδM : δ ≤ 23 / 10 ^ 15 * M := by
    rw [hδ, eu]
    have : (((1 : ℝ) + 1 / 2 ^ 53) ^ 8 - 1) *
      ((24 * (1001 / 1000 : ℝ) ^ 2 + 1) * M + fl.ω * (18 * M + 15 * (1001 / 1000) + 6)) ≤
        89 / 10 ^ 17 * ((24 * (1001 / 1000 : ℝ) ^ 2 + 1) * M + 1 / 10 ^ 100 * (18 * M + 15 * (1001 / 1000) + 6)) := by gcongr
    refine this.trans ?_
    norm_num
    linarith
  have hZ0 : 0 < |o.position x 2| := by linarith
  have hδZ : δ / |o.position x 2| ≤ 23 / 10 ^ 13 := by
    rw [div_le_iff₀ hZ0]
    norm_num at hδM ⊢
    linarith
  have hωZ : fl.ω / |o.position x 2| ≤ 1 / 10 ^ 90 := by
    rw [div_le_iff₀ hZ0]
    norm_num at hω ⊢
    linarith
  have main := c49_world_to_pixel fl o.params o.rotation o.camcenter (1001 / 1000) M (q1.trans hQ) (q2.trans hQ)
    (q3.trans hQ) (q4.trans hQ) (fun a => (g.center a).2) w 0 (fun a => (hw a).2) (o.position x) hX δ hδ
    (abs_pos.1 hZ0) (by
      have := hδM
      norm_num at this
      linarith)
  rw [← hp] at hfin main
  have k4 : ((1 : ℝ) + 1 / 2 ^ 53) ^ 4 - 1 ≤ 5 / 10 ^ 16 := by norm_num
  have k4' : 0 ≤ ((1 : ℝ) + 1 / 2 ^ 53) ^ 4 - 1 := by norm_num
  have k3 : ((1 : ℝ) + 1 / 2 ^ 53) ^ 3 - 1 ≤ 5 / 10 ^ 16 := by norm_num
  have k3' : 0 ≤ ((1 : ℝ) + 1 / 2 ^ 53) ^ 3 - 1 := by norm_num
  have F1 := g.fx
  have F2 := g.fy
  have S := g.skew
  have s0 := g.slope0
  have s1 := g.slope1
  have C1 := g.cx
  have C2 := g.cy
  refine ⟨fun a => (hfin a).1, ?_, ?_⟩
  · refine (main.1 (hfin 0).1).trans ?_
    rw [eu]
    exact computed_bound_u k4' k4 F1 S C1 (abs_nonneg _) s0 s1 (abs_nonneg _) (abs_nonneg _) (hω.trans (by norm_num))
      (hωZ.trans (by norm_num)) hδZ
  · refine (main.2 (hfin 1).1).trans ?_
    rw [eu]
    exact computed_bound_v k3' k3 F2 C2 s1 (abs_nonneg _) (hω.trans (by norm_num))
      (hωZ.trans (by norm_num)) hδZ

/-- C85 for pixels computed by the crate: the pixels of an `f64` point in each camera, projected back and
intersected, give the point to within `1.8e-6 N / (1 - |cos θ| - 1.6e-6 N) * (M + |x|)`. -/
theorem c85_f64_triangulation {lib' : Libm Format.b64} {os : List (Observation (F64 lib))} (h2 : 2 ≤ os.length)
    (hM1 : 1 ≤ M) (hM2 : M ≤ 2 ^ 20) (w : Points WorldFrame (F64 lib) 1)
    (hw : ∀ a, Flt.Bounded (f := .b64) M (w.data 0 a)) (hx : x = (RustFloat.rounding .b64 lib).vec (w.data 0))
    (hg : ∀ o ∈ os, GoodView M x o)
    (hp : ∀ o ∈ os, o.pixel = (Camera.mk (IntrinsicParametersPerspective.ofParams o.params)
      (fromRotationAndCamcenter o.rotation o.camcenter)).worldToPixel w)
    {a b : Observation (F64 lib)} (ha : a ∈ os) (hb : b ∈ os) {κ : ℝ}
    (hκ : κ = 1 - absCos (x - a.center) (x - b.center) - 16 / 10000000 * os.length)
    (hκ0 : 101 / 1000000000 < κ) :
    ∃ pt, bestIntersectionOfRays (Svd3.svd : TrySvd (F64 lib')) (os.map Observation.ray) = .ok pt ∧
      (∀ j, Flt.isFinite (f := .b64) (pt.data 0 j)) ∧
      distance (fun j => Flt.val (f := .b64) (pt.data 0 j)) x ≤ 18 / 10000000 * os.length / κ * (M + len x) := by
  have hN : (2 : ℝ) ≤ os.length := by exact_mod_cast h2
  have hcos : 0 ≤ absCos (x - a.center) (x - b.center) :=
    div_nonneg (abs_nonneg _) (mul_nonneg (len_nonneg _) (len_nonneg _))
  obtain ⟨pt, p1, p2, p3⟩ := c85_f64_measured (lib' := lib') (σ := 11 / 10 ^ 11) h2 hM1 hM2 (by norm_num)
    (fun a => by rw [hx]; exact (hw a).2) hg (fun o ho => computed_measured (hg o ho) (by norm_num) hM1 hM2 w hw hx (hp o ho)) ha hb
    rfl (by norm_num at hκ hκ0 ⊢; linarith) rfl
  refine ⟨pt, p1, p2, p3.trans ?_⟩
  generalize hk : 1 - absCos (x - a.center) (x - b.center) - 13 * (11 / 10 ^ 11) - 15 / 10000000 * (os.length : ℝ) = κ'
  have hkk : κ ≤ κ' := by rw [← hk, hκ]; norm_num; linarith
  have κ0 : 0 < κ := by linarith
  have t1 : (os.length : ℝ) / κ' ≤ os.length / κ := div_le_div_of_nonneg_left (by linarith) κ0 hkk
  have t2 : 1 ≤ (os.length : ℝ) / κ := by rw [one_le_div κ0]; linarith
  have t3 : (os.length : ℝ) / κ ≤ (2500000 : ℝ) ^ 2 := by
    rw [div_le_iff₀ κ0]; norm_num; linarith
  have t4 : √(os.length / κ') ≤ os.length / κ := by
    refine (Real.sqrt_le_sqrt t1).trans ?_
    rw [Real.sqrt_le_left (by linarith)]
    nlinarith
  have t5 : √(os.length / κ') ≤ 2500000 := Real.sqrt_le_left (by norm_num) |>.2 (t1.trans t3)
  have t0 := Real.sqrt_nonneg (os.length / κ')
  generalize √(os.length / κ') = s at *
  have l0 := len_nonneg x
  have r1 : (13 * (11 / 10 ^ 11) + 2 / 10 ^ 12) * M * s ≤ 144 / 10 ^ 11 * (os.length / κ * M) := by
    have := mul_le_mul_of_nonneg_right t4 (show 0 ≤ M by linarith)
    have u0 := mul_nonneg t0 (show 0 ≤ M by linarith)
    norm_num at this u0 ⊢
    linarith
  have r2 : (13 * (11 / 10 ^ 11) + 2 / 10 ^ 12) * M * s ≤ 1 / 100 * M := by
    have := mul_le_mul_of_nonneg_right t5 (show 0 ≤ M by linarith)
    norm_num at this ⊢
    linarith
  have r3 := mul_le_mul t1 (show M + (len x + (13 * (11 / 10 ^ 11) + 2 / 10 ^ 12) * M * s) ≤
    101 / 100 * (M + len x) by linarith) (by positivity) (by linarith)
  have r4 : (os.length : ℝ) / κ * M ≤ os.length / κ * (M + len x) := mul_le_mul_of_nonneg_left (by linarith) (by linarith)
  have r5 := mul_nonneg (show 0 ≤ (os.length : ℝ) / κ by linarith) (show 0 ≤ M + len x by linarith)
  have r6 : (13 * (11 / 10 ^ 11) + 2 / 10 ^ 12) * M * s + 17 / 10000000 * ((os.length : ℝ) / κ' *
      (M + (len x + (13 * (11 / 10 ^ 11) + 2 / 10 ^ 12) * M * s))) ≤ 18 / 10000000 * (os.length / κ * (M + len x)) := by
    rw [show (os.length : ℝ) / κ * (101 / 100 * (M + len x)) = 101 / 100 * (os.length / κ * (M + len x)) by ring] at r3
    norm_num at r1 r3 r5 ⊢
    linarith
  exact le_of_eq_of_le (by ring) (r6.trans (le_of_eq (by ring)))

/-! ### A concrete pair of cameras -/

/-- A one-digit number. -/
noncomputable def digit (lib : Libm Format.b64) (k : Fin 10) : F64 lib := Flt.whole .b64 k (by decide +revert)

theorem val_digit (lib : Libm Format.b64) (k : Fin 10) : Flt.val (f := .b64) (digit lib k) = (k : ℕ) := by
  show Flt.val (f := .b64) (Flt.whole .b64 k _) = _
  simp [Flt.whole, Flt.val]

/-- Focal lengths 1, principal point (1, 0), no rotation, centre `(c, 0, 0)`, pixel `(p, 0)`. -/
noncomputable def sampleView (lib : Libm Format.b64) (c p : Fin 10) : Observation (F64 lib) where
  params := ⟨digit lib 1, digit lib 1, digit lib 0, digit lib 1, digit lib 0⟩
  rotation := ⟨digit lib 1, digit lib 0, digit lib 0, digit lib 0⟩
  camcenter := ![digit lib c, digit lib 0, digit lib 0]
  pixel := ⟨fun _ => ![digit lib p, digit lib 0]⟩

theorem sampleView_center (c p : Fin 10) : (sampleView lib c p).center = ![((c : ℕ) : ℝ), 0, 0] := by
  funext a
  fin_cases a
  · exact val_digit lib c
  · exact (val_digit lib 0).trans (by norm_num)
  · exact (val_digit lib 0).trans (by norm_num)

theorem sampleView_position (c p : Fin 10) (x : Vec) : (sampleView lib c p).position x = x - ![((c : ℕ) : ℝ), 0, 0] := by
  have e : (RustFloat.rounding .b64 lib).quat (sampleView lib c p).rotation = ⟨1, 0, 0, 0⟩ := by
    have h0 : Flt.val (f := .b64) (digit lib 0) = 0 := (val_digit lib _).trans (by norm_num)
    have h1 : Flt.val (f := .b64) (digit lib 1) = 1 := (val_digit lib _).trans (by norm_num)
    show Quat.mk (Flt.val (f := .b64) (digit lib 1)) (Flt.val (f := .b64) (digit lib 0))
      (Flt.val (f := .b64) (digit lib 0)) (Flt.val (f := .b64) (digit lib 0)) = _
    rw [h0, h1]
  have r : ∀ v : Vec, (⟨1, 0, 0, 0⟩ : Quat ℝ).rotate v = v := by
    intro v
    funext a
    fin_cases a <;> simp [Quat.rotate, V3.add, V3.scale, V3.cross, Quat.vector]
  rw [Observation.position, pose_apply, translation_eq, e, r, r]
  have n : quatNormSq (⟨1, 0, 0, 0⟩ : Quat ℝ) = 1 := by simp [quatNormSq]
  rw [n, sub_self, zero_smul, _root_.add_zero, ← sub_eq_add_neg]
  exact congrArg (x - ·) (sampleView_center c p)

/-- Both cameras see the point (4, 0, 4). -/
theorem sampleView_good (c p : Fin 10) (hc : c = 0 ∨ c = 8) : GoodView 8 ![4, 0, 4] (sampleView lib c p) := by
  have hpos := sampleView_position (lib := lib) c p ![4, 0, 4]
  have b : ∀ (k : Fin 10) {B : ℝ}, ((k : ℕ) : ℝ) ≤ B → Flt.Bounded (f := .b64) B (digit lib k) := fun k B hk =>
    ⟨trivial, by rw [val_digit lib, abs_of_nonneg (Nat.cast_nonneg _)]; exact hk⟩
  have v1 : Flt.val (f := .b64) (digit lib 1) = 1 := (val_digit lib _).trans (by norm_num)
  have v0 : Flt.val (f := .b64) (digit lib 0) = 0 := (val_digit lib _).trans (by norm_num)
  have hc8 : ((c : ℕ) : ℝ) ≤ 8 := by
    rcases hc with rfl | rfl <;> norm_num
  have s0 : |((sampleView lib c p).position ![4, 0, 4]) 0| = 4 := by
    rw [hpos]
    rcases hc with rfl | rfl <;> norm_num
  have s1 : ((sampleView lib c p).position ![4, 0, 4]) 1 = 0 := by rw [hpos]; simp
  have s2 : ((sampleView lib c p).position ![4, 0, 4]) 2 = 4 := by rw [hpos]; simp
  refine ⟨⟨trivial, trivial, trivial, trivial, ?_⟩, ?_, ?_, ?_, ?_, ?_, ?_, ?_, ?_, ?_, ?_⟩
  · show |Flt.val (f := .b64) (digit lib 1) ^ 2 + Flt.val (f := .b64) (digit lib 0) ^ 2 +
      Flt.val (f := .b64) (digit lib 0) ^ 2 + Flt.val (f := .b64) (digit lib 0) ^ 2 - 1| ≤ _
    rw [v1, v0]
    norm_num
  · intro a
    fin_cases a
    · exact b c hc8
    · exact b 0 (by norm_num)
    · exact b 0 (by norm_num)
  · intro y hy
    simp only [List.mem_cons, List.not_mem_nil, or_false] at hy
    rcases hy with rfl | rfl | rfl | rfl | rfl
    · exact b 1 (by norm_num)
    · exact b 1 (by norm_num)
    · exact b 0 (by norm_num)
    · exact b 1 (by norm_num)
    · exact b 0 (by norm_num)
  · exact (abs_of_nonneg (by rw [show Flt.val (f := .b64) (sampleView lib c p).params.fx = 1 from v1]; norm_num)).ge.trans' v1.ge
  · exact (abs_of_nonneg (by rw [show Flt.val (f := .b64) (sampleView lib c p).params.fy = 1 from v1]; norm_num)).ge.trans' v1.ge
  · rw [show Flt.val (f := .b64) (sampleView lib c p).params.skew = 0 from v0, abs_zero]
    exact abs_nonneg _
  · rw [show Flt.val (f := .b64) (sampleView lib c p).params.cx = 1 from v1,
      show Flt.val (f := .b64) (sampleView lib c p).params.fx = 1 from v1]
    norm_num
  · rw [show Flt.val (f := .b64) (sampleView lib c p).params.cy = 0 from v0, abs_zero]
    exact mul_nonneg (by norm_num) (abs_nonneg _)
  · rw [s2]; norm_num
  · rw [abs_div, s0, s2]; norm_num
  · rw [s1]; norm_num

/-- The pixels (2, 0) and (0, 0) are the images of (4, 0, 4). -/
theorem sampleView_measured {c p : Fin 10} (h : c = 0 ∧ p = 2 ∨ c = 8 ∧ p = 0) :
    Measured (1 / 1000) ![4, 0, 4] (sampleView lib c p) := by
  have hpos := sampleView_position (lib := lib) c p ![4, 0, 4]
  have v1 : Flt.val (f := .b64) (digit lib 1) = 1 := (val_digit lib _).trans (by norm_num)
  have v0 : Flt.val (f := .b64) (digit lib 0) = 0 := (val_digit lib _).trans (by norm_num)
  have e1 : Flt.val (f := .b64) (sampleView lib c p).params.fx = 1 := v1
  have e2 : Flt.val (f := .b64) (sampleView lib c p).params.fy = 1 := v1
  have e3 : Flt.val (f := .b64) (sampleView lib c p).params.skew = 0 := v0
  have e4 : Flt.val (f := .b64) (sampleView lib c p).params.cx = 1 := v1
  have e5 : Flt.val (f := .b64) (sampleView lib c p).params.cy = 0 := v0
  have e6 : Flt.val (f := .b64) ((sampleView lib c p).pixel.data 0 0) = (p : ℕ) := val_digit lib p
  have e7 : Flt.val (f := .b64) ((sampleView lib c p).pixel.data 0 1) = 0 := v0
  refine ⟨fun a => ?_, ?_, ?_⟩
  · fin_cases a <;> exact trivial
  · rw [Observation.projection, e1, e2, e3, e4, e5, e6, hpos]
    simp only [Spec.pinhole, Pi.sub_apply, Matrix.cons_val]
    rcases h with ⟨rfl, rfl⟩ | ⟨rfl, rfl⟩ <;> norm_num
  · rw [Observation.projection, e1, e2, e3, e4, e5, e7, hpos]
    norm_num [Spec.pinhole]

theorem sampleView_angle : absCos (![4, 0, 4] - (sampleView lib 0 2).center) (![4, 0, 4] - (sampleView lib 8 0).center) = 0 := by
  rw [sampleView_center, sampleView_center, absCos, vec3_dotProduct]
  simp only [Pi.sub_apply, Matrix.cons_val]
  norm_num

/-- Non-vacuity of C85: two cameras 8 apart see the point (4, 0, 4) at a right angle, the pixels are good to one
thousandth of the focal length: the point found is within a third of a unit. -/
example {lib' : Libm Format.b64} :
    ∃ pt, bestIntersectionOfRays (Svd3.svd : TrySvd (F64 lib'))
        [(sampleView lib 0 2).ray, (sampleView lib 8 0).ray] = .ok pt ∧
      (∀ j, Flt.isFinite (f := .b64) (pt.data 0 j)) ∧
      distance (fun j => Flt.val (f := .b64) (pt.data 0 j)) ![4, 0, 4] ≤ 1 / 3 := by
  obtain ⟨pt, p1, p2, p3⟩ := c85_f64_measured (lib' := lib') (os := [sampleView lib 0 2, sampleView lib 8 0])
    (M := 8) (σ := 1 / 1000) (x := ![4, 0, 4]) (by simp) (by norm_num) (by norm_num) (by norm_num)
    (fun a => by fin_cases a <;> norm_num)
    (fun o ho => by
      simp only [List.mem_cons, List.not_mem_nil, or_false] at ho
      rcases ho with rfl | rfl
      · exact sampleView_good 0 2 (Or.inl rfl)
      · exact sampleView_good 8 0 (Or.inr rfl))
    (fun o ho => by
      simp only [List.mem_cons, List.not_mem_nil, or_false] at ho
      rcases ho with rfl | rfl
      · exact sampleView_measured (Or.inl ⟨rfl, rfl⟩)
      · exact sampleView_measured (Or.inr ⟨rfl, rfl⟩))
    (a := sampleView lib 0 2) (b := sampleView lib 8 0) (by simp) (by simp) rfl
    (by rw [sampleView_angle]; norm_num) rfl
  refine ⟨pt, p1, p2, p3.trans ?_⟩
  rw [sampleView_angle]
  have l : len ![(4 : ℝ), 0, 4] ≤ 2 * 4 := len_le_entries fun a => by fin_cases a <;> norm_num
  have q : √((([sampleView lib 0 2, sampleView lib 8 0] : List (Observation (F64 lib))).length : ℝ) /
      (1 - 0 - 13 * (1 / 1000) - 15 / 10000000 *
        (([sampleView lib 0 2, sampleView lib 8 0] : List (Observation (F64 lib))).length : ℝ))) ≤ 2 := by
    rw [Real.sqrt_le_left (by norm_num)]
    norm_num
  refine (add_le_add (mul_le_mul_of_nonneg_left q (by norm_num)) (mul_le_mul_of_nonneg_left (add_le_add_right
    (add_le_add l (mul_le_mul_of_nonneg_left q (by norm_num))) _) (by norm_num))).trans ?_
  norm_num

/-- Non-vacuity of C85 for computed pixels. -/
example {lib' : Libm Format.b64} (w : Points WorldFrame (F64 lib) 1)
    (hw : w = ⟨fun _ => ![digit lib 4, digit lib 0, digit lib 4]⟩)
    (a b : Observation (F64 lib))
    (ha : a = { sampleView lib 0 0 with
      pixel := (Camera.mk (IntrinsicParametersPerspective.ofParams (sampleView lib 0 0).params)
        (fromRotationAndCamcenter (sampleView lib 0 0).rotation (sampleView lib 0 0).camcenter)).worldToPixel w })
    (hb : b = { sampleView lib 8 0 with
      pixel := (Camera.mk (IntrinsicParametersPerspective.ofParams (sampleView lib 8 0).params)
        (fromRotationAndCamcenter (sampleView lib 8 0).rotation (sampleView lib 8 0).camcenter)).worldToPixel w }) :
    ∃ pt, bestIntersectionOfRays (Svd3.svd : TrySvd (F64 lib')) [a.ray, b.ray] = .ok pt ∧
      (∀ j, Flt.isFinite (f := .b64) (pt.data 0 j)) ∧
      distance (fun j => Flt.val (f := .b64) (pt.data 0 j)) ![4, 0, 4] ≤ 1 / 10000 := by
  have hx : ![4, 0, 4] = (RustFloat.rounding .b64 lib).vec (w.data 0) := by
    rw [hw]
    funext j
    fin_cases j
    · exact ((val_digit lib 4).trans (by norm_num)).symm
    · exact ((val_digit lib 0).trans (by norm_num)).symm
    · exact ((val_digit lib 4).trans (by norm_num)).symm
  obtain ⟨pt, p1, p2, p3⟩ := c85_f64_triangulation (lib' := lib') (os := [a, b])
    (M := 8) (x := ![4, 0, 4]) (by simp) (by norm_num) (by norm_num) w
    (fun j => by
      have b : ∀ (k : Fin 10) {B : ℝ}, ((k : ℕ) : ℝ) ≤ B → Flt.Bounded (f := .b64) B (digit lib k) := fun k B hk =>
        ⟨trivial, by rw [val_digit lib, abs_of_nonneg (Nat.cast_nonneg _)]; exact hk⟩
      rw [hw]
      fin_cases j
      · exact b 4 (by norm_num)
      · exact b 0 (by norm_num)
      · exact b 4 (by norm_num))
    hx
    (fun o ho => by
      simp only [List.mem_cons, List.not_mem_nil, or_false] at ho
      rcases ho with rfl | rfl
      · rw [ha]; exact { sampleView_good 0 0 (Or.inl rfl) with }
      · rw [hb]; exact { sampleView_good 8 0 (Or.inr rfl) with })
    (fun o ho => by
      simp only [List.mem_cons, List.not_mem_nil, or_false] at ho
      rcases ho with rfl | rfl
      · rw [ha]
      · rw [hb])
    (a := a) (b := b) (by simp) (by simp) rfl
    (by
      have : absCos (![4, 0, 4] - a.center) (![4, 0, 4] - b.center) = 0 := by rw [ha, hb]; exact sampleView_angle
      rw [this]; norm_num)
  have hcos : absCos (![4, 0, 4] - a.center) (![4, 0, 4] - b.center) = 0 := by rw [ha, hb]; exact sampleView_angle
  refine ⟨pt, p1, p2, p3.trans ?_⟩
  rw [hcos]
  have l : len ![(4 : ℝ), 0, 4] ≤ 2 * 4 := len_le_entries fun a => by fin_cases a <;> norm_num
  refine (mul_le_mul_of_nonneg_left (add_le_add_right l _) (by norm_num)).trans ?_
  norm_num

end

end CamGeom
