import Verif.Props.Finite

/-!
# C78: `f64` and `f32` cameras in ordinary ranges work and are accurate

The bounds of C49 and C67 with the finiteness of C77 at Rust's floating-point types: no hypothesis on
results or on an abstract arithmetic is left, only ranges of the arguments.
-/

namespace CamGeom
open ExtrinsicParameters

variable {n : ℕ}

/-- A finite floating-point number of magnitude at most `B`. -/
def Flt.Bounded {f : Format} (B : ℝ) (x : Flt f) : Prop := x.isFinite ∧ |x.val| ≤ B

theorem Flt.Bounded.inRange {f : Format} {lib : Libm f} {B : ℝ} {x : RustFloat f lib}
    (h : Flt.Bounded (f := f) B x) {k : ℕ} (hk : B ≤ 2 ^ k) :
    InRange (RustFloat.rounding f lib) k x :=
  ⟨h.1, h.2.trans hk⟩

/-- The rotation's components are finite and its squared norm is within `ε` of one. -/
structure NearUnit {f : Format} (lib : Libm f) (ε : ℝ) (q : Quat (RustFloat f lib)) : Prop where
  w : Flt.isFinite (f := f) q.w
  i : Flt.isFinite (f := f) q.i
  j : Flt.isFinite (f := f) q.j
  k : Flt.isFinite (f := f) q.k
  norm : |Flt.val (f := f) q.w ^ 2 + Flt.val (f := f) q.i ^ 2 + Flt.val (f := f) q.j ^ 2 +
    Flt.val (f := f) q.k ^ 2 - 1| ≤ ε

theorem abs_le_of_sq {x y ε : ℝ} (hε : 0 ≤ ε) (h : x ^ 2 + y ≤ 1 + ε) (hy : 0 ≤ y) : |x| ≤ 1 + ε :=
  abs_le_of_sq_le_sq (by nlinarith) (by linarith)

namespace NearUnit

variable {f : Format} {lib : Libm f} {ε : ℝ} {q : Quat (RustFloat f lib)}

theorem quatNormSq (h : NearUnit lib ε q) :
    |CamGeom.quatNormSq ((RustFloat.rounding f lib).quat q) - 1| ≤ ε :=
  le_trans (le_of_eq (by unfold CamGeom.quatNormSq; rfl)) h.norm

theorem comps (h : NearUnit lib ε q) : |Flt.val (f := f) q.w| ≤ 1 + ε ∧
    |Flt.val (f := f) q.i| ≤ 1 + ε ∧ |Flt.val (f := f) q.j| ≤ 1 + ε ∧
    |Flt.val (f := f) q.k| ≤ 1 + ε := by
  have h0 : 0 ≤ ε := (abs_nonneg _).trans h.norm
  have h1 := (abs_le.1 h.norm).2
  refine ⟨abs_le_of_sq h0 (y := Flt.val (f := f) q.i ^ 2 + Flt.val (f := f) q.j ^ 2 +
      Flt.val (f := f) q.k ^ 2) (by linarith) (by positivity),
    abs_le_of_sq h0 (y := Flt.val (f := f) q.w ^ 2 + Flt.val (f := f) q.j ^ 2 +
      Flt.val (f := f) q.k ^ 2) (by linarith) (by positivity),
    abs_le_of_sq h0 (y := Flt.val (f := f) q.w ^ 2 + Flt.val (f := f) q.i ^ 2 +
      Flt.val (f := f) q.k ^ 2) (by linarith) (by positivity),
    abs_le_of_sq h0 (y := Flt.val (f := f) q.w ^ 2 + Flt.val (f := f) q.i ^ 2 +
      Flt.val (f := f) q.j ^ 2) (by linarith) (by positivity)⟩

theorem inRange (h : NearUnit lib ε q) (hε : ε ≤ 1) : QInRange (RustFloat.rounding f lib) q := by
  obtain ⟨h1, h2, h3, h4⟩ := h.comps
  have e : 1 + ε ≤ 2 ^ 1 := by linarith
  exact ⟨⟨h.w, h1.trans e⟩, ⟨h.i, h2.trans e⟩, ⟨h.j, h3.trans e⟩, ⟨h.k, h4.trans e⟩⟩

end NearUnit

theorem Format.u_b64 : Format.b64.u = 1 / 2 ^ 53 := by
  show (2 : ℝ) ^ (-(53 : ℤ)) = _
  rw [zpow_neg, one_div]
  norm_cast

theorem Format.u_b32 : Format.b32.u = 1 / 2 ^ 24 := by
  show (2 : ℝ) ^ (-(24 : ℤ)) = _
  rw [zpow_neg, one_div]
  norm_cast

theorem Format.ω_b32 : Format.b32.ω = 1 / 2 ^ 126 := by
  show (2 : ℝ) ^ ((3 - 128 - 24 : ℤ) + 24 - 1) = _
  rw [show (3 - 128 - 24 : ℤ) + 24 - 1 = -126 by norm_num, zpow_neg, one_div]
  norm_cast

theorem Format.ω_b64 : Format.b64.ω ≤ 1 / 10 ^ 100 := by
  show (2 : ℝ) ^ ((3 - 1024 - 53 : ℤ) + 53 - 1) ≤ _
  refine (zpow_le_zpow_right₀ (by norm_num) (show (3 - 1024 - 53 : ℤ) + 53 - 1 ≤ -400 by norm_num)).trans ?_
  rw [show (-400 : ℤ) = -(4 * 100 : ℕ) by norm_num, zpow_neg, ← one_div, zpow_natCast, pow_mul]
  exact one_div_le_one_div_of_le (by norm_num) (pow_le_pow_left₀ (by norm_num) (by norm_num) _)

/-- C78: the pixel round trip of an `f64` camera is finite and accurate to a thousandth of a pixel. -/
theorem c78_f64_roundtrip {lib : Libm Format.b64} (p : PerspectiveParams (F64 lib))
    {q : Quat (F64 lib)} (hq : NearUnit lib (1 / 10 ^ 15) q) {c : V3 (F64 lib)}
    (hc : ∀ a, Flt.Bounded (f := .b64) 1000 (c a))
    (hp : ∀ x ∈ [p.fx, p.fy, p.skew, p.cx, p.cy], Flt.Bounded (f := .b64) 10000 x)
    (hfx : 1 ≤ |Flt.val (f := .b64) p.fx|) (hfy : 1 ≤ |Flt.val (f := .b64) p.fy|)
    (px : Pixels (F64 lib) n) (i : Fin n) (hpx : ∀ a, Flt.Bounded (f := .b64) 10000 (px.data i a))
    (hd : ∀ a, |Flt.val (f := .b64)
      (((IntrinsicParametersPerspective.ofParams p).pixelToCamera px).data i a)| ≤ 2)
    (cam : Camera (F64 lib) (IntrinsicParametersPerspective (F64 lib)))
    (hcam : cam = ⟨.ofParams p, fromRotationAndCamcenter q c⟩) (a : Fin 2) :
    Flt.isFinite (f := .b64) ((cam.worldToPixel (cam.pixelToWorld px).pointOnRay).data i a) ∧
    |Flt.val (f := .b64) ((cam.worldToPixel (cam.pixelToWorld px).pointOnRay).data i a) -
      Flt.val (f := .b64) (px.data i a)| ≤ 1 / 1000 := by
  have r := RustFloat.range Format.b64 lib
  have ht : (RustFloat.range Format.b64 lib).top = 1023 := rfl
  have hdr := c77_pixel_to_camera (m := 14) (l := 0) (RustFloat.range Format.b64 lib) p
    (fun x hx => (hp x hx).inRange (by norm_num)) (le_trans (by norm_num) hfx) (le_trans (by norm_num) hfy) px i
    (fun a => (hpx a).inRange (by norm_num)) (by rw [ht]; norm_num)
  have hb := c67_f64_bound (RustFloat.rounding Format.b64 lib).ω_nonneg Format.ω_b64
    (ε := 1 / 10 ^ 15) (M := 2 ^ 10) (by positivity) le_rfl (by norm_num)
  rw [← Format.u_b64] at hb
  have hfin := (c77_perspective_roundtrip (m := 14) (k := 10) (RustFloat.range Format.b64 lib) p
    (fun x hx => (hp x hx).inRange (by norm_num)) (hq.inRange (by norm_num)) hq.quatNormSq
    (fun a => (hc a).inRange (by norm_num)) px i
    (fun a => ⟨(hdr a).1, (hd a).trans (by norm_num)⟩) (hb.trans (by norm_num)) cam hcam
    (by rw [ht]; norm_num) a).1
  exact ⟨hfin, c67_f64_pixel (RustFloat.rounding Format.b64 lib) Format.u_b64 Format.ω_b64 p q c
    hq.quatNormSq (fun a => (hc a).2) (fun x hx => (hp x hx).2) px i (fun a => (hpx a).2) hd cam hcam a
    hfin⟩

/-- Projection at a floating-point type: finite with the error of C49. -/
theorem float_world_to_pixel {f : Format} {lib : Libm f} {k m : ℕ} {ε M F r δ : ℝ}
    (p : PerspectiveParams (RustFloat f lib)) {q : Quat (RustFloat f lib)} (hq : NearUnit lib ε q)
    (hε : ε ≤ 1) {c : V3 (RustFloat f lib)} (hc : ∀ a, Flt.Bounded (f := f) M (c a))
    (hp : ∀ x ∈ [p.fx, p.fy, p.skew, p.cx, p.cy], Flt.Bounded (f := f) F x)
    (w : Points WorldFrame (RustFloat f lib) n) (i : Fin n)
    (hx : ∀ a, Flt.Bounded (f := f) M (w.data i a)) (X : V3 ℝ)
    (hX : X = ((fromRotationAndCamcenter ((RustFloat.rounding f lib).quat q)
        ((RustFloat.rounding f lib).vec c)).worldToCamera
          ⟨fun i => (RustFloat.rounding f lib).vec (w.data i)⟩).data i)
    (hZ : 1 ≤ |X 2|) (h0 : |X 0 / X 2| ≤ r) (h1 : |X 1 / X 2| ≤ r) (hk : M ≤ 2 ^ k) (hm : F ≤ 2 ^ m)
    (htop : m + k + 12 ≤ f.emax.toNat - 1)
    (hδk : ((1 + f.u) ^ 8 - 1) * (97 * 2 ^ k + f.ω * (18 * 2 ^ k + 36)) ≤ 1 / 2)
    (hδ : ((1 + f.u) ^ 8 - 1) * ((24 * (1 + ε) ^ 2 + 1) * M + f.ω * (18 * M + 15 * (1 + ε) + 6)) ≤ δ)
    (hδ2 : δ ≤ 1 / 2) {S : ℝ} (hS : |Flt.val (f := f) p.skew| ≤ S) (a : Fin 2) :
    Flt.isFinite (f := f) (((Camera.mk (IntrinsicParametersPerspective.ofParams p)
        (fromRotationAndCamcenter q c)).worldToPixel w).data i a) ∧
    |Flt.val (f := f) (((Camera.mk (IntrinsicParametersPerspective.ofParams p)
        (fromRotationAndCamcenter q c)).worldToPixel w).data i a) -
      Spec.pinhole (Flt.val (f := f) p.fx) (Flt.val (f := f) p.fy) (Flt.val (f := f) p.skew)
        (Flt.val (f := f) p.cx) (Flt.val (f := f) p.cy) X a| ≤
      ((1 + f.u) ^ 4 - 1) * (2 * F * (r + 1) + 2 * S * (r + 1) + F + 7 * f.ω) +
      2 * δ * (F * (r + 1) + S * (r + 1)) := by
  set fl := RustFloat.rounding f lib with hfl
  have hu : fl.u = f.u := rfl
  have hω : fl.ω = f.ω := rfl
  have hZ0 : X 2 ≠ 0 := by
    intro h; rw [h, abs_zero] at hZ; norm_num at hZ
  have hM0 : 0 ≤ M := (abs_nonneg _).trans (hc 0).2
  have hε0 : 0 ≤ ε := (abs_nonneg _).trans hq.norm
  have fin := fun a => (c77_world_to_pixel (l := 0) (m := m) (k := k) (RustFloat.range f lib) p
    (fun x hx => (hp x hx).inRange hm) (hq.inRange hε) (fun a => (hc a).inRange hk) w i
    (fun a => (hx a).inRange hk) X hX (hδk.trans (by linarith)) (by simpa using hZ) (by
      show m + k + 0 + 12 ≤ f.emax.toNat - 1
      omega) a).1
  obtain ⟨q1, q2, q3, q4⟩ := hq.comps
  have hδ' : ((1 + fl.u) ^ 8 - 1) * ((24 * (1 + ε) ^ 2 + 1) * M + fl.ω * (18 * M + 15 * (1 + ε) + 6)) ≤
    |X 2| / 2 := by rw [hu, hω]; linarith
  obtain ⟨hU, hV⟩ := c49_world_to_pixel fl p q c (1 + ε) M q1 q2 q3 q4 (fun a => (hc a).2) w i
    (fun a => (hx a).2) X hX _ rfl hZ0 hδ'
  have eU := hU (fin 0)
  have eV := hV (fin 1)
  refine ⟨fin a, ?_⟩
  rw [hu, hω] at eU eV
  set D := ((1 + f.u) ^ 8 - 1) * ((24 * (1 + ε) ^ 2 + 1) * M + f.ω * (18 * M + 15 * (1 + ε) + 6)) with hD
  have u0 := f.u_pos
  have ω0 := f.ω_pos
  have p4 : 0 ≤ (1 + f.u) ^ 4 - 1 := by linarith [one_le_pow₀ (n := 4) (show 1 ≤ 1 + f.u by linarith)]
  have p8 : 0 ≤ (1 + f.u) ^ 8 - 1 := by linarith [one_le_pow₀ (n := 8) (show 1 ≤ 1 + f.u by linarith)]
  have D0 : 0 ≤ D := by rw [hD]; positivity
  have p34 : (1 + f.u) ^ 3 - 1 ≤ (1 + f.u) ^ 4 - 1 := by
    have := pow_le_pow_right₀ (show 1 ≤ 1 + f.u by linarith) (show 3 ≤ 4 by norm_num)
    linarith
  have b1 : |Flt.val (f := f) p.fx| ≤ F := (hp _ (by simp)).2
  have b2 : |Flt.val (f := f) p.fy| ≤ F := (hp _ (by simp)).2
  have b4 : |Flt.val (f := f) p.cx| ≤ F := (hp _ (by simp)).2
  have b5 : |Flt.val (f := f) p.cy| ≤ F := (hp _ (by simp)).2
  have F0 : 0 ≤ F := (abs_nonneg _).trans b1
  have S0 : 0 ≤ S := (abs_nonneg _).trans hS
  have r0 : 0 ≤ r := (abs_nonneg _).trans h0
  have hDZ : 2 * D / |X 2| ≤ 2 * δ := by
    exact (div_le_self (by positivity) hZ).trans (by linarith [hδ])
  have δ0 : 0 ≤ δ := D0.trans hδ
  have hωZ : 6 * f.ω / |X 2| ≤ 6 * f.ω := div_le_self (by positivity) hZ
  have hωZ' : 4 * f.ω / |X 2| ≤ 6 * f.ω := (div_le_self (by positivity) hZ).trans (by linarith)
  have b1' : |fl.val p.fx| ≤ F := b1
  have b2' : |fl.val p.fy| ≤ F := b2
  have b4' : |fl.val p.cx| ≤ F := b4
  have b5' : |fl.val p.cy| ≤ F := b5
  have hS' : |fl.val p.skew| ≤ S := hS
  fin_cases a
  · refine eU.trans ?_
    calc _ ≤ ((1 + f.u) ^ 4 - 1) * (2 * F * (r + 1) + 2 * S * (r + 1) + F + 6 * f.ω + f.ω) +
        2 * δ * (F * (r + 1) + S * (r + 1)) := by gcongr
      _ = _ := by ring
  · refine eV.trans ?_
    calc _ ≤ ((1 + f.u) ^ 4 - 1) * (2 * F * (r + 1) + F + 6 * f.ω + f.ω) +
        2 * δ * (F * (r + 1)) := by gcongr
      _ ≤ ((1 + f.u) ^ 4 - 1) * (2 * F * (r + 1) + 2 * S * (r + 1) + F + 7 * f.ω) +
        2 * δ * (F * (r + 1) + S * (r + 1)) := by
          have s1 : 0 ≤ S * (r + 1) := by positivity
          exact add_le_add (mul_le_mul_of_nonneg_left (by linarith) p4)
            (mul_le_mul_of_nonneg_left (by linarith) (by linarith))

/-- C78: projection with an `f64` camera.  Coordinates up to 1000, parameters up to 10000, depth at least 1
and slopes at most 10: the pixel is finite and within 1/10000 of the exact pixel. -/
theorem c78_f64_world_to_pixel {lib : Libm Format.b64} (p : PerspectiveParams (F64 lib))
    {q : Quat (F64 lib)} (hq : NearUnit lib (1 / 10 ^ 15) q) {c : V3 (F64 lib)}
    (hc : ∀ a, Flt.Bounded (f := .b64) 1000 (c a))
    (hp : ∀ x ∈ [p.fx, p.fy, p.skew, p.cx, p.cy], Flt.Bounded (f := .b64) 10000 x)
    (w : Points WorldFrame (F64 lib) n) (i : Fin n)
    (hx : ∀ a, Flt.Bounded (f := .b64) 1000 (w.data i a)) (X : V3 ℝ)
    (hX : X = ((fromRotationAndCamcenter ((RustFloat.rounding .b64 lib).quat q)
        ((RustFloat.rounding .b64 lib).vec c)).worldToCamera
          ⟨fun i => (RustFloat.rounding .b64 lib).vec (w.data i)⟩).data i)
    (hZ : 1 ≤ |X 2|) (h0 : |X 0 / X 2| ≤ 10) (h1 : |X 1 / X 2| ≤ 10) (a : Fin 2) :
    Flt.isFinite (f := .b64) (((Camera.mk (IntrinsicParametersPerspective.ofParams p)
        (fromRotationAndCamcenter q c)).worldToPixel w).data i a) ∧
    |Flt.val (f := .b64) (((Camera.mk (IntrinsicParametersPerspective.ofParams p)
        (fromRotationAndCamcenter q c)).worldToPixel w).data i a) -
      Spec.pinhole (Flt.val (f := .b64) p.fx) (Flt.val (f := .b64) p.fy) (Flt.val (f := .b64) p.skew)
        (Flt.val (f := .b64) p.cx) (Flt.val (f := .b64) p.cy) X a| ≤ 1 / 10000 := by
  have hω := Format.ω_b64
  have hω0 := Format.b64.ω_pos
  have hS : |Flt.val (f := .b64) p.skew| ≤ 10000 := (hp _ (by simp)).2
  have h8 : ((1 : ℝ) + 1 / 2 ^ 53) ^ 8 - 1 ≤ 1 / 10 ^ 15 := by norm_num
  have h8' : 0 ≤ ((1 : ℝ) + 1 / 2 ^ 53) ^ 8 - 1 := by norm_num
  have h4 : ((1 : ℝ) + 1 / 2 ^ 53) ^ 4 - 1 ≤ 1 / 10 ^ 15 := by norm_num
  have h4' : 0 ≤ ((1 : ℝ) + 1 / 2 ^ 53) ^ 4 - 1 := by norm_num
  have := float_world_to_pixel (k := 10) (m := 14) (δ := 3 / 10 ^ 11) p hq (by norm_num) hc hp w i hx X hX
    hZ h0 h1 (by norm_num) (by norm_num) (by show _ ≤ 1023; norm_num) (by
      rw [Format.u_b64]
      calc _ ≤ 1 / 10 ^ 15 * (97 * 2 ^ 10 + 1 / 10 ^ 100 * (18 * 2 ^ 10 + 36) : ℝ) := by gcongr
        _ ≤ _ := by norm_num) (by
      rw [Format.u_b64]
      calc _ ≤ 1 / 10 ^ 15 * ((24 * (1 + 1 / 10 ^ 15) ^ 2 + 1) * 1000 +
            1 / 10 ^ 100 * (18 * 1000 + 15 * (1 + 1 / 10 ^ 15) + 6) : ℝ) := by gcongr
        _ ≤ _ := by norm_num) (by norm_num) hS a
  refine ⟨this.1, this.2.trans ?_⟩
  rw [Format.u_b64]
  calc _ ≤ 1 / 10 ^ 15 * (2 * 10000 * (10 + 1) + 2 * 10000 * (10 + 1) + 10000 + 7 * (1 / 10 ^ 100)) +
        2 * (3 / 10 ^ 11) * (10000 * (10 + 1) + 10000 * (10 + 1) : ℝ) := by gcongr
    _ ≤ _ := by norm_num

/-- C78: projection with an `f32` camera.  Coordinates up to 10, parameters up to 1000, skew up to 10, depth
at least 1 and slopes at most 1: the pixel is finite and within half a pixel of the exact pixel. -/
theorem c78_f32_world_to_pixel {lib : Libm Format.b32} (p : PerspectiveParams (F32 lib))
    {q : Quat (F32 lib)} (hq : NearUnit lib (1 / 10 ^ 6) q) {c : V3 (F32 lib)}
    (hc : ∀ a, Flt.Bounded (f := .b32) 10 (c a))
    (hp : ∀ x ∈ [p.fx, p.fy, p.skew, p.cx, p.cy], Flt.Bounded (f := .b32) 1000 x)
    (hS : |Flt.val (f := .b32) p.skew| ≤ 10) (w : Points WorldFrame (F32 lib) n) (i : Fin n)
    (hx : ∀ a, Flt.Bounded (f := .b32) 10 (w.data i a)) (X : V3 ℝ)
    (hX : X = ((fromRotationAndCamcenter ((RustFloat.rounding .b32 lib).quat q)
        ((RustFloat.rounding .b32 lib).vec c)).worldToCamera
          ⟨fun i => (RustFloat.rounding .b32 lib).vec (w.data i)⟩).data i)
    (hZ : 1 ≤ |X 2|) (h0 : |X 0 / X 2| ≤ 1) (h1 : |X 1 / X 2| ≤ 1) (a : Fin 2) :
    Flt.isFinite (f := .b32) (((Camera.mk (IntrinsicParametersPerspective.ofParams p)
        (fromRotationAndCamcenter q c)).worldToPixel w).data i a) ∧
    |Flt.val (f := .b32) (((Camera.mk (IntrinsicParametersPerspective.ofParams p)
        (fromRotationAndCamcenter q c)).worldToPixel w).data i a) -
      Spec.pinhole (Flt.val (f := .b32) p.fx) (Flt.val (f := .b32) p.fy) (Flt.val (f := .b32) p.skew)
        (Flt.val (f := .b32) p.cx) (Flt.val (f := .b32) p.cy) X a| ≤ 1 / 2 := by
  have := float_world_to_pixel (k := 4) (m := 10) (δ := 12 / 10 ^ 5) p hq (by norm_num) hc hp w i hx X hX
    hZ h0 h1 (by norm_num) (by norm_num) (by show _ ≤ 127; norm_num) (by
      rw [Format.u_b32, Format.ω_b32]; norm_num) (by
      rw [Format.u_b32, Format.ω_b32]; norm_num) (by norm_num) hS a
  refine ⟨this.1, this.2.trans ?_⟩
  rw [Format.u_b32, Format.ω_b32]
  norm_num

/-! ### A concrete camera meets the hypotheses -/

/-- A whole number as a float. -/
noncomputable def Flt.whole (f : Format) (k : ℕ) (h : k < 2 ^ f.p) : Flt f := .num false k (Flt.mag_nat h)

theorem Flt.bounded_whole {f : Format} {k : ℕ} (h : k < 2 ^ f.p) {B : ℝ} (hB : k ≤ B) :
    Flt.Bounded B (Flt.whole f k h) :=
  ⟨trivial, by rwa [Flt.whole, Flt.abs_val]⟩

/-- Non-vacuity of C78 (`f32`): identity rotation, centre (0, 0, 0), focal lengths 500, point (1, 1, 4). -/
example (lib : Libm Format.b32) :
    let z : F32 lib := Flt.whole .b32 0 (by decide)
    let q : Quat (F32 lib) := ⟨Flt.whole .b32 1 (by decide), z, z, z⟩
    let x : V3 (F32 lib) := ![Flt.whole .b32 1 (by decide), Flt.whole .b32 1 (by decide),
      Flt.whole .b32 4 (by decide)]
    NearUnit lib (1 / 10 ^ 6) q ∧ (∀ a, Flt.Bounded (f := .b32) 10 (x a)) ∧
    Flt.Bounded (f := .b32) 1000 (Flt.whole .b32 500 (by decide)) ∧
    ((fromRotationAndCamcenter ((RustFloat.rounding .b32 lib).quat q)
        ((RustFloat.rounding .b32 lib).vec fun _ => z)).worldToCamera
          (⟨fun _ => (RustFloat.rounding .b32 lib).vec x⟩ : Points WorldFrame ℝ 1)).data 0 = ![1, 1, 4] := by
  intro z q x
  have hz : Flt.val (f := .b32) z = 0 := by simp [z, Flt.whole, Flt.val]
  have h1 : Flt.val (f := .b32) (Flt.whole .b32 1 (by decide)) = 1 := by simp [Flt.whole, Flt.val]
  have h4 : Flt.val (f := .b32) (Flt.whole .b32 4 (by decide)) = 4 := by simp [Flt.whole, Flt.val]
  have hz' : (RustFloat.rounding .b32 lib).val z = 0 := hz
  have h1' : (RustFloat.rounding .b32 lib).val (Flt.whole .b32 1 (by decide)) = 1 := h1
  have h4' : (RustFloat.rounding .b32 lib).val (Flt.whole .b32 4 (by decide)) = 4 := h4
  refine ⟨⟨trivial, trivial, trivial, trivial, ?_⟩, ?_, Flt.bounded_whole _ (by norm_num), ?_⟩
  · show |Flt.val (f := .b32) (Flt.whole .b32 1 (by decide)) ^ 2 + Flt.val (f := .b32) z ^ 2 +
      Flt.val (f := .b32) z ^ 2 + Flt.val (f := .b32) z ^ 2 - 1| ≤ _
    rw [hz, h1]; norm_num
  · intro a
    fin_cases a
    · exact Flt.bounded_whole (k := 1) (by decide) (by norm_num)
    · exact Flt.bounded_whole (k := 1) (by decide) (by norm_num)
    · exact Flt.bounded_whole (k := 4) (by decide) (by norm_num)
  · rw [worldToCamera_data]
    funext a
    fin_cases a <;>
      simp [fromRotationAndCamcenter, Isometry.transformPoint, Quat.rotate, V3.add, V3.scale, V3.cross,
        V3.neg, Mat.mulVec3, Quat.vector, Quat.toRotationMatrix, Rounding.quat, Rounding.vec, q, x, hz',
        h1', h4']

/-- Non-vacuity of C78 (`f64` round trip): identity rotation, centre (0, 0, 0), focal lengths 500, principal
point and pixel (0, 0) meet all hypotheses. -/
example (lib : Libm Format.b64) (a : Fin 2) :
    let z : F64 lib := Flt.whole .b64 0 (by decide)
    let f : F64 lib := Flt.whole .b64 500 (by decide)
    let cam : Camera (F64 lib) (IntrinsicParametersPerspective (F64 lib)) := ⟨.ofParams ⟨f, f, z, z, z⟩,
      fromRotationAndCamcenter ⟨Flt.whole .b64 1 (by decide), z, z, z⟩ fun _ => z⟩
    Flt.isFinite (f := .b64)
      ((cam.worldToPixel (cam.pixelToWorld (⟨fun _ _ => z⟩ : Pixels (F64 lib) 1)).pointOnRay).data 0 a) := by
  intro z f cam
  set fl := RustFloat.rounding .b64 lib
  let r : RoundingRange fl := RustFloat.range .b64 lib
  have hz0 : Flt.val (f := .b64) z = 0 := by
    show Flt.val (f := .b64) (Flt.whole .b64 0 (by decide)) = 0
    simp [Flt.whole, Flt.val]
  have h1 : Flt.val (f := .b64) (Flt.whole .b64 1 (by decide)) = 1 := by simp [Flt.whole, Flt.val]
  have hz : fl.isFinite z ∧ fl.val z = 0 := ⟨trivial, hz0⟩
  have hv : |fl.val f| = 500 := by
    show |Flt.val (f := .b64) (Flt.whole .b64 500 (by decide))| = 500
    rw [Flt.whole, Flt.abs_val]; norm_num
  have hf : fl.isFinite f ∧ 1 / 2 ^ 0 ≤ |fl.val f| := ⟨trivial, by rw [hv]; norm_num⟩
  have bz : Flt.Bounded (f := .b64) 1000 z := ⟨trivial, by rw [hz0]; norm_num⟩
  have bz' : Flt.Bounded (f := .b64) 10000 z := ⟨trivial, by rw [hz0]; norm_num⟩
  have bf : Flt.Bounded (f := .b64) 10000 f := ⟨trivial, hv.le.trans (by norm_num)⟩
  have y1 : InRange fl 0 ((z - z) / f) :=
    (r.sub (k := 0) hz.1 hz.1 (Nat.zero_le _) (by rw [hz.2]; norm_num)).div (l := 0) r hf.1 hf.2
      (Nat.zero_le _)
  have x1 : InRange fl 0 (z * ((z - z) / f)) :=
    r.mul hz.1 y1.1 (Nat.zero_le _) (by rw [hz.2]; norm_num)
  have x2 : InRange fl 0 (z - z * ((z - z) / f)) :=
    r.sub hz.1 x1.1 (Nat.zero_le _) (by rw [hz.2, zero_sub, abs_neg]; exact x1.2)
  have x3 : InRange fl 0 (z - z * ((z - z) / f) - z) :=
    r.sub x2.1 hz.1 (Nat.zero_le _) (by rw [hz.2, sub_zero]; exact x2.2)
  have x4 : InRange fl 0 ((z - z * ((z - z) / f) - z) / f) := x3.div (l := 0) r hf.1 hf.2 (Nat.zero_le _)
  refine (c78_f64_roundtrip ⟨f, f, z, z, z⟩ (q := ⟨Flt.whole .b64 1 (by decide), z, z, z⟩)
    ⟨trivial, trivial, trivial, trivial, ?_⟩ (c := fun _ => z) (fun _ => bz) ?_
    (hv.ge.trans' (by norm_num)) (hv.ge.trans' (by norm_num)) ⟨fun _ _ => z⟩ 0 (fun _ => bz') ?_ cam rfl a).1
  · show |Flt.val (f := .b64) (Flt.whole .b64 1 (by decide)) ^ 2 + Flt.val (f := .b64) z ^ 2 +
      Flt.val (f := .b64) z ^ 2 + Flt.val (f := .b64) z ^ 2 - 1| ≤ _
    rw [hz0, h1]; norm_num
  · intro x hx
    simp only [List.mem_cons, List.not_mem_nil, or_false] at hx
    rcases hx with rfl | rfl | rfl | rfl | rfl
    exacts [bf, bf, bz', bz', bz']
  · intro b
    rw [persp_pixelToCamera]
    fin_cases b
    · exact x4.2.trans (by norm_num)
    · exact y1.2.trans (by norm_num)
    · exact (InRange.lit_one fl).2.trans (by norm_num)

end CamGeom
