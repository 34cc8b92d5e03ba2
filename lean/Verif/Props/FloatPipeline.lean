import Verif.Props.FloatOrthographic

/-!
# C92: triangulation in floating point never fails

No assumption on the angles between the rays, on measured pixels or on a common point: every pixel of every camera in
the range gives a ray that `best_intersection_of_rays` can use.
-/

namespace CamGeom
open Rounding ExtrinsicParameters Spec Matrix

section
variable {R : Type} [Scalar R] {fl : Rounding R} {k : ℕ}

/-- A direction with a coordinate equal to one stays long when it is rotated to the world frame. -/
theorem rotated_long (hu : fl.u ≤ 1 / 10 ^ 7) (hω : fl.ω ≤ 1 / 100) {q : Quat R} {c d : V3 R}
    (hε : |quatNormSq (fl.quat q) - 1| ≤ 1 / 1000) (h1 : 1 ≤ len (vvec fl d))
    (hf : ∀ a, fl.isFinite ((fromRotationAndCamcenter q c).cache.poseInv.transformVector d a)) :
    98 / 100 ≤ len (vvec fl ((fromRotationAndCamcenter q c).cache.poseInv.transformVector d)) := by
  have hu0 := fl.u_nonneg
  have hω0 := fl.ω_nonneg
  set L := len (vvec fl d) with hL
  set w := (fromRotationAndCamcenter q c).cache.poseInv.transformVector d with hw
  have e1 : len (vvec fl w - (fl.quat q).inverse.rotate (vvec fl d)) ≤ 2 * (1 / 10 ^ 4 * L) := by
    refine len_le_entries fun a => ?_
    refine (rayDirection_near hε (fun a => abs_coord_le (vvec fl d) a) a (hf a)).trans ?_
    rw [← hL]
    unfold rotMag
    have h7 : (1 + fl.u) ^ 7 - 1 ≤ (1 + 1 / 10 ^ 7) ^ 7 - 1 := by gcongr
    have h8 : ((1 : ℝ) + 1 / 10 ^ 7) ^ 7 - 1 ≤ 8 / 10 ^ 7 := by norm_num
    calc _ ≤ (8 / 10 ^ 7 : ℝ) * (12 * (1 + 1 / 1000) ^ 2 * L + L + 1 / 100 * (15 * (1 + 1 / 1000) + 3)) := by
          have := h7.trans h8
          gcongr
      _ ≤ _ := by norm_num; linarith
  have e2 := len_rotate_ge hε le_rfl (vvec fl d)
  have e3 := len_add_le ((fl.quat q).inverse.rotate (vvec fl d) - vvec fl w) (vvec fl w)
  rw [sub_add_cancel, len_sub_comm] at e3
  norm_num at e1
  linarith

/-- The ray computed for a direction and origin in the camera frame can be used for triangulation. -/
theorem safe_world_ray (g : RoundingRange fl) (hu : fl.u ≤ 1 / 10 ^ 7) (hω : fl.ω ≤ 1 / 100) {q : Quat R} {c d v : V3 R}
    (hq : QInRange fl q) (hε : |quatNormSq (fl.quat q) - 1| ≤ 1 / 1000) (hc : ∀ a, InRange fl k (c a))
    (hv : ∀ a, InRange fl k (v a)) (hd : ∀ a, InRange fl k (d a)) (h1 : 1 ≤ len (vvec fl d)) (hk : k + 15 ≤ g.top) :
    SafeRay (Coords := WorldFrame) fl (k + 15)
      ⟨(fromRotationAndCamcenter q c).cache.poseInv.transformPoint v,
        (fromRotationAndCamcenter q c).cache.poseInv.transformVector d⟩ := by
  have hω0 := fl.ω_nonneg
  have hD := fun a => (hq.poseInv g hc hd hk a).2
  have hl := rotated_long (c := c) hu hω hε h1 fun a => (hD a).1
  refine ⟨fun a => (hq.poseInv g hc hv hk a).1, fun a => (hD a).mono (by omega), ?_, ?_⟩
  · by_contra hn
    push Not at hn
    have : vvec fl ((fromRotationAndCamcenter q c).cache.poseInv.transformVector d) = 0 := funext hn
    exact (len_pos.1 (lt_of_lt_of_le (by norm_num) hl)) this
  · have := pow_le_pow_left₀ (by norm_num) hl 2
    refine le_trans ?_ this
    norm_num
    linarith

end

section
variable {f : Format} {lib : Libm f} {m l k : ℕ}

/-- A camera and a pixel in range: rotation of unit norm up to a thousandth; centre at most `2^k`; intrinsic parameters
and pixel at most `2^m`; focal lengths or scales at least `2^-l`. -/
def View.InRange (m l k : ℕ) : View (RustFloat f lib) → Prop
  | .perspective o => NearUnit lib (1 / 1000) o.rotation ∧ (∀ a, Flt.Bounded (f := f) (2 ^ k) (o.camcenter a)) ∧
      (∀ y ∈ [o.params.fx, o.params.fy, o.params.skew, o.params.cx, o.params.cy], Flt.Bounded (f := f) (2 ^ m) y) ∧
      (∀ a, Flt.Bounded (f := f) (2 ^ m) (o.pixel.data 0 a)) ∧
      1 / 2 ^ l ≤ |Flt.val (f := f) o.params.fx| ∧ 1 / 2 ^ l ≤ |Flt.val (f := f) o.params.fy|
  | .orthographic o => NearUnit lib (1 / 1000) o.rotation ∧ (∀ a, Flt.Bounded (f := f) (2 ^ k) (o.camcenter a)) ∧
      (∀ y ∈ [o.params.sx, o.params.sy, o.params.cx, o.params.cy], Flt.Bounded (f := f) (2 ^ m) y) ∧
      (∀ a, Flt.Bounded (f := f) (2 ^ m) (o.pixel.data 0 a)) ∧
      1 / 2 ^ l ≤ |Flt.val (f := f) o.params.sx| ∧ 1 / 2 ^ l ≤ |Flt.val (f := f) o.params.sy|

/-- Every camera and pixel in range gives a usable ray. -/
theorem View.InRange.safeRay (hu : f.u ≤ 1 / 10 ^ 7) (hω : f.ω ≤ 1 / 100) {v : View (RustFloat f lib)}
    (h : v.InRange m l k) (hm : 2 * m + 2 * l + 3 ≤ k) (hk : k + 15 ≤ (RustFloat.range f lib).top) :
    SafeRay (RustFloat.rounding f lib) (k + 15) v.ray := by
  set fl := RustFloat.rounding f lib with hfl
  rcases v with o | o
  · obtain ⟨hq, hc, hp, hpx, hx, hy⟩ := h
    have hd := c77_pixel_to_camera (m := m) (l := l) (RustFloat.range f lib) o.params
      (fun y hy => (hp y hy).inRange le_rfl) hx hy o.pixel 0 (fun a => (hpx a).inRange le_rfl) (by omega)
    show SafeRay fl (k + 15) o.ray
    rw [Observation.ray, pixelRay_eq]
    refine safe_world_ray (RustFloat.range f lib) hu hω (hq.inRange (by norm_num)) hq.quatNormSq
      (fun a => (hc a).inRange le_rfl) (fun _ => InRange.lit_zero fl) (fun a => (hd a).mono hm) ?_ hk
    have e : |fl.val (((IntrinsicParametersPerspective.ofParams o.params).pixelToCamera o.pixel).data 0 2)| ≤ _ :=
      abs_coord_le (vvec fl (((IntrinsicParametersPerspective.ofParams o.params).pixelToCamera o.pixel).data 0)) 2
    rw [(c48_direction_z fl o.params o.pixel 0).2, abs_one] at e
    exact e
  · obtain ⟨hq, hc, hp, hpx, hx, hy⟩ := h
    have hd := c77_orthographic_pixel_to_camera (m := m) (l := l) (RustFloat.range f lib) o.params
      (fun y hy => (hp y hy).inRange le_rfl) hx hy o.pixel 0 (fun a => (hpx a).inRange le_rfl) (by omega)
    show SafeRay fl (k + 15) o.ray
    rw [ParallelView.ray_eq]
    refine safe_world_ray (RustFloat.range f lib) hu hω (hq.inRange (by norm_num)) hq.quatNormSq
      (fun a => (hc a).inRange le_rfl) (fun a => (hd a).mono (by omega)) (fun b => ?_) ?_ hk
    · fin_cases b
      · exact InRange.zero fl
      · exact InRange.zero fl
      · exact (InRange.one fl).mono (by omega)
    · have e : |fl.val ((![0, 0, 1] : V3 (RustFloat f lib)) 2)| ≤ _ := abs_coord_le (vvec fl ![0, 0, 1]) 2
      rw [show fl.val ((![0, 0, 1] : V3 (RustFloat f lib)) 2) = 1 from fl.one.2, abs_one] at e
      exact e

end

/-- C92 in `f64`: two or more cameras of either kind with any pixels.  Intrinsic parameters and pixels are at most
`2^120` in magnitude, focal lengths and scales at least `2^-120`, centres at most `2^484`. -/
theorem c92_f64 {lib lib' : Libm Format.b64} {vs : List (View (F64 lib))} (h2 : 2 ≤ vs.length)
    (hl : vs.length ≤ 2 ^ 30) (hv : ∀ v ∈ vs, v.InRange 120 120 484) :
    ∃ pt, bestIntersectionOfRays (Svd3.svd : TrySvd (F64 lib')) (vs.map View.ray) = .ok pt ∧
      ∀ j, Flt.isFinite (f := .b64) (pt.data 0 j) := by
  refine c83_f64_finite (by rw [List.length_map]; exact h2) (by rw [List.length_map]; exact hl) fun r hr => ?_
  obtain ⟨v, hm, rfl⟩ := List.mem_map.1 hr
  have := (hv v hm).safeRay (by rw [Format.u_b64]; norm_num) (Format.ω_b64.trans (by norm_num)) (by norm_num)
    (by show _ ≤ 1023; norm_num)
  exact ⟨fun a => (this.center a).mono (by norm_num), fun a => (this.direction a).mono (by norm_num), this.ne, this.big⟩

/-- C92 in `f32`: intrinsic parameters and pixels at most `2^17`, focal lengths and scales at least `1/16`, centres at
most `2^45`. -/
theorem c92_f32 {lib : Libm Format.b32} {lib' : Libm Format.b64} {vs : List (View (F32 lib))} (h2 : 2 ≤ vs.length)
    (hl : vs.length ≤ 2 ^ 30) (hv : ∀ v ∈ vs, v.InRange 17 4 45) :
    ∃ pt, bestIntersectionOfRays (Svd3.svd : TrySvd (F64 lib')) (vs.map View.ray) = .ok pt ∧
      ∀ j, Flt.isFinite (f := .b32) (pt.data 0 j) := by
  refine c83_f32_finite (by rw [List.length_map]; exact h2) (by rw [List.length_map]; exact hl) fun r hr => ?_
  obtain ⟨v, hm, rfl⟩ := List.mem_map.1 hr
  exact (hv v hm).safeRay (by rw [Format.u_b32]; norm_num) (by rw [Format.ω_b32]; norm_num) (by norm_num)
    (by show _ ≤ 127; norm_num)

/-- Non-vacuity of C92: the same camera twice, with the same pixel, and an orthographic camera. -/
example {lib lib' : Libm Format.b64} (p : Fin 10) :
    ∃ pt, bestIntersectionOfRays (Svd3.svd : TrySvd (F64 lib'))
        [(sampleView lib 0 p).ray, (sampleView lib 0 p).ray, (sampleParallel lib p).ray] = .ok pt ∧
      ∀ j, Flt.isFinite (f := .b64) (pt.data 0 j) := by
  have big : ∀ n, 4 ≤ n → (9 : ℝ) ≤ 2 ^ n := fun n hn =>
    le_trans (by norm_num) (pow_le_pow_right₀ (by norm_num) hn : (2 : ℝ) ^ 4 ≤ _)
  have b : ∀ (k : Fin 10) n, 4 ≤ n → Flt.Bounded (f := .b64) (2 ^ n) (digit lib k) := fun k n hn =>
    ⟨trivial, by
      rw [val_digit lib, abs_of_nonneg (Nat.cast_nonneg _)]
      exact le_trans (by exact_mod_cast Nat.lt_succ_iff.1 k.2) (big n hn)⟩
  have v1 : Flt.val (f := .b64) (digit lib 1) = 1 := (val_digit lib _).trans (by norm_num)
  have v0 : Flt.val (f := .b64) (digit lib 0) = 0 := (val_digit lib _).trans (by norm_num)
  have one : (1 : ℝ) / 2 ^ 120 ≤ |Flt.val (f := .b64) (digit lib 1)| := by
    rw [v1, abs_one]; exact (div_le_one (by positivity)).2 (one_le_pow₀ (by norm_num))
  have rot : |Flt.val (f := .b64) (digit lib 1) ^ 2 + Flt.val (f := .b64) (digit lib 0) ^ 2 +
      Flt.val (f := .b64) (digit lib 0) ^ 2 + Flt.val (f := .b64) (digit lib 0) ^ 2 - 1| ≤ 1 / 1000 := by
    rw [v1, v0]; norm_num
  have h1 : (View.perspective (sampleView lib 0 p)).InRange 120 120 484 := by
    refine ⟨⟨trivial, trivial, trivial, trivial, rot⟩, fun a => ?_, fun y hy => ?_, fun a => ?_, one, one⟩
    · fin_cases a <;> exact b _ _ (by norm_num)
    · simp only [List.mem_cons, List.not_mem_nil, or_false] at hy
      rcases hy with rfl | rfl | rfl | rfl | rfl <;> exact b _ _ (by norm_num)
    · fin_cases a <;> exact b _ _ (by norm_num)
  have h2 : (View.orthographic (sampleParallel lib p)).InRange 120 120 484 := by
    refine ⟨⟨trivial, trivial, trivial, trivial, rot⟩, fun a => ?_, fun y hy => ?_, fun a => ?_, one, one⟩
    · fin_cases a <;> exact b _ _ (by norm_num)
    · simp only [List.mem_cons, List.not_mem_nil, or_false] at hy
      rcases hy with rfl | rfl | rfl | rfl <;> exact b _ _ (by norm_num)
    · fin_cases a <;> exact b _ _ (by norm_num)
  exact c92_f64 (lib' := lib') (vs := [.perspective (sampleView lib 0 p), .perspective (sampleView lib 0 p),
    .orthographic (sampleParallel lib p)]) (by simp) (by simp) (fun v hv => by
      simp only [List.mem_cons, List.not_mem_nil, or_false] at hv
      rcases hv with rfl | rfl | rfl
      · exact h1
      · exact h1
      · exact h2)

end CamGeom
