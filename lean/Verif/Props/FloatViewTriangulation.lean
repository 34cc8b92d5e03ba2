import Verif.Props.FloatTriangulation
import Verif.Props.FloatView

/-!
# C104: triangulation in `f64` with cameras placed by `from_view`

The cameras are given by what the user passes to `from_view`: the camera centre, the point looked at and the up
vector.  The rotation is the one the crate computes.
-/

namespace CamGeom
open Rounding ExtrinsicParameters Spec Matrix

/-- A perspective camera placed by `from_view` and a pixel. -/
structure Sighting (R : Type) where
  params : PerspectiveParams R
  camcenter : V3 R
  lookat : V3 R
  up : V3 R
  pixel : Pixels R 1

section
variable {R : Type} [Scalar R]

/-- The camera. -/
def Sighting.camera (s : Sighting R) : Camera R (IntrinsicParametersPerspective R) :=
  ⟨IntrinsicParametersPerspective.ofParams s.params, fromView nalgebra s.camcenter s.lookat s.up⟩

/-- The ray the crate computes for the pixel: `camera.pixel_to_world(&pixel).to_single_ray()`. -/
def Sighting.ray (s : Sighting R) : Ray WorldFrame R :=
  RayBundle.toSingleRay (B := SharedOriginRayBundle R) (s.camera.pixelToWorld s.pixel)

/-- The camera by its computed rotation. -/
def Sighting.observation (s : Sighting R) : Observation R where
  params := s.params
  rotation := (fromView nalgebra s.camcenter s.lookat s.up).pose.rotation
  camcenter := s.camcenter
  pixel := s.pixel

theorem Sighting.ray_eq (s : Sighting R) : s.ray = s.observation.ray := rfl

end

section
variable {f : Format} {lib : Libm f}

/-- The camera centre as real numbers. -/
noncomputable def Sighting.center (s : Sighting (RustFloat f lib)) : Vec := (RustFloat.rounding f lib).vec s.camcenter

/-- Camera coordinates of the point `x` in the exact view. -/
noncomputable def Sighting.position (s : Sighting (RustFloat f lib)) (x : Vec) : Vec :=
  ((fromView nalgebra s.center ((RustFloat.rounding f lib).vec s.lookat)
    ((RustFloat.rounding f lib).vec s.up)).worldToCamera (.single x)).data 0

/-- The pixel of the point `x` in the exact view. -/
noncomputable def Sighting.projection (s : Sighting (RustFloat f lib)) (x : Vec) : Fin 2 → ℝ :=
  Spec.pinhole (Flt.val (f := f) s.params.fx) (Flt.val (f := f) s.params.fy)
    (Flt.val (f := f) s.params.skew) (Flt.val (f := f) s.params.cx) (Flt.val (f := f) s.params.cy)
    (s.position x)

/-- The pixel is finite and within `σ` focal lengths of the projection of the point in the exact view. -/
structure Sighted (σ : ℝ) (x : Vec) (s : Sighting (RustFloat f lib)) : Prop where
  finite : ∀ a, Flt.isFinite (f := f) (s.pixel.data 0 a)
  u : |Flt.val (f := f) (s.pixel.data 0 0) - s.projection x 0| ≤ σ * |Flt.val (f := f) s.params.fx|
  v : |Flt.val (f := f) (s.pixel.data 0 1) - s.projection x 1| ≤ σ * |Flt.val (f := f) s.params.fy|

end

section
variable {lib : Libm Format.b64}

/-- Views that are covered: well posed (C79), coordinates up to `M`, focal lengths from 1 to `2^20` pixels, skew at
most the focal length and principal point within ten focal lengths; in the exact view the point is at a depth of at
least `M / 50`, with slopes at most 9. -/
structure GoodSight (M : ℝ) (x : Vec) (s : Sighting (F64 lib)) : Prop where
  view : WellPosed lib 20 s.camcenter s.lookat s.up
  center : ∀ a, Flt.Bounded (f := .b64) M (s.camcenter a)
  params : ∀ y ∈ [s.params.fx, s.params.fy, s.params.skew, s.params.cx, s.params.cy],
    Flt.Bounded (f := .b64) (2 ^ 20) y
  fx : 1 ≤ |Flt.val (f := .b64) s.params.fx|
  fy : 1 ≤ |Flt.val (f := .b64) s.params.fy|
  skew : |Flt.val (f := .b64) s.params.skew| ≤ |Flt.val (f := .b64) s.params.fx|
  cx : |Flt.val (f := .b64) s.params.cx| ≤ 10 * |Flt.val (f := .b64) s.params.fx|
  cy : |Flt.val (f := .b64) s.params.cy| ≤ 10 * |Flt.val (f := .b64) s.params.fy|
  depth : M / 50 ≤ |s.position x 2|
  slope0 : |s.position x 0 / s.position x 2| ≤ 9
  slope1 : |s.position x 1 / s.position x 2| ≤ 9

variable {M σ : ℝ} {x : Vec} {s : Sighting (F64 lib)}

/-! ### The computed rotation -/

/-- A rotation by a quaternion near a unit quaternion. -/
theorem rotate_close {η B : ℝ} {q Q : Quat ℝ} (hQ : UnitQuat Q) (h : qlen (qdiff q Q) ≤ η) (hη : η ≤ 1 / 100)
    {v : Vec} (hv : ∀ b, |v b| ≤ B) (a : Fin 3) : |q.rotate v a - Q.rotate v a| ≤ 61 / 10 * η * B := by
  have h0 := qlen_nonneg (qdiff q Q)
  have hη0 : 0 ≤ η := h0.trans h
  have hB : 0 ≤ B := (abs_nonneg _).trans (hv 0)
  have hq := qlen_le_add_diff q Q
  rw [qlen_unit hQ] at hq
  have e : ∀ p : Quat ℝ, p.rotate v a = Mat.mulVec3 p.toRotationMatrix v a - (quatNormSq p - 1) * v a := by
    intro p
    rw [toRotationMatrix_defect, Pi.add_apply, Pi.smul_apply, smul_eq_mul, add_sub_cancel_right]
  rw [e q, e Q, show quatNormSq Q - 1 = 0 from sub_eq_zero.2 hQ]
  have k : qlen (qdiff q Q) * (qlen q + qlen Q) ≤ 201 / 100 * η := by
    rw [qlen_unit hQ]
    have := mul_le_mul h (show qlen q + 1 ≤ 201 / 100 by linarith) (by linarith [qlen_nonneg q]) hη0
    linarith
  have m1 := (rotation_dist q Q v a).trans (mul_le_mul k (len_le_entries hv) (len_nonneg _) (by linarith))
  have m2 := (normSq_dist q Q).trans k
  rw [show quatNormSq Q = 1 from hQ] at m2
  have m3 : |(quatNormSq q - 1) * v a| ≤ 201 / 100 * η * B := by
    rw [abs_mul]
    exact mul_le_mul m2 (hv a) (abs_nonneg _) (by linarith)
  have t1 := abs_le.1 m1
  have t2 := abs_le.1 m3
  have := mul_nonneg hη0 hB
  rw [abs_le]
  constructor <;> linarith [t1.1, t1.2, t2.1, t2.2]

/-- The rotation computed by `from_view` in `f64` is close to a unit quaternion of the exact view. -/
theorem GoodSight.rotation (hl : lib.Accurate) (g : GoodSight M x s) :
    ∃ Q, UnitQuat Q ∧ (∀ y, s.position y = Q.rotate (y - s.center)) ∧
      qlen (qdiff ((RustFloat.rounding .b64 lib).quat s.observation.rotation) Q) ≤ 8 / 10 ^ 14 ∧
      NearUnit lib (16 / 10 ^ 14) s.observation.rotation := by
  set fl := RustFloat.rounding .b64 lib with hfl
  have hω : Format.b64.ω ≤ 1 / 2 ^ 30 := Format.ω_b64.trans (by norm_num)
  have hu : 11000 * Format.b64.u ≤ 1 / 2 := by rw [Format.u_b64]; norm_num
  have eu : fl.u = 1 / 2 ^ 53 := Format.u_b64
  have hs := g.view.angle
  obtain ⟨h1, h2, h3⟩ := float_view Format.sub64_b64 Format.cutoff_b64 hl g.view (by show _ ≤ 1023; norm_num) hu hω
  have hs0 : 0 < sine (fl.vec s.lookat - fl.vec s.camcenter) (fl.vec s.up) := by linarith
  obtain ⟨Q, hQ, hrot, hn⟩ := view_quaternion (RustFloat.roundingMore lib Format.cutoff_b64)
    (RustFloat.roundingView Format.sub64_b64 hl)
    (RustFloat.four_le_big _ _ (by show (3 : ℤ) ≤ 1024; norm_num)) (hω.trans (by norm_num)) h1 rfl hs0
    (by rw [eu]; norm_num; linarith) h2
  have hsu : 11000 * fl.u ≤ sine (fl.vec s.lookat - fl.vec s.camcenter) (fl.vec s.up) := by
    rw [eu]; norm_num; linarith
  have hη : fl.u / sine (fl.vec s.lookat - fl.vec s.camcenter) (fl.vec s.up) ≤ 2 / 2 ^ 53 := by
    rw [div_le_iff₀ hs0, eu]
    norm_num
    linarith
  have hn' : qlen (qdiff (fl.quat s.observation.rotation) Q) ≤ 8 / 10 ^ 14 :=
    hn.trans ((mul_le_mul_of_nonneg_left hη (by norm_num)).trans (by norm_num))
  have hnorm : |quatNormSq (fl.quat s.observation.rotation) - 1| ≤ 16 / 10 ^ 14 := by
    have h := normSq_dist (fl.quat s.observation.rotation) Q
    rw [show quatNormSq Q = 1 from hQ] at h
    refine h.trans ((qlen_bound hQ hn hs0 hsu).2.1.trans ?_)
    exact (mul_le_mul_of_nonneg_left hη (by norm_num)).trans (by norm_num)
  refine ⟨Q, hQ, fun y => ?_, hn', h2.w, h2.i, h2.j, h2.k, ?_⟩
  · have hDU : (fl.vec s.lookat - fl.vec s.camcenter) ⨯₃ fl.vec s.up ≠ 0 := by
      intro h
      rw [sine, h, len_eq_zero.2 rfl, zero_div] at hs0
      exact lt_irrefl _ hs0
    obtain ⟨Q', hQ', hv, -⟩ := fromView_spec nalgebra_rot hDU
    rw [hv] at hrot
    have hrot' : Q'.toRotationMatrix = Q.toRotationMatrix := hrot
    have er : ∀ v, Q'.rotate v = Q.rotate v := by
      intro v
      have a1 := toRotationMatrix_defect Q' v
      have a2 := toRotationMatrix_defect Q v
      rw [show quatNormSq Q' - 1 = 0 from sub_eq_zero.2 hQ', zero_smul, _root_.add_zero] at a1
      rw [show quatNormSq Q - 1 = 0 from sub_eq_zero.2 hQ, zero_smul, _root_.add_zero] at a2
      rw [← a1, ← a2, hrot']
    have ep : s.position y = ((fromRotationAndCamcenter Q' s.center).worldToCamera (.single y)).data 0 := by
      rw [Sighting.position]
      exact congrArg (fun e : ExtrinsicParameters ℝ => (e.worldToCamera (.single y)).data 0) hv
    rw [ep, pose_apply, translation_eq, show quatNormSq Q' - 1 = 0 from sub_eq_zero.2 hQ', zero_smul,
      _root_.add_zero, ← sub_eq_add_neg, ← rotate_sub, er]
  · have e : quatNormSq (fl.quat s.observation.rotation) = Flt.val (f := .b64) s.observation.rotation.w ^ 2 +
        Flt.val (f := .b64) s.observation.rotation.i ^ 2 + Flt.val (f := .b64) s.observation.rotation.j ^ 2 +
        Flt.val (f := .b64) s.observation.rotation.k ^ 2 := by unfold CamGeom.quatNormSq; rfl
    rw [← e]
    exact hnorm

/-! ### The computed direction in the camera frame -/

/-- The same intrinsic parameters and pixel in the camera frame. -/
noncomputable def Sighting.plain (s : Sighting (F64 lib)) : Observation (F64 lib) where
  params := s.params
  rotation := ⟨digit lib 1, digit lib 0, digit lib 0, digit lib 0⟩
  camcenter := fun _ => digit lib 0
  pixel := s.pixel

theorem Sighting.plain_position (s : Sighting (F64 lib)) (X : Vec) : s.plain.position X = X := by
  have h0 : Flt.val (f := .b64) (digit lib 0) = 0 := (val_digit lib _).trans (by norm_num)
  have h1 : Flt.val (f := .b64) (digit lib 1) = 1 := (val_digit lib _).trans (by norm_num)
  have e : (RustFloat.rounding .b64 lib).quat s.plain.rotation = ⟨1, 0, 0, 0⟩ := by
    show Quat.mk (Flt.val (f := .b64) (digit lib 1)) (Flt.val (f := .b64) (digit lib 0))
      (Flt.val (f := .b64) (digit lib 0)) (Flt.val (f := .b64) (digit lib 0)) = _
    rw [h0, h1]
  have r : ∀ v : Vec, (⟨1, 0, 0, 0⟩ : Quat ℝ).rotate v = v := by
    intro v
    funext a
    fin_cases a <;> simp [Quat.rotate, V3.add, V3.scale, V3.cross, Quat.vector]
  have z : (RustFloat.rounding .b64 lib).vec s.plain.camcenter = 0 := funext fun _ => h0
  have n : quatNormSq (⟨1, 0, 0, 0⟩ : Quat ℝ) = 1 := by simp [quatNormSq]
  rw [Observation.position, pose_apply, translation_eq, e, r, r, z, n, sub_self, zero_smul, _root_.add_zero, neg_zero,
    _root_.add_zero]

theorem GoodSight.plain (g : GoodSight M x s) : GoodView (50 * |s.position x 2|) (s.position x) s.plain := by
  have b : ∀ (k : Fin 10) {B : ℝ}, ((k : ℕ) : ℝ) ≤ B → Flt.Bounded (f := .b64) B (digit lib k) := fun k B hk =>
    ⟨trivial, by rw [val_digit lib, abs_of_nonneg (Nat.cast_nonneg _)]; exact hk⟩
  have v1 : Flt.val (f := .b64) (digit lib 1) = 1 := (val_digit lib _).trans (by norm_num)
  have v0 : Flt.val (f := .b64) (digit lib 0) = 0 := (val_digit lib _).trans (by norm_num)
  have z0 := abs_nonneg (s.position x 2)
  refine ⟨⟨trivial, trivial, trivial, trivial, ?_⟩, fun a => b 0 ?_, g.params, g.fx, g.fy, g.skew, g.cx, g.cy, ?_, ?_, ?_⟩
  · show |Flt.val (f := .b64) (digit lib 1) ^ 2 + Flt.val (f := .b64) (digit lib 0) ^ 2 +
      Flt.val (f := .b64) (digit lib 0) ^ 2 + Flt.val (f := .b64) (digit lib 0) ^ 2 - 1| ≤ _
    rw [v1, v0]
    norm_num
  · norm_num
  · rw [s.plain_position]; linarith
  · rw [s.plain_position]; exact g.slope0.trans (by norm_num)
  · rw [s.plain_position]; exact g.slope1.trans (by norm_num)

theorem Sighted.plain (h : Sighted σ x s) : Measured σ (s.position x) s.plain := by
  refine ⟨h.finite, ?_, ?_⟩
  · have := h.u
    rw [Observation.projection, s.plain_position]
    exact this
  · have := h.v
    rw [Observation.projection, s.plain_position]
    exact this

theorem Sighted.nonneg (h : Sighted σ x s) (g : GoodSight M x s) : 0 ≤ σ := h.plain.nonneg g.plain

/-! ### The computed ray -/

/-- A finite ray, not too far out, that passes near the point `x`, in nearly the direction in which the point is seen
from `c`. -/
structure RayTo (M τ η : ℝ) (x c : Vec) (r : Ray WorldFrame (F64 lib)) : Prop where
  safe : SafeRay (RustFloat.rounding .b64 lib) 500 r
  center : ∀ a, |(RustFloat.rounding .b64 lib).val (r.center a)| ≤ (1 + 1 / 10 ^ 8) * M
  apart : x - c ≠ 0
  direction : (vray (RustFloat.rounding .b64 lib) r).direction ≠ 0
  near : ∃ Z : ℝ, Z ≠ 0 ∧ distance x ((vray (RustFloat.rounding .b64 lib) r).center +
      Z • (vray (RustFloat.rounding .b64 lib) r).direction) ≤ τ * M ∧
    len (Z • (vray (RustFloat.rounding .b64 lib) r).direction - (x - c)) ≤ η * len (x - c)

/-- Finite rays near the point, two of them at a sufficient angle, give the point. -/
theorem triangulate_near {lib' : Libm Format.b64} {τ η : ℝ} {α : Type} {os : List α} (h2 : 2 ≤ os.length)
    (hM1 : 1 ≤ M) {center : α → Vec} {ray : α → Ray WorldFrame (F64 lib)} (hr : ∀ o ∈ os, RayTo M τ η x (center o) (ray o))
    {a b : α} (ha : a ∈ os) (hb : b ∈ os) {κ ρ : ℝ}
    (hκ : κ ≤ 1 - absCos (x - center a) (x - center b) - 4 * η - 14 / 10000000 * os.length)
    (hκ0 : 101 / 1000000000 < κ) (hρ : ρ = τ * M * √(os.length / κ)) :
    ∃ pt, bestIntersectionOfRays (Svd3.svd : TrySvd (F64 lib')) (os.map ray) = .ok pt ∧
      (∀ j, Flt.isFinite (f := .b64) (pt.data 0 j)) ∧
      distance (fun j => Flt.val (f := .b64) (pt.data 0 j)) x ≤
        ρ + 17 / 10000000 * os.length / κ * (M + (len x + ρ)) := by
  set fl := RustFloat.rounding .b64 lib with hfl
  have hN : (2 : ℝ) ≤ os.length := by exact_mod_cast h2
  have hlen : (os.map ray).length = os.length := List.length_map ..
  have Ra := hr a ha
  have Rb := hr b hb
  obtain ⟨Za, za, ta, la⟩ := Ra.near
  obtain ⟨Zb, zb, -, lb⟩ := Rb.near
  have hcos := absCos_near Ra.apart Rb.apart (smul_ne_zero za Ra.direction) (smul_ne_zero zb Rb.direction) la lb
  rw [absCos_smul za zb] at hcos
  set c := absCos (vray fl (ray a)).direction (vray fl (ray b)).direction with hc
  have τ0 : 0 ≤ τ * M := (len_nonneg _).trans ta
  have hκ' : κ ≤ 1 - c - 14 / 10000000 * os.length := by linarith
  obtain ⟨pt, p1, p2, p3⟩ := c84_f64_near_point (lib' := lib') (rays := os.map ray) (by rw [hlen]; exact h2)
    (fun r h => by
      obtain ⟨o, ho, rfl⟩ := List.mem_map.1 h
      exact (hr o ho).safe)
    (M := (1 + 1 / 10 ^ 8) * M)
    (le_trans (by rw [div_le_one (by positivity)]; exact one_le_pow₀ (by norm_num)) (hM1.trans (by linarith)))
    (fun r h => by
      obtain ⟨o, ho, rfl⟩ := List.mem_map.1 h
      exact (hr o ho).center) (List.mem_map_of_mem ha) (List.mem_map_of_mem hb) hc (κ := 1 - c - 14 / 10000000 * os.length) (by rw [hlen]) (by linarith) (x := x)
    (τ := τ * M) (fun r h => by
      obtain ⟨o, ho, rfl⟩ := List.mem_map.1 h
      obtain ⟨Z, -, h, -⟩ := (hr o ho).near
      exact (distTo_le (show _ ∈ line _ _ from ⟨Z, rfl⟩)).trans h) rfl
  refine ⟨pt, p1, p2, p3.trans ?_⟩
  rw [hlen]
  have κ0 : 0 < κ := by linarith
  have l0 := len_nonneg x
  have r1 : τ * M * √(os.length / (1 - c)) ≤ ρ := by
    rw [hρ]
    refine mul_le_mul_of_nonneg_left (Real.sqrt_le_sqrt ?_) τ0
    exact div_le_div_of_nonneg_left (by linarith) κ0 (by linarith)
  have r0 : 0 ≤ τ * M * √(os.length / (1 - c)) := mul_nonneg τ0 (Real.sqrt_nonneg _)
  have r2 : 16 / 10000000 * (os.length : ℝ) / (1 - c - 14 / 10000000 * os.length) ≤
      16 / 10000000 * os.length / κ := div_le_div_of_nonneg_left (by linarith) κ0 hκ'
  have r3 : 0 ≤ (os.length : ℝ) / κ := div_nonneg (by linarith) κ0.le
  have r4 := mul_le_mul r2 (show (1 + 1 / 10 ^ 8) * M + (len x + τ * M * √(os.length / (1 - c))) ≤
    (1 + 1 / 10 ^ 8) * (M + (len x + ρ)) by nlinarith) (by positivity) (by rw [mul_div_assoc]; positivity)
  refine (add_le_add r1 r4).trans ?_
  rw [mul_div_assoc, mul_div_assoc]
  have r5 := mul_nonneg r3 (show 0 ≤ M + (len x + ρ) by linarith)
  norm_num at r5 ⊢
  linarith

/-- A finite ray, not too far out, that comes near the point `x` at the parameter `Z`, in nearly the direction in which
the point is seen from `c`. -/
structure RayAlong (M τ η Z : ℝ) (x c : Vec) (r : Ray WorldFrame (F64 lib)) : Prop where
  safe : SafeRay (RustFloat.rounding .b64 lib) 500 r
  center : ∀ a, |(RustFloat.rounding .b64 lib).val (r.center a)| ≤ (1 + 1 / 10 ^ 8) * M
  apart : x - c ≠ 0
  length : 8 / 10 ≤ len (vray (RustFloat.rounding .b64 lib) r).direction
  depth : Z ≠ 0
  near : distance x ((vray (RustFloat.rounding .b64 lib) r).center + Z • (vray (RustFloat.rounding .b64 lib) r).direction) ≤ τ * M
  along : len (Z • (vray (RustFloat.rounding .b64 lib) r).direction - (x - c)) ≤ η * len (x - c)

theorem RayAlong.rayTo {τ η Z : ℝ} {c : Vec} {r : Ray WorldFrame (F64 lib)} (h : RayAlong M τ η Z x c r) :
    RayTo M τ η x c r :=
  ⟨h.safe, h.center, h.apart, len_pos.1 (by linarith [h.length]), Z, h.depth, h.near, h.along⟩

/-- The computed ray of a pixel measured in the exact view. -/
theorem Sighted.rayAlong (hl : lib.Accurate) (h : Sighted σ x s) (g : GoodSight M x s) (hσ : σ ≤ 1 / 100) (hM1 : 1 ≤ M)
    (hM2 : M ≤ 2 ^ 20) (hx : ∀ a, |x a| ≤ M) : RayAlong M (12 * σ + 52 / 10 ^ 12) (3 * σ + 12 / 10 ^ 12) (s.position x 2) x s.center s.ray := by
  set fl := RustFloat.rounding .b64 lib with hfl
  have eu : fl.u = 1 / 2 ^ 53 := Format.u_b64
  have hω : fl.ω ≤ 1 / 10 ^ 100 := Format.ω_b64
  have hσ0 := h.nonneg g
  have hM0 : 0 ≤ M := by linarith
  obtain ⟨Q, hQ, hpos, hn, hunit⟩ := g.rotation hl
  have hq := hunit.quatNormSq
  obtain ⟨df, s0, s1, s2⟩ := h.plain.slope g.plain hσ
  rw [s.plain_position] at s0 s1
  have eslope : s.plain.slope = s.observation.slope := rfl
  rw [eslope] at df s0 s1 s2
  set d := s.observation.slope with hd'
  set q := s.observation.rotation with hq'
  set X := s.position x with hX
  set Z := X 2 with hZ
  have eX : X = Q.rotate (x - s.center) := hpos x
  have hdepth : M / 50 ≤ |Z| := g.depth
  have hZ0 : Z ≠ 0 := by
    intro h0
    rw [h0, abs_zero] at hdepth
    linarith
  have z0 : 0 < |Z| := abs_pos.2 hZ0
  have d0 : |fl.val (d 0)| ≤ 11 := by
    have e := abs_sub_abs_le_abs_sub (fl.val (d 0)) (X 0 / X 2) |>.trans s0
    have := g.slope0
    norm_num at e ⊢
    linarith
  have d1 : |fl.val (d 1)| ≤ 11 := by
    have e := abs_sub_abs_le_abs_sub (fl.val (d 1)) (X 1 / X 2) |>.trans s1
    have := g.slope1
    norm_num at e ⊢
    linarith
  have d2 : fl.val (d 2) = 1 := s2
  have hd : ∀ a, |fl.val (d a)| ≤ 11 := by
    intro a
    fin_cases a
    · exact d0
    · exact d1
    · show |fl.val (d 2)| ≤ 11
      rw [d2]; norm_num
  have hin : ∀ a, InRange fl 20 (d a) := fun a => ⟨df a, (hd a).trans (by norm_num)⟩
  have hci : ∀ a, InRange fl 20 (s.camcenter a) := fun a => (g.center a).inRange hM2
  have hqi := hunit.inRange (by norm_num)
  have hrc : ∀ a, InRange fl 35 (s.ray.center a) := by
    intro a
    rw [s.ray_eq, Observation.ray, pixelRay_eq]
    exact (hqi.poseInv (RustFloat.range .b64 lib) hci (v := fun _ => Scalar.lit 0)
      (fun _ => InRange.lit_zero fl) (by show _ ≤ 1023; norm_num) a).1
  have hrd : ∀ a, InRange fl 27 (s.ray.direction a) := by
    intro a
    rw [s.ray_eq, Observation.ray, pixelRay_eq]
    exact (hqi.poseInv (RustFloat.range .b64 lib) hci hin (by show _ ≤ 1023; norm_num) a).2
  have hε : (16 : ℝ) / 10 ^ 14 ≤ 1 / 10 ^ 9 := by norm_num
  obtain ⟨r, hr⟩ : ∃ r, r = vray fl s.ray := ⟨_, rfl⟩
  have ec : ∀ a, r.center a = fl.val (s.ray.center a) := fun a => by rw [hr]; rfl
  have ed : ∀ a, r.direction a = fl.val (s.ray.direction a) := fun a => by rw [hr]; rfl
  -- the centre
  have e1 : len (r.center - (fl.quat q).inverse.rotate (-(fromRotationAndCamcenter (fl.quat q) s.center).translation)) ≤
      2 * (3 / 10 ^ 13 * M) := by
    refine len_le_entries fun a => ?_
    have hf := (hrc a).1
    rw [Pi.sub_apply, ec]
    rw [s.ray_eq, Observation.ray, pixelRay_eq] at hf ⊢
    exact rayCenter_near_f64 eu hω hM1 hq hε (fun a => (g.center a).2) a hf
  have lx : len x ≤ 2 * M := len_le_entries hx
  have lc : len s.center ≤ 2 * M := len_le_entries fun a => (g.center a).2
  have hG : len (r.center - s.center) ≤ 3 / 10 ^ 12 * M := by
    have e5 := center_exact hq (by norm_num) s.center
    have := distance_triangle r.center
      ((fl.quat q).inverse.rotate (-(fromRotationAndCamcenter (fl.quat q) s.center).translation)) s.center
    simp only [distance] at this e5
    refine this.trans ((add_le_add e1 e5).trans ?_)
    norm_num
    linarith
  -- the direction
  have e2 : len (r.direction - Q.inverse.rotate (fl.vec d)) ≤ 2 * (55 / 10 ^ 13) := by
    refine len_le_entries fun a => ?_
    have hf := (hrd a).1
    rw [Pi.sub_apply, ed]
    rw [s.ray_eq, Observation.ray, pixelRay_eq] at hf ⊢
    have i1 := rayDirection_near_f64 eu hω hq hε hd a hf
    have i2 := rotate_close (q := (fl.quat q).inverse) (Q := Q.inverse) (η := 8 / 10 ^ 14) (B := 11)
      (unitQuat_inverse hQ) (by rw [qlen_diff_inverse]; exact hn) (by norm_num) (v := fl.vec d) hd a
    refine (abs_sub_le _ _ _).trans ((add_le_add i1 i2).trans ?_)
    norm_num
  have e4 : len (Z • fl.vec d - X) ≤ |Z| * (2 * σ + 5 / 10 ^ 14) + |Z| * (σ + 1 / 10 ^ 14) := by
    have key : ∀ a, (Z • fl.vec d - X) a = Z * (fl.val (d a) - X a / X 2) := by
      intro a
      show Z * fl.val (d a) - X a = _
      rw [mul_sub, hZ, mul_div_cancel₀ _ hZ0]
    refine len_le_two ?_ ?_ ?_
    · rw [key, abs_mul]
      exact mul_le_mul_of_nonneg_left s0 (abs_nonneg _)
    · rw [key, abs_mul]
      exact mul_le_mul_of_nonneg_left s1 (abs_nonneg _)
    · rw [key, d2, div_self hZ0, sub_self, MulZeroClass.mul_zero]
  have hZL : |Z| ≤ len (x - s.center) := by
    have := abs_apply_le_len X 2
    rwa [eX, len_rotate hQ, ← eX] at this
  have hL : len (x - s.center) ≤ 4 * M := by
    have := len_add_le x (-s.center)
    rw [len_neg, ← sub_eq_add_neg] at this
    exact this.trans (by linarith)
  have Lp : 0 < len (x - s.center) := by linarith
  have hD : len (Z • r.direction - (x - s.center)) ≤ (3 * σ + 12 / 10 ^ 12) * |Z| := by
    have e : Z • r.direction - (x - s.center) =
        Z • (r.direction - Q.inverse.rotate (fl.vec d)) + Q.inverse.rotate (Z • fl.vec d - X) := by
      rw [rotate_sub, rotate_smul, smul_sub, eX, inverse_rotate_rotate hQ]
      abel
    rw [e]
    refine (len_add_le _ _).trans ?_
    rw [len_smul, len_rotate (unitQuat_inverse hQ)]
    have i1 := mul_le_mul_of_nonneg_left e2 (abs_nonneg Z)
    refine (add_le_add i1 e4).trans ?_
    norm_num
    linarith
  have hDL : len (Z • r.direction - (x - s.center)) ≤ (3 * σ + 12 / 10 ^ 12) * len (x - s.center) :=
    hD.trans (mul_le_mul_of_nonneg_left hZL (by positivity))
  have hE : distance x (r.center + Z • r.direction) ≤ (12 * σ + 52 / 10 ^ 12) * M := by
    have e : r.center + Z • r.direction - x = (r.center - s.center) + (Z • r.direction - (x - s.center)) := by abel
    rw [distance, len_sub_comm, e]
    refine (len_add_le _ _).trans ((add_le_add hG hDL).trans ?_)
    have := mul_le_mul_of_nonneg_left hL (show 0 ≤ 3 * σ + 12 / 10 ^ 12 by positivity)
    linarith
  have hD' : 8 / 10 ≤ len r.direction := by
    have i1 := len_add_le (x - s.center - Z • r.direction) (Z • r.direction)
    rw [sub_add_cancel, len_smul, len_sub_comm (x - s.center) (Z • r.direction)] at i1
    have i3 : (3 * σ + 12 / 10 ^ 12) * |Z| ≤ 1 / 10 * |Z| :=
      mul_le_mul_of_nonneg_right (by norm_num; linarith) z0.le
    have i4 : |Z| * (8 / 10) ≤ |Z| * len r.direction := by linarith
    exact le_of_mul_le_mul_left i4 z0
  have hDne : r.direction ≠ 0 := len_pos.1 (by linarith)
  refine ⟨⟨fun a => (hrc a).mono (by norm_num), fun a => (hrd a).mono (by norm_num), ?_, ?_⟩, fun a => ?_,
    len_pos.1 Lp, hr ▸ hD', hZ0, hr ▸ hE, hr ▸ hDL⟩
  · by_contra hn
    push Not at hn
    exact hDne (funext fun a => (ed a).trans (hn a))
  · have : (fun a => fl.val (s.ray.direction a)) = r.direction := funext fun a => (ed a).symm
    rw [this]
    have i1 := pow_le_pow_left₀ (by norm_num) hD' 2
    refine le_trans ?_ i1
    norm_num at hω ⊢
    linarith
  · have i1 := (abs_apply_le_len (r.center - s.center) a).trans hG
    rw [Pi.sub_apply, ec] at i1
    have i2 := abs_sub_abs_le_abs_sub (fl.val (s.ray.center a)) (s.center a)
    have i3 : |s.center a| ≤ M := (g.center a).2
    norm_num at i1 ⊢
    linarith

/-- The camera with the computed rotation sees the point nearly as the exact view does. -/
theorem GoodSight.nearView (hl : lib.Accurate) (g : GoodSight M x s) (hM1 : 1 ≤ M) (hx : ∀ a, |x a| ≤ M) :
    NearView (16 / 10 ^ 14) M x s.observation := by
  set fl := RustFloat.rounding .b64 lib with hfl
  have hM0 : 0 ≤ M := by linarith
  obtain ⟨Q, hQ, hpos, hn, hunit⟩ := g.rotation hl
  have hq := hunit.quatNormSq
  have near : ∀ a, |s.observation.position x a - s.position x a| ≤ 12 / 10 ^ 13 * M := by
    intro a
    have e : s.observation.position x = (fl.quat s.observation.rotation).rotate (x - s.center) -
        (quatNormSq (fl.quat s.observation.rotation) - 1) • s.center := by
      have : s.observation.position x = ((fromRotationAndCamcenter (fl.quat s.observation.rotation)
        s.center).worldToCamera (.single x)).data 0 := rfl
      rw [this, pose_apply, translation_eq, rotate_sub]
      abel
    have hv : ∀ b, |(x - s.center) b| ≤ 2 * M := fun b => by
      refine (abs_sub _ _).trans ?_
      have : |s.center b| ≤ M := (g.center b).2
      linarith [hx b]
    have i1 := rotate_close (q := fl.quat s.observation.rotation) hQ hn (by norm_num) hv a
    have i2 : |(quatNormSq (fl.quat s.observation.rotation) - 1) * s.center a| ≤ 16 / 10 ^ 14 * M := by
      rw [abs_mul]
      exact mul_le_mul hq (g.center a).2 (abs_nonneg _) (by norm_num)
    rw [e, hpos x, Pi.sub_apply, Pi.smul_apply, smul_eq_mul]
    have i3 := abs_le.1 i1
    have i4 := abs_le.1 i2
    have i5 : (61 / 10 * (8 / 10 ^ 14) * (2 * M) : ℝ) + 16 / 10 ^ 14 * M ≤ 12 / 10 ^ 13 * M := by linarith
    rw [abs_le]
    constructor
    · have := i3.1; have := i4.2
      change -_ ≤ (fl.quat s.observation.rotation).rotate (x - s.center) a - _ - _
      linarith
    · have := i3.2; have := i4.1
      change (fl.quat s.observation.rotation).rotate (x - s.center) a - _ - _ ≤ _
      linarith
  have hd := g.depth
  have n2 := near 2
  have hd' : M / 50 - 12 / 10 ^ 13 * M ≤ |s.observation.position x 2| := by
    have := abs_sub_abs_le_abs_sub (s.position x 2) (s.observation.position x 2)
    rw [abs_sub_comm] at this
    linarith
  have hz : 0 < |s.position x 2| := by linarith
  have hz' : 0 < |s.observation.position x 2| := by norm_num at hd'; linarith
  have slope : ∀ a, |s.position x a / s.position x 2| ≤ 9 →
      |s.observation.position x a / s.observation.position x 2| ≤ 10 := by
    intro a h
    rw [abs_div, div_le_iff₀ hz] at h
    rw [abs_div, div_le_iff₀ hz']
    have i1 := (abs_sub_abs_le_abs_sub (s.observation.position x a) (s.position x a)).trans (near a)
    have i2 := abs_sub_abs_le_abs_sub (s.position x 2) (s.observation.position x 2)
    rw [abs_sub_comm] at i2
    norm_num at *
    linarith
  exact ⟨hunit, g.center, g.params, g.fx, g.fy, g.skew, g.cx, g.cy, by norm_num at hd' ⊢; linarith, slope 0 g.slope0,
    slope 1 g.slope1⟩

/-- The computed ray of a pixel computed by `world_to_pixel`. -/
theorem GoodSight.rayTo (hl : lib.Accurate) (g : GoodSight M x s) (hM1 : 1 ≤ M) (hM2 : M ≤ 2 ^ 20)
    (w : Points WorldFrame (F64 lib) 1) (hw : ∀ a, Flt.Bounded (f := .b64) M (w.data 0 a))
    (hx : x = (RustFloat.rounding .b64 lib).vec (w.data 0)) (hp : s.pixel = s.camera.worldToPixel w) :
    RayTo M (15 / 10 ^ 10) (1 / 10 ^ 9) x s.center s.ray := by
  have hM0 : 0 ≤ M := by linarith
  have hxM : ∀ a, |x a| ≤ M := fun a => by rw [hx]; exact (hw a).2
  have gn := g.nearView hl hM1 hxM
  have hm := computed_measured gn (by norm_num) hM1 hM2 w hw hx hp
  obtain ⟨h1, h2, h3, h4, h5, h6, h7, -, -⟩ := hm.rayAtNear gn (by norm_num) (by norm_num) hM1 hM2 hxM _ rfl
  have l0 := len_nonneg (x - s.center)
  refine ⟨h1, fun a => (h2 a).trans (mul_le_mul_of_nonneg_right (by norm_num) hM0), h3, h4, _, h5,
    h6.trans (mul_le_mul_of_nonneg_right (by norm_num) hM0), h7.trans (mul_le_mul_of_nonneg_right (by norm_num) l0)⟩

/-- C104: a point seen by several `f64` cameras placed by `from_view` is recovered from measured pixels.  With every
pixel within `σ` focal lengths of the projection of the point in the exact view, all coordinates at most `M`, and two of
the cameras seeing the point at the angle `θ`, the pipeline `from_view`, `pixel_to_world`, `to_single_ray`,
`best_intersection_of_rays` returns a finite point within `ρ + 1.7e-6 N / κ * (M + |x| + ρ)` of the true one, where
`κ = 1 - |cos θ| - 12 σ - 1.5e-6 N` and `ρ = (12 σ + 5.2e-11) M √(N / κ)`. -/
theorem c104_f64_measured {lib' : Libm Format.b64} (hl : lib.Accurate) {os : List (Sighting (F64 lib))}
    (h2 : 2 ≤ os.length) (hM1 : 1 ≤ M) (hM2 : M ≤ 2 ^ 20) (hσ : σ ≤ 1 / 100) (hx : ∀ a, |x a| ≤ M)
    (hg : ∀ o ∈ os, GoodSight M x o) (hm : ∀ o ∈ os, Sighted σ x o)
    {a b : Sighting (F64 lib)} (ha : a ∈ os) (hb : b ∈ os) {κ ρ : ℝ}
    (hκ : κ = 1 - absCos (x - a.center) (x - b.center) - 12 * σ - 15 / 10000000 * os.length)
    (hκ0 : 101 / 1000000000 < κ) (hρ : ρ = (12 * σ + 52 / 10 ^ 12) * M * √(os.length / κ)) :
    ∃ pt, bestIntersectionOfRays (Svd3.svd : TrySvd (F64 lib')) (os.map Sighting.ray) = .ok pt ∧
      (∀ j, Flt.isFinite (f := .b64) (pt.data 0 j)) ∧
      distance (fun j => Flt.val (f := .b64) (pt.data 0 j)) x ≤
        ρ + 17 / 10000000 * os.length / κ * (M + (len x + ρ)) := by
  have hN : (2 : ℝ) ≤ os.length := by exact_mod_cast h2
  exact triangulate_near h2 hM1 (center := Sighting.center) (ray := Sighting.ray)
    (fun o ho => ((hm o ho).rayAlong hl (hg o ho) hσ hM1 hM2 hx).rayTo) ha hb (by rw [hκ]; linarith) hκ0 hρ

/-- C104 for pixels computed by the crate: the pixels of an `f64` point in cameras placed by `from_view`, projected
back and intersected, give the point to within `1.8e-6 N / (1 - |cos θ| - 1.5e-6 N) * (M + |x|)`. -/
theorem c104_f64_triangulation {lib' : Libm Format.b64} (hl : lib.Accurate) {os : List (Sighting (F64 lib))}
    (h2 : 2 ≤ os.length) (hM1 : 1 ≤ M) (hM2 : M ≤ 2 ^ 20) (w : Points WorldFrame (F64 lib) 1)
    (hw : ∀ a, Flt.Bounded (f := .b64) M (w.data 0 a)) (hx : x = (RustFloat.rounding .b64 lib).vec (w.data 0))
    (hg : ∀ o ∈ os, GoodSight M x o) (hp : ∀ o ∈ os, o.pixel = o.camera.worldToPixel w)
    {a b : Sighting (F64 lib)} (ha : a ∈ os) (hb : b ∈ os) {κ : ℝ}
    (hκ : κ = 1 - absCos (x - a.center) (x - b.center) - 15 / 10000000 * os.length)
    (hκ0 : 101 / 1000000000 < κ) :
    ∃ pt, bestIntersectionOfRays (Svd3.svd : TrySvd (F64 lib')) (os.map Sighting.ray) = .ok pt ∧
      (∀ j, Flt.isFinite (f := .b64) (pt.data 0 j)) ∧
      distance (fun j => Flt.val (f := .b64) (pt.data 0 j)) x ≤ 18 / 10000000 * os.length / κ * (M + len x) := by
  have hN : (2 : ℝ) ≤ os.length := by exact_mod_cast h2
  have hcos : 0 ≤ absCos (x - a.center) (x - b.center) :=
    div_nonneg (abs_nonneg _) (mul_nonneg (len_nonneg _) (len_nonneg _))
  obtain ⟨pt, p1, p2, p3⟩ := triangulate_near (lib' := lib') h2 hM1 (center := Sighting.center) (ray := Sighting.ray)
    (fun o ho => (hg o ho).rayTo hl hM1 hM2 w hw hx (hp o ho)) ha hb (κ := κ) (by rw [hκ]; linarith) hκ0 rfl
  refine ⟨pt, p1, p2, p3.trans ?_⟩
  have κ0 : 0 < κ := by linarith
  have t2 : 1 ≤ (os.length : ℝ) / κ := by rw [one_le_div κ0]; linarith
  have t3 : (os.length : ℝ) / κ ≤ (2600000 : ℝ) ^ 2 := by
    rw [div_le_iff₀ κ0]; norm_num; linarith
  have t4 : √(os.length / κ) ≤ os.length / κ := by
    rw [Real.sqrt_le_left (by linarith)]
    nlinarith
  have t5 : √(os.length / κ) ≤ 2600000 := Real.sqrt_le_left (by norm_num) |>.2 t3
  have t0 := Real.sqrt_nonneg (os.length / κ)
  rw [mul_div_assoc (17 / 10000000 : ℝ), mul_div_assoc (18 / 10000000 : ℝ)]
  generalize √(os.length / κ) = v at *
  generalize (os.length : ℝ) / κ = n at *
  have l0 := len_nonneg x
  have hM0 : 0 ≤ M := by linarith
  have r1 := mul_le_mul_of_nonneg_right t4 hM0
  have r2 := mul_le_mul_of_nonneg_right t5 hM0
  have r3 := mul_le_mul_of_nonneg_left (show M + (len x + 15 / 10 ^ 10 * M * v) ≤ 101 / 100 * (M + len x) by
    norm_num at r2 ⊢; linarith) (show 0 ≤ n by linarith)
  have r4 : n * M ≤ n * (M + len x) := mul_le_mul_of_nonneg_left (by linarith) (by linarith)
  have r5 := mul_nonneg (show 0 ≤ n by linarith) (show 0 ≤ M + len x by linarith)
  norm_num at r1 r3 r4 r5 ⊢
  linarith

/-! ### Two cameras looking at a point -/

/-- Focal lengths 1, principal point (1, 0), camera at `(c, 0, 0)` looking at `(4, 0, 4)` with the y axis up, pixel
`(1, 0)`. -/
noncomputable def sampleSight (lib : Libm Format.b64) (c : Fin 10) : Sighting (F64 lib) where
  params := ⟨digit lib 1, digit lib 1, digit lib 0, digit lib 1, digit lib 0⟩
  camcenter := ![digit lib c, digit lib 0, digit lib 0]
  lookat := ![digit lib 4, digit lib 0, digit lib 4]
  up := ![digit lib 0, digit lib 1, digit lib 0]
  pixel := ⟨fun _ => ![digit lib 1, digit lib 0]⟩

theorem vec_digits (i j k : Fin 10) : (RustFloat.rounding .b64 lib).vec ![digit lib i, digit lib j, digit lib k] =
    ![((i : ℕ) : ℝ), ((j : ℕ) : ℝ), ((k : ℕ) : ℝ)] := by
  funext a
  fin_cases a
  · exact val_digit lib i
  · exact val_digit lib j
  · exact val_digit lib k

theorem sampleSight_center (c : Fin 10) : (sampleSight lib c).center = ![((c : ℕ) : ℝ), 0, 0] :=
  (vec_digits c 0 0).trans (by simp)

theorem sampleSight_lookat (c : Fin 10) :
    (RustFloat.rounding .b64 lib).vec (sampleSight lib c).lookat = ![4, 0, 4] := (vec_digits 4 0 4).trans (by simp)

theorem sampleSight_up (c : Fin 10) :
    (RustFloat.rounding .b64 lib).vec (sampleSight lib c).up = ![0, 1, 0] := (vec_digits 0 1 0).trans (by simp)

theorem sampleSight_dir {c : Fin 10} (hc : c = 0 ∨ c = 8) :
    len (![4, 0, 4] - ![((c : ℕ) : ℝ), 0, 0]) = √32 ∧
      len ((![4, 0, 4] - ![((c : ℕ) : ℝ), 0, 0]) ⨯₃ ![0, 1, 0]) = √32 := by
  rcases hc with rfl | rfl <;> constructor <;> rw [len_eq] <;> congr 1 <;>
    simp [crossProduct] <;> norm_num

theorem sampleSight_position {c : Fin 10} (hc : c = 0 ∨ c = 8) :
    (sampleSight lib c).position ![4, 0, 4] = ![0, 0, √32] := by
  have hd := sampleSight_dir hc
  have hne : (![4, 0, 4] - ![((c : ℕ) : ℝ), 0, 0]) ⨯₃ ![0, 1, 0] ≠ 0 :=
    len_pos.1 (by rw [hd.2]; exact Real.sqrt_pos.2 (by norm_num))
  obtain ⟨q, hq, hv, hl, -⟩ := fromView_spec nalgebra_rot hne
  rw [Sighting.position, sampleSight_center, sampleSight_lookat, sampleSight_up, hv, pose_apply, translation_eq,
    show quatNormSq q - 1 = 0 from sub_eq_zero.2 hq, zero_smul, _root_.add_zero, ← sub_eq_add_neg, ← rotate_sub, hl, hd.1]

theorem sampleSight_good {c : Fin 10} (hc : c = 0 ∨ c = 8) : GoodSight 8 ![4, 0, 4] (sampleSight lib c) := by
  have hpos := sampleSight_position (lib := lib) hc
  have hd := sampleSight_dir hc
  have b : ∀ (k : Fin 10) {B : ℝ}, ((k : ℕ) : ℝ) ≤ B → Flt.Bounded (f := .b64) B (digit lib k) := fun k B hk =>
    ⟨trivial, by rw [val_digit lib, abs_of_nonneg (Nat.cast_nonneg _)]; exact hk⟩
  have v1 : Flt.val (f := .b64) (digit lib 1) = 1 := (val_digit lib _).trans (by norm_num)
  have v0 : Flt.val (f := .b64) (digit lib 0) = 0 := (val_digit lib _).trans (by norm_num)
  have e1 : Flt.val (f := .b64) (sampleSight lib c).params.fx = 1 := v1
  have e2 : Flt.val (f := .b64) (sampleSight lib c).params.fy = 1 := v1
  have e3 : Flt.val (f := .b64) (sampleSight lib c).params.skew = 0 := v0
  have e4 : Flt.val (f := .b64) (sampleSight lib c).params.cx = 1 := v1
  have e5 : Flt.val (f := .b64) (sampleSight lib c).params.cy = 0 := v0
  have hc8 : ((c : ℕ) : ℝ) ≤ 8 := by
    rcases hc with rfl | rfl <;> norm_num
  have r1 : (1 : ℝ) ≤ √32 := by rw [Real.one_le_sqrt]; norm_num
  have lu : len ![(0 : ℝ), 1, 0] = 1 := by simp [len, Fin.sum_univ_three]
  have p0 : (sampleSight lib c).position ![4, 0, 4] 0 = 0 := by rw [hpos]; rfl
  have p1 : (sampleSight lib c).position ![4, 0, 4] 1 = 0 := by rw [hpos]; rfl
  have p2 : (sampleSight lib c).position ![4, 0, 4] 2 = √32 := by rw [hpos]; rfl
  have hcen := sampleSight_center (lib := lib) c
  rw [Sighting.center] at hcen
  refine ⟨⟨?_, ?_, ?_, ?_, ?_, ?_⟩, ?_, ?_, ?_, ?_, ?_, ?_, ?_, ?_, ?_, ?_⟩
  · intro a
    fin_cases a
    exacts [b c (hc8.trans (by norm_num)), b 0 (by norm_num), b 0 (by norm_num)]
  · intro a
    fin_cases a
    exacts [b 4 (by norm_num), b 0 (by norm_num), b 4 (by norm_num)]
  · intro a
    fin_cases a
    exacts [b 0 (by norm_num), b 1 (by norm_num), b 0 (by norm_num)]
  · rw [hcen, sampleSight_lookat, hd.1]
    exact le_trans (by norm_num) r1
  · rw [sampleSight_up, lu]; norm_num
  · rw [hcen, sampleSight_lookat, sampleSight_up, sine, hd.1, hd.2, lu, _root_.mul_one, div_self (by linarith)]
    norm_num
  · intro a
    fin_cases a
    exacts [b c hc8, b 0 (by norm_num), b 0 (by norm_num)]
  · intro y hy
    simp only [List.mem_cons, List.not_mem_nil, or_false] at hy
    rcases hy with rfl | rfl | rfl | rfl | rfl
    exacts [b 1 (by norm_num), b 1 (by norm_num), b 0 (by norm_num), b 1 (by norm_num), b 0 (by norm_num)]
  · rw [e1]; norm_num
  · rw [e2]; norm_num
  · rw [e3, e1]; norm_num
  · rw [e4, e1]; norm_num
  · rw [e5, e2]; norm_num
  · rw [p2, abs_of_nonneg (by linarith)]; linarith
  · rw [p0, zero_div, abs_zero]; norm_num
  · rw [p1, zero_div, abs_zero]; norm_num

/-- Both cameras see the point in the middle of the picture. -/
theorem sampleSight_sighted {c : Fin 10} (hc : c = 0 ∨ c = 8) : Sighted 0 ![4, 0, 4] (sampleSight lib c) := by
  have hpos := sampleSight_position (lib := lib) hc
  have v1 : Flt.val (f := .b64) (digit lib 1) = 1 := (val_digit lib _).trans (by norm_num)
  have v0 : Flt.val (f := .b64) (digit lib 0) = 0 := (val_digit lib _).trans (by norm_num)
  have e4 : Flt.val (f := .b64) (sampleSight lib c).params.cx = 1 := v1
  have e5 : Flt.val (f := .b64) (sampleSight lib c).params.cy = 0 := v0
  have e6 : Flt.val (f := .b64) ((sampleSight lib c).pixel.data 0 0) = 1 := v1
  have e7 : Flt.val (f := .b64) ((sampleSight lib c).pixel.data 0 1) = 0 := v0
  refine ⟨fun a => ?_, ?_, ?_⟩
  · fin_cases a <;> exact trivial
  · rw [Sighting.projection, hpos, e4, e5, e6]
    simp [Spec.pinhole]
  · rw [Sighting.projection, hpos, e4, e5, e7]
    simp [Spec.pinhole]

theorem sampleSight_angle :
    absCos (![4, 0, 4] - (sampleSight lib 0).center) (![4, 0, 4] - (sampleSight lib 8).center) = 0 := by
  rw [sampleSight_center, sampleSight_center, absCos, vec3_dotProduct]
  simp only [Pi.sub_apply, Matrix.cons_val]
  norm_num

/-- Non-vacuity of C104: two cameras 8 apart, both looking at (4, 0, 4), each with that point in the middle of the
picture: the point is recovered to within a ten-thousandth. -/
example {lib' : Libm Format.b64} (hl : lib.Accurate) :
    ∃ pt, bestIntersectionOfRays (Svd3.svd : TrySvd (F64 lib'))
        [(sampleSight lib 0).ray, (sampleSight lib 8).ray] = .ok pt ∧
      (∀ j, Flt.isFinite (f := .b64) (pt.data 0 j)) ∧
      distance (fun j => Flt.val (f := .b64) (pt.data 0 j)) ![4, 0, 4] ≤ 1 / 10000 := by
  have hlen : ((([sampleSight lib 0, sampleSight lib 8] : List (Sighting (F64 lib))).length : ℕ) : ℝ) = 2 := by simp
  have mem : ∀ o ∈ [sampleSight lib 0, sampleSight lib 8], o = sampleSight lib 0 ∨ o = sampleSight lib 8 := by simp
  obtain ⟨pt, p1, p2, p3⟩ := c104_f64_measured (lib' := lib') hl (os := [sampleSight lib 0, sampleSight lib 8])
    (M := 8) (σ := 0) (x := ![4, 0, 4]) (by simp) (by norm_num) (by norm_num) (by norm_num)
    (fun a => by fin_cases a <;> norm_num)
    (fun o ho => by
      rcases mem o ho with rfl | rfl
      exacts [sampleSight_good (Or.inl rfl), sampleSight_good (Or.inr rfl)])
    (fun o ho => by
      rcases mem o ho with rfl | rfl
      exacts [sampleSight_sighted (Or.inl rfl), sampleSight_sighted (Or.inr rfl)])
    (a := sampleSight lib 0) (b := sampleSight lib 8) (by simp) (by simp) rfl
    (by rw [sampleSight_angle, hlen]; norm_num) rfl
  refine ⟨pt, p1, p2, p3.trans ?_⟩
  rw [sampleSight_angle, hlen]
  have l : len ![(4 : ℝ), 0, 4] ≤ 2 * 4 := len_le_entries fun a => by fin_cases a <;> norm_num
  have q : √((2 : ℝ) / (1 - 0 - 12 * 0 - 15 / 10000000 * 2)) ≤ 2 := by
    rw [Real.sqrt_le_left (by norm_num)]
    norm_num
  refine (add_le_add (mul_le_mul_of_nonneg_left q (by norm_num)) (mul_le_mul_of_nonneg_left (add_le_add_right
    (add_le_add l (mul_le_mul_of_nonneg_left q (by norm_num))) _) (by norm_num))).trans ?_
  norm_num

/-- Non-vacuity of C104 for computed pixels. -/
example {lib' : Libm Format.b64} (hl : lib.Accurate) (w : Points WorldFrame (F64 lib) 1)
    (hw : w = ⟨fun _ => ![digit lib 4, digit lib 0, digit lib 4]⟩) (a b : Sighting (F64 lib))
    (ha : a = { sampleSight lib 0 with pixel := (sampleSight lib 0).camera.worldToPixel w })
    (hb : b = { sampleSight lib 8 with pixel := (sampleSight lib 8).camera.worldToPixel w }) :
    ∃ pt, bestIntersectionOfRays (Svd3.svd : TrySvd (F64 lib')) [a.ray, b.ray] = .ok pt ∧
      (∀ j, Flt.isFinite (f := .b64) (pt.data 0 j)) ∧
      distance (fun j => Flt.val (f := .b64) (pt.data 0 j)) ![4, 0, 4] ≤ 1 / 10000 := by
  have hx : ![4, 0, 4] = (RustFloat.rounding .b64 lib).vec (w.data 0) := by
    rw [hw]
    exact ((vec_digits 4 0 4).trans (by simp)).symm
  have bd : ∀ (k : Fin 10), ((k : ℕ) : ℝ) ≤ 8 → Flt.Bounded (f := .b64) 8 (digit lib k) := fun k hk =>
    ⟨trivial, by rw [val_digit lib, abs_of_nonneg (Nat.cast_nonneg _)]; exact hk⟩
  have good : ∀ c : Fin 10, c = 0 ∨ c = 8 → GoodSight 8 ![4, 0, 4]
      { sampleSight lib c with pixel := (sampleSight lib c).camera.worldToPixel w } := fun c hc => by
    have g := sampleSight_good (lib := lib) hc
    exact ⟨g.view, g.center, g.params, g.fx, g.fy, g.skew, g.cx, g.cy, g.depth, g.slope0, g.slope1⟩
  have hlen : ((([a, b] : List (Sighting (F64 lib))).length : ℕ) : ℝ) = 2 := by simp
  have mem : ∀ o ∈ [a, b], o = a ∨ o = b := by simp
  have ang : absCos (![4, 0, 4] - a.center) (![4, 0, 4] - b.center) = 0 := by
    rw [ha, hb]; exact sampleSight_angle
  obtain ⟨pt, p1, p2, p3⟩ := c104_f64_triangulation (lib' := lib') hl (os := [a, b]) (M := 8) (x := ![4, 0, 4])
    (by simp) (by norm_num) (by norm_num) w
    (fun j => by
      rw [hw]
      fin_cases j
      exacts [bd 4 (by norm_num), bd 0 (by norm_num), bd 4 (by norm_num)]) hx
    (fun o ho => by
      rcases mem o ho with rfl | rfl
      · rw [ha]; exact good 0 (Or.inl rfl)
      · rw [hb]; exact good 8 (Or.inr rfl))
    (fun o ho => by
      rcases mem o ho with rfl | rfl
      · rw [ha]; rfl
      · rw [hb]; rfl)
    (a := a) (b := b) (by simp) (by simp) rfl (by rw [ang, hlen]; norm_num)
  refine ⟨pt, p1, p2, p3.trans ?_⟩
  rw [ang, hlen]
  have l : len ![(4 : ℝ), 0, 4] ≤ 2 * 4 := len_le_entries fun a => by fin_cases a <;> norm_num
  refine (mul_le_mul_of_nonneg_left (add_le_add_right l _) (by norm_num)).trans ?_
  norm_num

end

end CamGeom
