import Verif.Props.FloatViewTriangulation
import Verif.Props.FloatTriangulation32

/-!
# C106: triangulation in `f32` with cameras placed by `from_view`
-/

namespace CamGeom
open Rounding ExtrinsicParameters Spec Matrix

theorem len_vector_le_qlen (q : Quat ℝ) : len q.vector ≤ qlen q := by
  rw [len_eq, qlen, dotProduct, Fin.sum_univ_three, quatNormSq]
  refine Real.sqrt_le_sqrt ?_
  simp only [Quat.vector, Matrix.cons_val]
  nlinarith [sq_nonneg q.w]

/-- Rotations of a vector by a quaternion near a unit quaternion, in length. -/
theorem rotate_len_close {η : ℝ} {q Q : Quat ℝ} (hQ : UnitQuat Q) (h : qlen (qdiff q Q) * (qlen q + qlen Q) ≤ η)
    (v : Vec) : len (q.rotate v - Q.rotate v) ≤ 2 * η * len v := by
  have e : ∀ p : Quat ℝ, p.rotate v = Mat.mulVec3 p.toRotationMatrix v - (quatNormSq p - 1) • v := by
    intro p
    rw [toRotationMatrix_defect, add_sub_cancel_right]
  have m1 : len (Mat.mulVec3 q.toRotationMatrix v - Mat.mulVec3 Q.toRotationMatrix v) ≤ η * len v := by
    have e1 : Mat.mulVec3 q.toRotationMatrix v - Mat.mulVec3 Q.toRotationMatrix v =
        (qdiff (sandwich q q v) (sandwich Q Q v)).vector := by
      funext a
      rw [Pi.sub_apply, ← sandwich_vector, ← sandwich_vector]
      fin_cases a <;> rfl
    rw [e1]
    exact (len_vector_le_qlen _).trans ((qlen_sandwich_diff q Q v).trans (mul_le_mul_of_nonneg_right h (len_nonneg _)))
  have m2 := (normSq_dist q Q).trans h
  rw [show quatNormSq Q = 1 from hQ] at m2
  have e2 : q.rotate v - Q.rotate v = (Mat.mulVec3 q.toRotationMatrix v - Mat.mulVec3 Q.toRotationMatrix v) +
      -((quatNormSq q - 1) • v) := by
    rw [e q, e Q, show quatNormSq Q - 1 = 0 from sub_eq_zero.2 hQ, zero_smul, sub_zero]
    abel
  rw [e2]
  refine (len_add_le _ _).trans ?_
  rw [len_neg, len_smul]
  have := mul_le_mul_of_nonneg_right m2 (len_nonneg v)
  linarith

section
variable {lib : Libm Format.b32}

/-- Views that are covered: well posed (C79), focal lengths from 1 to `2^20` pixels, skew at most the focal length and
principal point within ten focal lengths; in the exact view the point is off the plane through the camera centre, with
slopes at most 10. -/
structure GoodSight32 (M : ℝ) (x : Vec) (s : Sighting (F32 lib)) : Prop where
  view : WellPosed lib 20 s.camcenter s.lookat s.up
  center : ∀ a, Flt.Bounded (f := .b32) M (s.camcenter a)
  params : ∀ y ∈ [s.params.fx, s.params.fy, s.params.skew, s.params.cx, s.params.cy],
    Flt.Bounded (f := .b32) (2 ^ 20) y
  fx : 1 ≤ |Flt.val (f := .b32) s.params.fx|
  fy : 1 ≤ |Flt.val (f := .b32) s.params.fy|
  skew : |Flt.val (f := .b32) s.params.skew| ≤ |Flt.val (f := .b32) s.params.fx|
  cx : |Flt.val (f := .b32) s.params.cx| ≤ 10 * |Flt.val (f := .b32) s.params.fx|
  cy : |Flt.val (f := .b32) s.params.cy| ≤ 10 * |Flt.val (f := .b32) s.params.fy|
  depth : s.position x 2 ≠ 0
  slope0 : |s.position x 0 / s.position x 2| ≤ 10
  slope1 : |s.position x 1 / s.position x 2| ≤ 10

variable {M σ : ℝ} {x : Vec} {s : Sighting (F32 lib)}

/-- The rotation computed by `from_view` in `f32` is close to a unit quaternion of the exact view. -/
theorem GoodSight32.rotation (hl : lib.Accurate) (g : GoodSight32 M x s) :
    ∃ Q, UnitQuat Q ∧ (∀ y, s.position y = Q.rotate (y - s.center)) ∧
      qlen (qdiff ((RustFloat.rounding .b32 lib).quat s.observation.rotation) Q) *
        (qlen ((RustFloat.rounding .b32 lib).quat s.observation.rotation) + qlen Q) ≤ 85 / 10 ^ 6 ∧
      |quatNormSq ((RustFloat.rounding .b32 lib).quat s.observation.rotation) - 1| ≤ 85 / 10 ^ 6 ∧
      QInRange (RustFloat.rounding .b32 lib) s.observation.rotation := by
  set fl := RustFloat.rounding .b32 lib with hfl
  have hω : Format.b32.ω ≤ 1 / 2 ^ 30 := Format.ω_b32.le.trans (by norm_num)
  have hu : 11000 * Format.b32.u ≤ 1 / 2 := by rw [Format.u_b32]; norm_num
  have eu : fl.u = 1 / 2 ^ 24 := Format.u_b32
  have hs := g.view.angle
  obtain ⟨h1, h2, h3⟩ := float_view Format.sub64_b32 Format.cutoff_b32 hl g.view (by show _ ≤ 127; norm_num) hu hω
  have hs0 : 0 < sine (fl.vec s.lookat - fl.vec s.camcenter) (fl.vec s.up) := by linarith
  have hsu : 11000 * fl.u ≤ sine (fl.vec s.lookat - fl.vec s.camcenter) (fl.vec s.up) := hu.trans hs
  obtain ⟨Q, hQ, hrot, hn⟩ := view_quaternion (RustFloat.roundingMore lib Format.cutoff_b32)
    (RustFloat.roundingView Format.sub64_b32 hl)
    (RustFloat.four_le_big _ _ (by show (3 : ℤ) ≤ 128; norm_num)) (hω.trans (by norm_num)) h1 rfl hs0 hsu h2
  have hη : fl.u / sine (fl.vec s.lookat - fl.vec s.camcenter) (fl.vec s.up) ≤ 2 / 2 ^ 24 := by
    rw [div_le_iff₀ hs0, eu]
    norm_num
    linarith
  have hd : qlen (qdiff (fl.quat s.observation.rotation) Q) * (qlen (fl.quat s.observation.rotation) + qlen Q) ≤
      85 / 10 ^ 6 :=
    (qlen_bound hQ hn hs0 hsu).2.1.trans ((mul_le_mul_of_nonneg_left hη (by norm_num)).trans (by norm_num))
  refine ⟨Q, hQ, fun y => ?_, hd, ?_, h3⟩
  · have hDU : (fl.vec s.lookat - fl.vec s.camcenter) ⨯₃ fl.vec s.up ≠ 0 := by
      intro h
      rw [sine, h, len_eq_zero.2 rfl, zero_div] at hs0
      exact lt_irrefl _ hs0
    obtain ⟨Q', hQ', hv, -⟩ := fromView_spec nalgebra_rot hDU
    rw [hv] at hrot
    have hrot' : Q'.toRotationMatrix = Q.toRotationMatrix := hrot
    have ep : s.position y = ((fromRotationAndCamcenter Q' s.center).worldToCamera (.single y)).data 0 := by
      rw [Sighting.position]
      exact congrArg (fun e : ExtrinsicParameters ℝ => (e.worldToCamera (.single y)).data 0) hv
    rw [ep, pose_apply, translation_eq, show quatNormSq Q' - 1 = 0 from sub_eq_zero.2 hQ', zero_smul,
      _root_.add_zero, ← sub_eq_add_neg, ← rotate_sub, ← mulVec3_toRotationMatrix hQ', hrot',
      mulVec3_toRotationMatrix hQ]
  · have h := (normSq_dist (fl.quat s.observation.rotation) Q).trans hd
    rwa [show quatNormSq Q = 1 from hQ] at h

/-! ### The computed direction in the camera frame -/

/-- The same intrinsic parameters and pixel in the camera frame. -/
noncomputable def Sighting.plain32 (s : Sighting (F32 lib)) : Observation (F32 lib) where
  params := s.params
  rotation := ⟨digit32 lib 1, digit32 lib 0, digit32 lib 0, digit32 lib 0⟩
  camcenter := fun _ => digit32 lib 0
  pixel := s.pixel

theorem Sighting.plain32_position (s : Sighting (F32 lib)) (X : Vec) : s.plain32.position X = X := by
  have h0 : Flt.val (f := .b32) (digit32 lib 0) = 0 := (val_digit32 lib _).trans (by norm_num)
  have h1 : Flt.val (f := .b32) (digit32 lib 1) = 1 := (val_digit32 lib _).trans (by norm_num)
  have e : (RustFloat.rounding .b32 lib).quat s.plain32.rotation = ⟨1, 0, 0, 0⟩ := by
    show Quat.mk (Flt.val (f := .b32) (digit32 lib 1)) (Flt.val (f := .b32) (digit32 lib 0))
      (Flt.val (f := .b32) (digit32 lib 0)) (Flt.val (f := .b32) (digit32 lib 0)) = _
    rw [h0, h1]
  have r : ∀ v : Vec, (⟨1, 0, 0, 0⟩ : Quat ℝ).rotate v = v := by
    intro v
    funext a
    fin_cases a <;> simp [Quat.rotate, V3.add, V3.scale, V3.cross, Quat.vector]
  have z : (RustFloat.rounding .b32 lib).vec s.plain32.camcenter = 0 := funext fun _ => h0
  have n : quatNormSq (⟨1, 0, 0, 0⟩ : Quat ℝ) = 1 := by simp [quatNormSq]
  rw [Observation.position, pose_apply, translation_eq, e, r, r, z, n, sub_self, zero_smul, _root_.add_zero, neg_zero,
    _root_.add_zero]

theorem GoodSight32.plain (g : GoodSight32 M x s) : GoodView32 1 |s.position x 2| (s.position x) s.plain32 := by
  have b : ∀ (k : Fin 10) {B : ℝ}, ((k : ℕ) : ℝ) ≤ B → Flt.Bounded (f := .b32) B (digit32 lib k) := fun k B hk =>
    ⟨trivial, by rw [val_digit32 lib, abs_of_nonneg (Nat.cast_nonneg _)]; exact hk⟩
  have v1 : Flt.val (f := .b32) (digit32 lib 1) = 1 := (val_digit32 lib _).trans (by norm_num)
  have v0 : Flt.val (f := .b32) (digit32 lib 0) = 0 := (val_digit32 lib _).trans (by norm_num)
  have z0 := abs_nonneg (s.position x 2)
  refine ⟨⟨trivial, trivial, trivial, trivial, ?_⟩, fun a => b 0 ?_, g.params, g.fx, g.fy, g.skew, g.cx, g.cy, ?_, ?_, ?_⟩
  · show |Flt.val (f := .b32) (digit32 lib 1) ^ 2 + Flt.val (f := .b32) (digit32 lib 0) ^ 2 +
      Flt.val (f := .b32) (digit32 lib 0) ^ 2 + Flt.val (f := .b32) (digit32 lib 0) ^ 2 - 1| ≤ _
    rw [v1, v0]
    norm_num
  · norm_num
  · rw [s.plain32_position, _root_.one_mul]
  · rw [s.plain32_position]; exact g.slope0
  · rw [s.plain32_position]; exact g.slope1

theorem Sighted.plain32 (h : Sighted σ x s) : Measured σ (s.position x) s.plain32 := by
  refine ⟨h.finite, ?_, ?_⟩
  · have := h.u
    rw [Observation.projection, s.plain32_position]
    exact this
  · have := h.v
    rw [Observation.projection, s.plain32_position]
    exact this

theorem Sighted.nonneg32 (h : Sighted σ x s) (g : GoodSight32 M x s) : 0 ≤ σ := h.plain32.nonneg32 g.plain

/-! ### The computed ray -/

/-- A finite ray, not too far out, that passes near the point `x`, in nearly the direction in which the point is seen
from `c`. -/
structure RayTo32 (M τ η : ℝ) (x c : Vec) (r : Ray WorldFrame (F32 lib)) : Prop where
  safe : SafeRay (RustFloat.rounding .b32 lib) 60 r
  center : ∀ a, |(RustFloat.rounding .b32 lib).val (r.center a)| ≤ (1 + 13 / 10 ^ 4) * M
  apart : x - c ≠ 0
  direction : (vray (RustFloat.rounding .b32 lib) r).direction ≠ 0
  near : ∃ Z : ℝ, Z ≠ 0 ∧ distance x ((vray (RustFloat.rounding .b32 lib) r).center +
      Z • (vray (RustFloat.rounding .b32 lib) r).direction) ≤ τ * M ∧
    len (Z • (vray (RustFloat.rounding .b32 lib) r).direction - (x - c)) ≤ η * len (x - c)

/-- Finite rays near the point, two of them at a sufficient angle, give the point. -/
theorem triangulate_near32 {lib' : Libm Format.b64} {τ η : ℝ} {α : Type} {os : List α} (h2 : 2 ≤ os.length)
    (hM1 : 1 ≤ M) {center : α → Vec} {ray : α → Ray WorldFrame (F32 lib)}
    (hr : ∀ o ∈ os, RayTo32 M τ η x (center o) (ray o))
    {a b : α} (ha : a ∈ os) (hb : b ∈ os) {κ ρ : ℝ}
    (hκ : κ ≤ 1 - absCos (x - center a) (x - center b) - 4 * η - 71 / 10000000 * os.length)
    (hκ0 : 101 / 1000000000 < κ) (hρ : ρ = τ * M * √(os.length / κ)) :
    ∃ pt, bestIntersectionOfRays (Svd3.svd : TrySvd (F64 lib')) (os.map ray) = .ok pt ∧
      (∀ j, Flt.isFinite (f := .b32) (pt.data 0 j)) ∧
      distance (fun j => Flt.val (f := .b32) (pt.data 0 j)) x ≤
        ρ + 65 / 1000000 * os.length / κ * (M + (len x + ρ)) := by
  set fl := RustFloat.rounding .b32 lib with hfl
  have hN : (2 : ℝ) ≤ os.length := by exact_mod_cast h2
  have hlen : (os.map ray).length = os.length := List.length_map ..
  have Ra := hr a ha
  have Rb := hr b hb
  obtain ⟨Za, za, ta, la⟩ := Ra.near
  obtain ⟨Zb, zb, -, lb⟩ := Rb.near
  have hcos := absCos_near Ra.apart Rb.apart (smul_ne_zero za Ra.direction) (smul_ne_zero zb Rb.direction) la lb
  rw [absCos_smul za zb] at hcos
  set c := absCos (vray fl (ray a)).direction (vray fl (ray b)).direction with hc
  have τ0 : 0 ≤ τ * M := (len_nonneg _).trans ta
  have hκ' : κ ≤ 1 - c - 71 / 10000000 * os.length := by linarith
  obtain ⟨pt, p1, p2, p3⟩ := c84_f32_near_point (lib' := lib') (rays := os.map ray) (by rw [hlen]; exact h2)
    (fun r h => by
      obtain ⟨o, ho, rfl⟩ := List.mem_map.1 h
      exact (hr o ho).safe)
    (M := (1 + 13 / 10 ^ 4) * M)
    (le_trans (by rw [div_le_one (by positivity)]; exact one_le_pow₀ (by norm_num)) (hM1.trans (by linarith)))
    (fun r h => by
      obtain ⟨o, ho, rfl⟩ := List.mem_map.1 h
      exact (hr o ho).center) (List.mem_map_of_mem ha) (List.mem_map_of_mem hb) hc (κ := 1 - c - 71 / 10000000 * os.length) (by rw [hlen]) (by linarith) (x := x)
    (τ := τ * M) (fun r h => by
      obtain ⟨o, ho, rfl⟩ := List.mem_map.1 h
      obtain ⟨Z, -, h, -⟩ := (hr o ho).near
      exact (distTo_le (show _ ∈ line _ _ from ⟨Z, rfl⟩)).trans h) rfl
  refine ⟨pt, p1, p2, p3.trans ?_⟩
  rw [hlen]
  have κ0 : 0 < κ := by linarith
  have l0 := len_nonneg x
  have r1 : τ * M * √(os.length / (1 - c)) ≤ ρ := by
    rw [hρ]
    refine mul_le_mul_of_nonneg_left (Real.sqrt_le_sqrt ?_) τ0
    exact div_le_div_of_nonneg_left (by linarith) κ0 (by linarith)
  have r0 : 0 ≤ τ * M * √(os.length / (1 - c)) := mul_nonneg τ0 (Real.sqrt_nonneg _)
  have r2 : 64 / 1000000 * (os.length : ℝ) / (1 - c - 71 / 10000000 * os.length) ≤
      64 / 1000000 * os.length / κ := div_le_div_of_nonneg_left (by linarith) κ0 hκ'
  have r3 : 0 ≤ (os.length : ℝ) / κ := div_nonneg (by linarith) κ0.le
  have r4 := mul_le_mul r2 (show (1 + 13 / 10 ^ 4) * M + (len x + τ * M * √(os.length / (1 - c))) ≤
    (1 + 13 / 10 ^ 4) * (M + (len x + ρ)) by nlinarith) (by positivity) (by rw [mul_div_assoc]; positivity)
  refine (add_le_add r1 r4).trans ?_
  rw [mul_div_assoc, mul_div_assoc]
  have r5 := mul_nonneg r3 (show 0 ≤ M + (len x + ρ) by linarith)
  norm_num at r5 ⊢
  linarith

/-- A finite ray, not too far out, that comes near the point `x` at the parameter `Z`, in nearly the direction in which
the point is seen from `c`. -/
structure RayAlong32 (M τ η Z : ℝ) (x c : Vec) (r : Ray WorldFrame (F32 lib)) : Prop where
  safe : SafeRay (RustFloat.rounding .b32 lib) 60 r
  center : ∀ a, |(RustFloat.rounding .b32 lib).val (r.center a)| ≤ (1 + 13 / 10 ^ 4) * M
  apart : x - c ≠ 0
  length : 8 / 10 ≤ len (vray (RustFloat.rounding .b32 lib) r).direction
  depth : Z ≠ 0
  near : distance x ((vray (RustFloat.rounding .b32 lib) r).center + Z • (vray (RustFloat.rounding .b32 lib) r).direction) ≤ τ * M
  along : len (Z • (vray (RustFloat.rounding .b32 lib) r).direction - (x - c)) ≤ η * len (x - c)

theorem RayAlong32.rayTo {τ η Z : ℝ} {c : Vec} {r : Ray WorldFrame (F32 lib)} (h : RayAlong32 M τ η Z x c r) :
    RayTo32 M τ η x c r :=
  ⟨h.safe, h.center, h.apart, len_pos.1 (by linarith [h.length]), Z, h.depth, h.near, h.along⟩

/-- The computed ray of a pixel measured in the exact view. -/
theorem Sighted.rayAlong32 (hl : lib.Accurate) (h : Sighted σ x s) (g : GoodSight32 M x s) (hσ : σ ≤ 1 / 100) (hM1 : 1 ≤ M)
    (hM2 : M ≤ 2 ^ 20) (hx : ∀ a, |x a| ≤ M) :
    RayAlong32 M (12 * σ + 23 / 10 ^ 4) (3 * σ + 25 / 10 ^ 5) (s.position x 2) x s.center s.ray := by
  set fl := RustFloat.rounding .b32 lib with hfl
  have eu : fl.u = 1 / 2 ^ 24 := Format.u_b32
  have hω : fl.ω ≤ 1 / 10 ^ 30 := Format.ω_b32.le.trans (by norm_num)
  have hω0 := fl.ω_nonneg
  have hσ0 := h.nonneg32 g
  have hM0 : 0 ≤ M := by linarith
  obtain ⟨Q, hQ, hpos, hn, hq, hqi⟩ := g.rotation hl
  obtain ⟨df, s0, s1, s2⟩ := h.plain32.slope32 g.plain hσ
  rw [s.plain32_position] at s0 s1
  have eslope : s.plain32.slope = s.observation.slope := rfl
  rw [eslope] at df s0 s1 s2
  set d := s.observation.slope with hd'
  set q := s.observation.rotation with hq'
  set X := s.position x with hX
  set Z := X 2 with hZ
  have eX : X = Q.rotate (x - s.center) := hpos x
  have hZ0 : Z ≠ 0 := g.depth
  have z0 : 0 < |Z| := abs_pos.2 hZ0
  have d0 : |fl.val (d 0)| ≤ 11 := by
    have e := abs_sub_abs_le_abs_sub (fl.val (d 0)) (X 0 / X 2) |>.trans s0
    have := g.slope0
    norm_num at e ⊢
    linarith
  have d1 : |fl.val (d 1)| ≤ 11 := by
    have e := abs_sub_abs_le_abs_sub (fl.val (d 1)) (X 1 / X 2) |>.trans s1
    have := g.slope1
    norm_num at e ⊢
    linarith
  have d2 : fl.val (d 2) = 1 := s2
  have hd : ∀ a, |fl.val (d a)| ≤ 11 := by
    intro a
    fin_cases a
    · exact d0
    · exact d1
    · show |fl.val (d 2)| ≤ 11
      rw [d2]; norm_num
  have hin : ∀ a, InRange fl 20 (d a) := fun a => ⟨df a, (hd a).trans (by norm_num)⟩
  have hci : ∀ a, InRange fl 20 (s.camcenter a) := fun a => (g.center a).inRange hM2
  have hrc : ∀ a, InRange fl 35 (s.ray.center a) := by
    intro a
    rw [s.ray_eq, Observation.ray, pixelRay_eq]
    exact (hqi.poseInv (RustFloat.range .b32 lib) hci (v := fun _ => Scalar.lit 0)
      (fun _ => InRange.lit_zero fl) (by show _ ≤ 127; norm_num) a).1
  have hrd : ∀ a, InRange fl 27 (s.ray.direction a) := by
    intro a
    rw [s.ray_eq, Observation.ray, pixelRay_eq]
    exact (hqi.poseInv (RustFloat.range .b32 lib) hci hin (by show _ ≤ 127; norm_num) a).2
  obtain ⟨r, hr⟩ : ∃ r, r = vray fl s.ray := ⟨_, rfl⟩
  have ec : ∀ a, r.center a = fl.val (s.ray.center a) := fun a => by rw [hr]; rfl
  have ed : ∀ a, r.direction a = fl.val (s.ray.direction a) := fun a => by rw [hr]; rfl
  -- the centre
  have e1 : len (r.center - (fl.quat q).inverse.rotate (-(fromRotationAndCamcenter (fl.quat q) s.center).translation)) ≤
      2 * (12 / 10 ^ 6 * M) := by
    refine len_le_entries fun a => ?_
    have hf := (hrc a).1
    rw [Pi.sub_apply, ec]
    rw [s.ray_eq, Observation.ray, pixelRay_eq] at hf ⊢
    refine (rayCenter_tight hq (fun a => (g.center a).2) a hf).trans ?_
    rw [eu]
    unfold rotTight transTight
    have hk : ((1 : ℝ) + 1 / 2 ^ 24) ^ 15 - 1 ≤ 9 / 10 ^ 7 := by norm_num
    calc _ ≤ 9 / 10 ^ 7 * ((13 / 4 * (1 + 85 / 10 ^ 6) + 1) * 0 + 1 / 10 ^ 30 * (15 * (1 + 85 / 10 ^ 6) + 18) +
          ((13 / 4 * (1 + 85 / 10 ^ 6) + 1) * (3 * ((1 + 85 / 10 ^ 6 + 6 * (1 / 10 ^ 30)) * M + 1 / 10 ^ 30)) +
            1 / 10 ^ 30 * (15 * (1 + 85 / 10 ^ 6) + 18))) := by gcongr
      _ ≤ _ := by norm_num; linarith
  have lx : len x ≤ 2 * M := len_le_entries hx
  have lc : len s.center ≤ 2 * M := len_le_entries fun a => (g.center a).2
  have hG : len (r.center - s.center) ≤ 13 / 10 ^ 4 * M := by
    have e5 := center_exact hq (by norm_num) s.center
    have := distance_triangle r.center
      ((fl.quat q).inverse.rotate (-(fromRotationAndCamcenter (fl.quat q) s.center).translation)) s.center
    simp only [distance] at this e5
    refine this.trans ((add_le_add e1 e5).trans ?_)
    norm_num
    linarith
  -- the direction
  have e2 : len (r.direction - (fl.quat q).inverse.rotate (fl.vec d)) ≤ 2 * (2 / 10 ^ 5) := by
    refine len_le_entries fun a => ?_
    have hf := (hrd a).1
    rw [Pi.sub_apply, ed]
    rw [s.ray_eq, Observation.ray, pixelRay_eq] at hf ⊢
    refine (rayDirection_tight hq hd a hf).trans ?_
    rw [eu]
    unfold rotTight
    have hk : ((1 : ℝ) + 1 / 2 ^ 24) ^ 7 - 1 ≤ 4175 / 10 ^ 10 := by norm_num
    calc _ ≤ 4175 / 10 ^ 10 * ((13 / 4 * (1 + 85 / 10 ^ 6) + 1) * 11 + 1 / 10 ^ 30 * (15 * (1 + 85 / 10 ^ 6) + 18) : ℝ) := by
          gcongr
      _ ≤ _ := by norm_num
  have e4 : len (Z • fl.vec d - X) ≤ |Z| * (2 * σ + 27 / 10 ^ 6) + |Z| * (σ + 4 / 10 ^ 6) := by
    have key : ∀ a, (Z • fl.vec d - X) a = Z * (fl.val (d a) - X a / X 2) := by
      intro a
      show Z * fl.val (d a) - X a = _
      rw [mul_sub, hZ, mul_div_cancel₀ _ hZ0]
    refine len_le_two ?_ ?_ ?_
    · rw [key, abs_mul]
      exact mul_le_mul_of_nonneg_left s0 (abs_nonneg _)
    · rw [key, abs_mul]
      exact mul_le_mul_of_nonneg_left s1 (abs_nonneg _)
    · rw [key, d2, div_self hZ0, sub_self, MulZeroClass.mul_zero]
  have lX : len X = len (x - s.center) := by rw [eX, len_rotate hQ]
  have hZL : |Z| ≤ len (x - s.center) := lX ▸ abs_apply_le_len X 2
  have hL : len (x - s.center) ≤ 4 * M := by
    have := len_add_le x (-s.center)
    rw [len_neg, ← sub_eq_add_neg] at this
    exact this.trans (by linarith)
  have Lp : 0 < len (x - s.center) := by linarith
  have zσ := mul_le_mul_of_nonneg_right hZL hσ0
  have zσ' := mul_le_mul_of_nonneg_left hσ z0.le
  have e6 : len (Z • fl.vec d) ≤ 104 / 100 * len (x - s.center) := by
    have i1 := len_add_le (Z • fl.vec d - X) X
    rw [sub_add_cancel, lX] at i1
    norm_num at e4 ⊢
    linarith
  have e7 := rotate_len_close (q := (fl.quat q).inverse) (Q := Q.inverse) (unitQuat_inverse hQ) (η := 85 / 10 ^ 6) (by
    rw [qlen_diff_inverse, qlen_inverse, qlen_inverse]; exact hn) (Z • fl.vec d)
  have hDL : len (Z • r.direction - (x - s.center)) ≤ (3 * σ + 25 / 10 ^ 5) * len (x - s.center) := by
    have e : Z • r.direction - (x - s.center) =
        (Z • (r.direction - (fl.quat q).inverse.rotate (fl.vec d)) +
          ((fl.quat q).inverse.rotate (Z • fl.vec d) - Q.inverse.rotate (Z • fl.vec d))) +
          Q.inverse.rotate (Z • fl.vec d - X) := by
      rw [rotate_sub, rotate_smul, rotate_smul, smul_sub, eX, inverse_rotate_rotate hQ]
      abel
    rw [e]
    refine (len_add_le _ _).trans ?_
    rw [len_rotate (unitQuat_inverse hQ)]
    have i0 := len_add_le (Z • (r.direction - (fl.quat q).inverse.rotate (fl.vec d)))
      ((fl.quat q).inverse.rotate (Z • fl.vec d) - Q.inverse.rotate (Z • fl.vec d))
    rw [len_smul] at i0
    have i1 := mul_le_mul_of_nonneg_left e2 (abs_nonneg Z)
    norm_num at *
    linarith
  have hE : distance x (r.center + Z • r.direction) ≤ (12 * σ + 23 / 10 ^ 4) * M := by
    have e : r.center + Z • r.direction - x = (r.center - s.center) + (Z • r.direction - (x - s.center)) := by abel
    rw [distance, len_sub_comm, e]
    refine (len_add_le _ _).trans ((add_le_add hG hDL).trans ?_)
    have := mul_le_mul_of_nonneg_left hL (show 0 ≤ 3 * σ + 25 / 10 ^ 5 by positivity)
    linarith
  have hZlen : (1 - (3 * σ + 25 / 10 ^ 5)) * len (x - s.center) ≤ |Z| * len r.direction := by
    have i1 := len_add_le (x - s.center - Z • r.direction) (Z • r.direction)
    rw [sub_add_cancel, len_smul, len_sub_comm (x - s.center) (Z • r.direction)] at i1
    linarith
  have hD' : 8 / 10 ≤ len r.direction := by
    have i3 : 9 / 10 * len (x - s.center) ≤ (1 - (3 * σ + 25 / 10 ^ 5)) * len (x - s.center) :=
      mul_le_mul_of_nonneg_right (by norm_num; linarith) Lp.le
    have i4 : |Z| * (8 / 10) ≤ |Z| * len r.direction := by linarith
    exact le_of_mul_le_mul_left i4 z0
  have hDne : r.direction ≠ 0 := len_pos.1 (by linarith)
  refine ⟨⟨fun a => (hrc a).mono (by norm_num), fun a => (hrd a).mono (by norm_num), ?_, ?_⟩, fun a => ?_,
    len_pos.1 Lp, hr ▸ hD', hZ0, hr ▸ hE, hr ▸ hDL⟩
  · by_contra hn
    push Not at hn
    exact hDne (funext fun a => (ed a).trans (hn a))
  · have : (fun a => fl.val (s.ray.direction a)) = r.direction := funext fun a => (ed a).symm
    rw [this]
    have i1 := pow_le_pow_left₀ (by norm_num) hD' 2
    refine le_trans ?_ i1
    norm_num at hω ⊢
    linarith
  · have i1 := (abs_apply_le_len (r.center - s.center) a).trans hG
    rw [Pi.sub_apply, ec] at i1
    have i2 := abs_sub_abs_le_abs_sub (fl.val (s.ray.center a)) (s.center a)
    have i3 : |s.center a| ≤ M := (g.center a).2
    norm_num at i1 ⊢
    linarith

/-- C106: a point seen by several cameras placed by `from_view` is recovered from measured pixels.  With every
pixel within `σ` focal lengths of the projection of the point in the exact view, all coordinates at most `M`, and two of
the cameras seeing the point at the angle `θ`, the pipeline `from_view`, `pixel_to_world`, `to_single_ray`,
`best_intersection_of_rays` returns a finite point within `ρ + 6.5e-5 N / κ * (M + |x| + ρ)` of the true one, where
`κ = 1 - |cos θ| - 12 σ - 0.001 - 7.1e-6 N` and `ρ = (12 σ + 0.0023) M √(N / κ)`. -/
theorem c106_f32_measured {lib' : Libm Format.b64} (hl : lib.Accurate) {os : List (Sighting (F32 lib))}
    (h2 : 2 ≤ os.length) (hM1 : 1 ≤ M) (hM2 : M ≤ 2 ^ 20) (hσ : σ ≤ 1 / 100) (hx : ∀ a, |x a| ≤ M)
    (hg : ∀ o ∈ os, GoodSight32 M x o) (hm : ∀ o ∈ os, Sighted σ x o)
    {a b : Sighting (F32 lib)} (ha : a ∈ os) (hb : b ∈ os) {κ ρ : ℝ}
    (hκ : κ = 1 - absCos (x - a.center) (x - b.center) - 12 * σ - 1 / 1000 - 71 / 10000000 * os.length)
    (hκ0 : 101 / 1000000000 < κ) (hρ : ρ = (12 * σ + 23 / 10 ^ 4) * M * √(os.length / κ)) :
    ∃ pt, bestIntersectionOfRays (Svd3.svd : TrySvd (F64 lib')) (os.map Sighting.ray) = .ok pt ∧
      (∀ j, Flt.isFinite (f := .b32) (pt.data 0 j)) ∧
      distance (fun j => Flt.val (f := .b32) (pt.data 0 j)) x ≤
        ρ + 65 / 1000000 * os.length / κ * (M + (len x + ρ)) :=
  triangulate_near32 h2 hM1 (center := Sighting.center) (ray := Sighting.ray)
    (fun o ho => ((hm o ho).rayAlong32 hl (hg o ho) hσ hM1 hM2 hx).rayTo) ha hb (by rw [hκ]; linarith) hκ0 hρ

/-! ### Non-vacuity -/

/-- Focal lengths 1, principal point (1, 0), camera at `(c, 0, 0)` looking at `(4, 0, 4)` with the y axis up, pixel
`(1, 0)`. -/
noncomputable def sampleSight32 (lib : Libm Format.b32) (c : Fin 10) : Sighting (F32 lib) where
  params := ⟨digit32 lib 1, digit32 lib 1, digit32 lib 0, digit32 lib 1, digit32 lib 0⟩
  camcenter := ![digit32 lib c, digit32 lib 0, digit32 lib 0]
  lookat := ![digit32 lib 4, digit32 lib 0, digit32 lib 4]
  up := ![digit32 lib 0, digit32 lib 1, digit32 lib 0]
  pixel := ⟨fun _ => ![digit32 lib 1, digit32 lib 0]⟩

theorem vec_digits32 (i j k : Fin 10) : (RustFloat.rounding .b32 lib).vec ![digit32 lib i, digit32 lib j, digit32 lib k] =
    ![((i : ℕ) : ℝ), ((j : ℕ) : ℝ), ((k : ℕ) : ℝ)] := by
  funext a
  fin_cases a
  · exact val_digit32 lib i
  · exact val_digit32 lib j
  · exact val_digit32 lib k

theorem sampleSight32_center (c : Fin 10) : (sampleSight32 lib c).center = ![((c : ℕ) : ℝ), 0, 0] :=
  (vec_digits32 c 0 0).trans (by simp)

theorem sampleSight32_lookat (c : Fin 10) :
    (RustFloat.rounding .b32 lib).vec (sampleSight32 lib c).lookat = ![4, 0, 4] := (vec_digits32 4 0 4).trans (by simp)

theorem sampleSight32_up (c : Fin 10) :
    (RustFloat.rounding .b32 lib).vec (sampleSight32 lib c).up = ![0, 1, 0] := (vec_digits32 0 1 0).trans (by simp)

theorem sampleSight32_position {c : Fin 10} (hc : c = 0 ∨ c = 8) :
    (sampleSight32 lib c).position ![4, 0, 4] = ![0, 0, √32] := by
  have hd := sampleSight_dir hc
  have hne : (![4, 0, 4] - ![((c : ℕ) : ℝ), 0, 0]) ⨯₃ ![0, 1, 0] ≠ 0 :=
    len_pos.1 (by rw [hd.2]; exact Real.sqrt_pos.2 (by norm_num))
  obtain ⟨q, hq, hv, hl, -⟩ := fromView_spec nalgebra_rot hne
  rw [Sighting.position, sampleSight32_center, sampleSight32_lookat, sampleSight32_up, hv, pose_apply, translation_eq,
    show quatNormSq q - 1 = 0 from sub_eq_zero.2 hq, zero_smul, _root_.add_zero, ← sub_eq_add_neg, ← rotate_sub, hl, hd.1]

theorem sampleSight32_good {c : Fin 10} (hc : c = 0 ∨ c = 8) : GoodSight32 8 ![4, 0, 4] (sampleSight32 lib c) := by
  have hpos := sampleSight32_position (lib := lib) hc
  have hd := sampleSight_dir hc
  have b : ∀ (k : Fin 10) {B : ℝ}, ((k : ℕ) : ℝ) ≤ B → Flt.Bounded (f := .b32) B (digit32 lib k) := fun k B hk =>
    ⟨trivial, by rw [val_digit32 lib, abs_of_nonneg (Nat.cast_nonneg _)]; exact hk⟩
  have v1 : Flt.val (f := .b32) (digit32 lib 1) = 1 := (val_digit32 lib _).trans (by norm_num)
  have v0 : Flt.val (f := .b32) (digit32 lib 0) = 0 := (val_digit32 lib _).trans (by norm_num)
  have e1 : Flt.val (f := .b32) (sampleSight32 lib c).params.fx = 1 := v1
  have e2 : Flt.val (f := .b32) (sampleSight32 lib c).params.fy = 1 := v1
  have e3 : Flt.val (f := .b32) (sampleSight32 lib c).params.skew = 0 := v0
  have e4 : Flt.val (f := .b32) (sampleSight32 lib c).params.cx = 1 := v1
  have e5 : Flt.val (f := .b32) (sampleSight32 lib c).params.cy = 0 := v0
  have hc8 : ((c : ℕ) : ℝ) ≤ 8 := by
    rcases hc with rfl | rfl <;> norm_num
  have r1 : (1 : ℝ) ≤ √32 := by rw [Real.one_le_sqrt]; norm_num
  have lu : len ![(0 : ℝ), 1, 0] = 1 := by simp [len, Fin.sum_univ_three]
  have p0 : (sampleSight32 lib c).position ![4, 0, 4] 0 = 0 := by rw [hpos]; rfl
  have p1 : (sampleSight32 lib c).position ![4, 0, 4] 1 = 0 := by rw [hpos]; rfl
  have p2 : (sampleSight32 lib c).position ![4, 0, 4] 2 = √32 := by rw [hpos]; rfl
  have hcen := sampleSight32_center (lib := lib) c
  rw [Sighting.center] at hcen
  refine ⟨⟨?_, ?_, ?_, ?_, ?_, ?_⟩, ?_, ?_, ?_, ?_, ?_, ?_, ?_, ?_, ?_, ?_⟩
  · intro a
    fin_cases a
    exacts [b c (hc8.trans (by norm_num)), b 0 (by norm_num), b 0 (by norm_num)]
  · intro a
    fin_cases a
    exacts [b 4 (by norm_num), b 0 (by norm_num), b 4 (by norm_num)]
  · intro a
    fin_cases a
    exacts [b 0 (by norm_num), b 1 (by norm_num), b 0 (by norm_num)]
  · rw [hcen, sampleSight32_lookat, hd.1]
    exact le_trans (by norm_num) r1
  · rw [sampleSight32_up, lu]; norm_num
  · rw [hcen, sampleSight32_lookat, sampleSight32_up, sine, hd.1, hd.2, lu, _root_.mul_one, div_self (by linarith)]
    norm_num
  · intro a
    fin_cases a
    exacts [b c hc8, b 0 (by norm_num), b 0 (by norm_num)]
  · intro y hy
    simp only [List.mem_cons, List.not_mem_nil, or_false] at hy
    rcases hy with rfl | rfl | rfl | rfl | rfl
    exacts [b 1 (by norm_num), b 1 (by norm_num), b 0 (by norm_num), b 1 (by norm_num), b 0 (by norm_num)]
  · rw [e1]; norm_num
  · rw [e2]; norm_num
  · rw [e3, e1]; norm_num
  · rw [e4, e1]; norm_num
  · rw [e5, e2]; norm_num
  · rw [p2]; exact (Real.sqrt_pos.2 (by norm_num)).ne'
  · rw [p0, zero_div, abs_zero]; norm_num
  · rw [p1, zero_div, abs_zero]; norm_num

/-- Both cameras see the point in the middle of the picture. -/
theorem sampleSight32_sighted {c : Fin 10} (hc : c = 0 ∨ c = 8) : Sighted 0 ![4, 0, 4] (sampleSight32 lib c) := by
  have hpos := sampleSight32_position (lib := lib) hc
  have v1 : Flt.val (f := .b32) (digit32 lib 1) = 1 := (val_digit32 lib _).trans (by norm_num)
  have v0 : Flt.val (f := .b32) (digit32 lib 0) = 0 := (val_digit32 lib _).trans (by norm_num)
  have e4 : Flt.val (f := .b32) (sampleSight32 lib c).params.cx = 1 := v1
  have e5 : Flt.val (f := .b32) (sampleSight32 lib c).params.cy = 0 := v0
  have e6 : Flt.val (f := .b32) ((sampleSight32 lib c).pixel.data 0 0) = 1 := v1
  have e7 : Flt.val (f := .b32) ((sampleSight32 lib c).pixel.data 0 1) = 0 := v0
  refine ⟨fun a => ?_, ?_, ?_⟩
  · fin_cases a <;> exact trivial
  · rw [Sighting.projection, hpos, e4, e5, e6]
    simp [Spec.pinhole]
  · rw [Sighting.projection, hpos, e4, e5, e7]
    simp [Spec.pinhole]

theorem sampleSight32_angle :
    absCos (![4, 0, 4] - (sampleSight32 lib 0).center) (![4, 0, 4] - (sampleSight32 lib 8).center) = 0 := by
  rw [sampleSight32_center, sampleSight32_center, absCos, vec3_dotProduct]
  simp only [Pi.sub_apply, Matrix.cons_val]
  norm_num

/-- Non-vacuity of C106: two cameras 8 apart, both looking at (4, 0, 4), each with that point in the middle of the
picture: the `f32` pipeline recovers the point to within a twentieth. -/
example {lib' : Libm Format.b64} (hl : lib.Accurate) :
    ∃ pt, bestIntersectionOfRays (Svd3.svd : TrySvd (F64 lib'))
        [(sampleSight32 lib 0).ray, (sampleSight32 lib 8).ray] = .ok pt ∧
      (∀ j, Flt.isFinite (f := .b32) (pt.data 0 j)) ∧
      distance (fun j => Flt.val (f := .b32) (pt.data 0 j)) ![4, 0, 4] ≤ 1 / 20 := by
  have hlen : ((([sampleSight32 lib 0, sampleSight32 lib 8] : List (Sighting (F32 lib))).length : ℕ) : ℝ) = 2 := by simp
  have mem : ∀ o ∈ [sampleSight32 lib 0, sampleSight32 lib 8], o = sampleSight32 lib 0 ∨ o = sampleSight32 lib 8 := by simp
  obtain ⟨pt, p1, p2, p3⟩ := c106_f32_measured (lib' := lib') hl (os := [sampleSight32 lib 0, sampleSight32 lib 8])
    (M := 8) (σ := 0) (x := ![4, 0, 4]) (by simp) (by norm_num) (by norm_num) (by norm_num)
    (fun a => by fin_cases a <;> norm_num)
    (fun o ho => by
      rcases mem o ho with rfl | rfl
      exacts [sampleSight32_good (Or.inl rfl), sampleSight32_good (Or.inr rfl)])
    (fun o ho => by
      rcases mem o ho with rfl | rfl
      exacts [sampleSight32_sighted (Or.inl rfl), sampleSight32_sighted (Or.inr rfl)])
    (a := sampleSight32 lib 0) (b := sampleSight32 lib 8) (by simp) (by simp) rfl
    (by rw [sampleSight32_angle, hlen]; norm_num) rfl
  refine ⟨pt, p1, p2, p3.trans ?_⟩
  rw [sampleSight32_angle, hlen]
  have l : len ![(4 : ℝ), 0, 4] ≤ 2 * 4 := len_le_entries fun a => by fin_cases a <;> norm_num
  have q : √((2 : ℝ) / (1 - 0 - 12 * 0 - 1 / 1000 - 71 / 10000000 * 2)) ≤ 2 := by
    rw [Real.sqrt_le_left (by norm_num)]
    norm_num
  refine (add_le_add (mul_le_mul_of_nonneg_left q (by norm_num)) (mul_le_mul_of_nonneg_left (add_le_add_right
    (add_le_add l (mul_le_mul_of_nonneg_left q (by norm_num))) _) (by norm_num))).trans ?_
  norm_num

end
end CamGeom
