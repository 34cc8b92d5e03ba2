import Verif.Props.FloatPose
import Verif.Props.FloatView

/-!
# C105: the axes of a floating-point camera placed by `from_view`

`forward()` of a camera placed by `from_view` is the direction from the camera to the point looked at, `right()` and
`up()` are the axes of the exact view, up to an error that grows with the distance of the camera from the origin.
-/

namespace CamGeom
open Rounding ExtrinsicParameters Spec Matrix

theorem tight15_loose {n ω M : ℝ} (hn0 : 0 ≤ n) (hn : n ≤ 1 + 1 / 1000) (h0 : 0 ≤ ω) (h1 : ω ≤ 1 / 10 ^ 30) (hM : 1 ≤ M) :
    rotTight n ω M + rotTight n ω (transTight n ω M) ≤ 18 * M := by
  have b0 : 0 ≤ transTight n ω M := by unfold transTight; positivity
  have b1 : (13 / 4 * n + 1) * M ≤ (13 / 4 * (1 + 1 / 1000) + 1) * M :=
    mul_le_mul_of_nonneg_right (by linarith) (by linarith)
  have b2 : ω * (15 * n + 18) ≤ 1 / 10 ^ 30 * 40 := mul_le_mul h1 (by norm_num at hn; linarith) (by linarith) (by norm_num)
  have b3 : (n + 6 * ω) * M ≤ (1 + 1 / 1000 + 6 * (1 / 10 ^ 30)) * M :=
    mul_le_mul_of_nonneg_right (by linarith) (by linarith)
  have b4 : (13 / 4 * n + 1) * transTight n ω M ≤ (13 / 4 * (1 + 1 / 1000) + 1) * transTight n ω M :=
    mul_le_mul_of_nonneg_right (by linarith) b0
  have b5 : transTight n ω M ≤ 301 / 100 * M := by
    unfold transTight
    norm_num at b3 h1 ⊢
    linarith
  unfold rotTight
  norm_num at b1 b2 b4 b5 ⊢
  linarith

/-- Rotations with the same matrix are the same, and so are their inverses. -/
theorem inverse_rotate_of_matrix {Q Q' : Quat ℝ} (hQ : UnitQuat Q) (hQ' : UnitQuat Q')
    (h : Q'.toRotationMatrix = Q.toRotationMatrix) (v : Vec) : Q'.inverse.rotate v = Q.inverse.rotate v := by
  have e : ∀ w, Q'.rotate w = Q.rotate w := by
    intro w
    rw [← mulVec3_toRotationMatrix hQ', ← mulVec3_toRotationMatrix hQ, h]
  rw [← inverse_rotate_rotate hQ (Q'.inverse.rotate v), ← e, rotate_inverse_rotate hQ']

/-- Rotations of a unit vector by a quaternion near a unit quaternion. -/
theorem rotate_unit_close {η : ℝ} {q Q : Quat ℝ} (hQ : UnitQuat Q) (h : qlen (qdiff q Q) * (qlen q + qlen Q) ≤ η)
    {v : Vec} (hv : len v = 1) (a : Fin 3) : |q.rotate v a - Q.rotate v a| ≤ 2 * η := by
  have e : ∀ p : Quat ℝ, p.rotate v a = Mat.mulVec3 p.toRotationMatrix v a - (quatNormSq p - 1) * v a := by
    intro p
    rw [toRotationMatrix_defect, Pi.add_apply, Pi.smul_apply, smul_eq_mul, add_sub_cancel_right]
  rw [e q, e Q, show quatNormSq Q - 1 = 0 from sub_eq_zero.2 hQ]
  have m1 := rotation_dist q Q v a
  rw [hv, _root_.mul_one] at m1
  have m2 := (normSq_dist q Q).trans h
  rw [show quatNormSq Q = 1 from hQ] at m2
  have m3 : |(quatNormSq q - 1) * v a| ≤ η * 1 := by
    rw [abs_mul]
    exact mul_le_mul m2 ((abs_apply_le_len v a).trans hv.le) (abs_nonneg _) ((abs_nonneg _).trans m2)
  have t1 := abs_le.1 (m1.trans h)
  have t2 := abs_le.1 m3
  rw [abs_le]
  constructor <;> linarith [t1.1, t1.2, t2.1, t2.2]

section
variable {f : Format} {lib : Libm f} {c l up : V3 (RustFloat f lib)} {k : ℕ} {M : ℝ}

/-- A computed axis of a well-posed view. -/
theorem view_lookdir (hf : f.Sub64) (hcut : f.Cutoff) (hl : lib.Accurate) (h : WellPosed lib k c l up)
    (hk : 2 * (k + 16) + 2 ≤ f.emax.toNat - 1) (hu : 11000 * f.u ≤ 1 / 2) (hω : f.ω ≤ 1 / 10 ^ 30)
    (hp : (1 + f.u) ^ 15 - 1 ≤ 16 * f.u) (hu2 : 1424 * f.u ≤ 1 / 1000) (hM1 : 1 ≤ M) (hMk : M ≤ 2 ^ k) (hMu : 430000 * f.u * M ≤ 1)
    (hc : ∀ a, Flt.Bounded (f := f) M (c a)) :
    ∃ Q, UnitQuat Q ∧ fromView nalgebra ((RustFloat.rounding f lib).vec c) ((RustFloat.rounding f lib).vec l)
        ((RustFloat.rounding f lib).vec up) = fromRotationAndCamcenter Q ((RustFloat.rounding f lib).vec c) ∧
      ∀ {E : V3 (RustFloat f lib)} {E' : Vec}, (∀ a, Flt.isFinite (f := f) (E a) ∧ Flt.val (f := f) (E a) = E' a) →
        len E' = 1 → ∀ a, Flt.isFinite (f := f) ((fromView nalgebra c l up).lookdir E a) ∧
          |Flt.val (f := f) ((fromView nalgebra c l up).lookdir E a) - Q.inverse.rotate E' a| ≤ 74000 * f.u * M := by
  set fl := RustFloat.rounding f lib with hfl
  have eu : fl.u = f.u := rfl
  have u0 := f.u_pos
  have ω0 := f.ω_pos
  have hω' : f.ω ≤ 1 / 2 ^ 30 := hω.trans (by norm_num)
  have hs := h.angle
  obtain ⟨h1, h2, h3⟩ := float_view hf hcut hl h (by omega) hu hω'
  have hs0 : 0 < sine (fl.vec l - fl.vec c) (fl.vec up) := by linarith
  have hsu : 11000 * fl.u ≤ sine (fl.vec l - fl.vec c) (fl.vec up) := hu.trans hs
  obtain ⟨Q, hQ, hrot, hn⟩ := view_quaternion (RustFloat.roundingMore lib hcut) (RustFloat.roundingView hf hl)
    (RustFloat.four_le_big _ _ (by omega)) (hω'.trans (by norm_num)) h1 rfl hs0 hsu h2
  have hη : fl.u / sine (fl.vec l - fl.vec c) (fl.vec up) ≤ 2 * f.u := by
    rw [div_le_iff₀ hs0, eu]
    nlinarith
  set q := (fromView nalgebra c l up).pose.rotation with hq
  have hd : qlen (qdiff (fl.quat q) Q) * (qlen (fl.quat q) + qlen Q) ≤ 1424 * f.u := by
    linarith [(qlen_bound hQ hn hs0 hsu).2.1]
  have hnorm : |quatNormSq (fl.quat q) - 1| ≤ 1424 * f.u := by
    have h := (normSq_dist (fl.quat q) Q).trans hd
    rwa [show quatNormSq Q = 1 from hQ] at h
  have hDU : (fl.vec l - fl.vec c) ⨯₃ fl.vec up ≠ 0 := by
    intro h
    rw [sine, h, len_eq_zero.2 rfl, zero_div] at hs0
    exact lt_irrefl _ hs0
  obtain ⟨Q', hQ', hv, -⟩ := fromView_spec nalgebra_rot hDU
  refine ⟨Q', hQ', hv, fun {E E'} hE hE' a => ?_⟩
  rw [hv] at hrot
  have hrot' : Q'.toRotationMatrix = Q.toRotationMatrix := hrot
  rw [inverse_rotate_of_matrix hQ hQ' hrot' E']
  have uM : 0 ≤ f.u * M := by positivity
  have uM1 : f.u ≤ f.u * M := le_mul_of_one_le_right u0.le hM1
  have hδ : ((1 + fl.u) ^ 15 - 1) * (rotTight (1 + 1424 * f.u) fl.ω M +
      rotTight (1 + 1424 * f.u) fl.ω (transTight (1 + 1424 * f.u) fl.ω M)) ≤ 288 * (f.u * M) := by
    refine (mul_le_mul hp (tight15_loose (by linarith) (by linarith) ω0.le hω hM1) ?_ (by linarith)).trans
      (le_of_eq (by ring))
    have : 0 ≤ fl.ω := ω0.le
    unfold rotTight transTight
    positivity
  have hη2 : (1 + fl.u) * (288 * (f.u * M) + 14 * (1424 * f.u) * M) + 2 * fl.u ≤ 20300 * (f.u * M) := by
    rw [eu]
    have : f.u * (f.u * M) ≤ 1 / 22000 * (f.u * M) := mul_le_mul_of_nonneg_right (by linarith) uM
    nlinarith
  have hN := lookdir_near (RustFloat.range f lib) (RustFloat.roundingMore lib hcut) (by rw [← hfl, eu]; linarith)
    (hω.trans (by norm_num)) hnorm hu2 h3 (k := k) hM1 hMk
    (fun a => (hc a).1) (fun a => (hc a).2) hk hδ rfl (by rw [← hfl]; linarith) hE hE' a
  refine ⟨hN.1, ?_⟩
  have h8 := hN.2
  have h9 := rotate_unit_close (q := (fl.quat q).inverse) (Q := Q.inverse) (unitQuat_inverse hQ) (η := 1424 * f.u) (by
    rw [qlen_diff_inverse, qlen_inverse, qlen_inverse]; exact hd) hE' a
  have h10 := abs_sub_le (fl.val ((fromView nalgebra c l up).lookdir E a)) ((fl.quat q).inverse.rotate E' a)
    (Q.inverse.rotate E' a)
  refine h10.trans ((add_le_add h8 h9).trans ?_)
  rw [← hfl] at *
  rw [eu] at *
  linarith

/-- The three computed axes against the axes of the exact view. -/
theorem view_axes (hf : f.Sub64) (hcut : f.Cutoff) (hl : lib.Accurate) (h : WellPosed lib k c l up)
    (hk : 2 * (k + 16) + 2 ≤ f.emax.toNat - 1) (hu : 11000 * f.u ≤ 1 / 2) (hω : f.ω ≤ 1 / 10 ^ 30)
    (hp : (1 + f.u) ^ 15 - 1 ≤ 16 * f.u) (hu2 : 1424 * f.u ≤ 1 / 1000) (hM1 : 1 ≤ M) (hMk : M ≤ 2 ^ k)
    (hMu : 430000 * f.u * M ≤ 1) (hc : ∀ a, Flt.Bounded (f := f) M (c a)) {D U W : Vec}
    (hD : D = (RustFloat.rounding f lib).vec l - (RustFloat.rounding f lib).vec c)
    (hU : U = (RustFloat.rounding f lib).vec up) (hW : W = U - ((U ⬝ᵥ D) / (D ⬝ᵥ D)) • D) (a : Fin 3) :
    (Flt.isFinite (f := f) ((fromView nalgebra c l up).forward a) ∧
      |Flt.val (f := f) ((fromView nalgebra c l up).forward a) - D a / len D| ≤ 74000 * f.u * M) ∧
    (Flt.isFinite (f := f) ((fromView nalgebra c l up).right a) ∧
      |Flt.val (f := f) ((fromView nalgebra c l up).right a) - (D ⨯₃ U) a / len (D ⨯₃ U)| ≤ 74000 * f.u * M) ∧
    Flt.isFinite (f := f) ((fromView nalgebra c l up).up a) ∧
      |Flt.val (f := f) ((fromView nalgebra c l up).up a) - W a / len W| ≤ 74000 * f.u * M := by
  obtain ⟨Q, hQ, hv, ax⟩ := view_lookdir hf hcut hl h hk hu hω hp hu2 hM1 hMk hMu hc
  have hs := h.angle
  have hDU : ((RustFloat.rounding f lib).vec l - (RustFloat.rounding f lib).vec c) ⨯₃
      (RustFloat.rounding f lib).vec up ≠ 0 := by
    intro h
    rw [sine, h, len_eq_zero.2 rfl, zero_div] at hs
    norm_num at hs
  obtain ⟨-, -, e1, -⟩ := c07_looks_at nalgebra_rot _ _ _ hDU
  obtain ⟨-, -, e2, e3⟩ := c08_up_right nalgebra_rot _ _ _ hDU
  rw [hv, forward_eq hQ, distance, ← hD] at e1
  rw [hv, up_eq hQ, ← hD, ← hU, ← hW] at e2
  rw [hv, right_eq hQ, ← hD, ← hU] at e3
  have h0 := (RustFloat.rounding f lib).zero
  have h1 := (RustFloat.rounding f lib).one
  have h1' := Is.neg (f := f) (lib := lib) (x := 1) h1
  have r := ax (E := ![1, 0, 0]) (E' := ![1, 0, 0]) (by intro a; fin_cases a <;> [exact h1; exact h0; exact h0]) len_ex a
  have w := ax (E := ![0, -1, 0]) (E' := ![0, -1, 0]) (by intro a; fin_cases a <;> [exact h0; exact h1'; exact h0]) len_ey a
  have z := ax (E := ![0, 0, 1]) (E' := ![0, 0, 1]) (by intro a; fin_cases a <;> [exact h0; exact h0; exact h1]) len_ez a
  rw [e3, Pi.smul_apply, smul_eq_mul, one_div_mul_eq_div] at r
  rw [e2, Pi.smul_apply, smul_eq_mul, one_div_mul_eq_div] at w
  rw [e1, Pi.smul_apply, smul_eq_mul, one_div_mul_eq_div] at z
  exact ⟨z, r, w⟩

end

/-- **C105** for `f64`: a camera placed by `from_view` has finite axes; `forward()` is the direction to the point looked
at, `right()` the normalized cross product of that direction with the up vector, and `up()` the normalized part of the
up vector perpendicular to the direction, each coordinate within `8.3e-12 M`. -/
theorem c105_f64_axes {lib : Libm Format.b64} (hl : lib.Accurate) {c l up : V3 (F64 lib)} {M : ℝ}
    (h : WellPosed lib 400 c l up) (hM1 : 1 ≤ M) (hM : M ≤ 2 * 10 ^ 10) (hc : ∀ a, Flt.Bounded (f := .b64) M (c a))
    {D U W : Vec} (hD : D = (RustFloat.rounding .b64 lib).vec l - (RustFloat.rounding .b64 lib).vec c)
    (hU : U = (RustFloat.rounding .b64 lib).vec up) (hW : W = U - ((U ⬝ᵥ D) / (D ⬝ᵥ D)) • D) (a : Fin 3) :
    (Flt.isFinite (f := .b64) ((fromView nalgebra c l up).forward a) ∧
      |Flt.val (f := .b64) ((fromView nalgebra c l up).forward a) - D a / len D| ≤ 83 / 10 ^ 13 * M) ∧
    (Flt.isFinite (f := .b64) ((fromView nalgebra c l up).right a) ∧
      |Flt.val (f := .b64) ((fromView nalgebra c l up).right a) - (D ⨯₃ U) a / len (D ⨯₃ U)| ≤ 83 / 10 ^ 13 * M) ∧
    Flt.isFinite (f := .b64) ((fromView nalgebra c l up).up a) ∧
      |Flt.val (f := .b64) ((fromView nalgebra c l up).up a) - W a / len W| ≤ 83 / 10 ^ 13 * M := by
  have b : 74000 * Format.b64.u * M ≤ 83 / 10 ^ 13 * M :=
    mul_le_mul_of_nonneg_right (by rw [Format.u_b64]; norm_num) (by linarith)
  obtain ⟨⟨f1, f2⟩, ⟨r1, r2⟩, u1, u2⟩ := view_axes Format.sub64_b64 Format.cutoff_b64 hl h (by show _ ≤ 1023; norm_num)
    (by rw [Format.u_b64]; norm_num) (Format.ω_b64.trans (by norm_num)) (by rw [Format.u_b64]; norm_num)
    (by rw [Format.u_b64]; norm_num) hM1 (hM.trans (le_trans (by norm_num : (2 * 10 ^ 10 : ℝ) ≤ 2 ^ 40)
      (pow_le_pow_right₀ (by norm_num) (by norm_num)))) (by rw [Format.u_b64]; norm_num at hM ⊢; linarith) hc hD hU hW a
  exact ⟨⟨f1, f2.trans b⟩, ⟨r1, r2.trans b⟩, u1, u2.trans b⟩

/-- **C105** for `f32`: likewise within `4.5e-3 M`, for cameras with coordinates up to 35. -/
theorem c105_f32_axes {lib : Libm Format.b32} (hl : lib.Accurate) {c l up : V3 (F32 lib)} {M : ℝ}
    (h : WellPosed lib 40 c l up) (hM1 : 1 ≤ M) (hM : M ≤ 35) (hc : ∀ a, Flt.Bounded (f := .b32) M (c a))
    {D U W : Vec} (hD : D = (RustFloat.rounding .b32 lib).vec l - (RustFloat.rounding .b32 lib).vec c)
    (hU : U = (RustFloat.rounding .b32 lib).vec up) (hW : W = U - ((U ⬝ᵥ D) / (D ⬝ᵥ D)) • D) (a : Fin 3) :
    (Flt.isFinite (f := .b32) ((fromView nalgebra c l up).forward a) ∧
      |Flt.val (f := .b32) ((fromView nalgebra c l up).forward a) - D a / len D| ≤ 45 / 10 ^ 4 * M) ∧
    (Flt.isFinite (f := .b32) ((fromView nalgebra c l up).right a) ∧
      |Flt.val (f := .b32) ((fromView nalgebra c l up).right a) - (D ⨯₃ U) a / len (D ⨯₃ U)| ≤ 45 / 10 ^ 4 * M) ∧
    Flt.isFinite (f := .b32) ((fromView nalgebra c l up).up a) ∧
      |Flt.val (f := .b32) ((fromView nalgebra c l up).up a) - W a / len W| ≤ 45 / 10 ^ 4 * M := by
  have b : 74000 * Format.b32.u * M ≤ 45 / 10 ^ 4 * M :=
    mul_le_mul_of_nonneg_right (by rw [Format.u_b32]; norm_num) (by linarith)
  obtain ⟨⟨f1, f2⟩, ⟨r1, r2⟩, u1, u2⟩ := view_axes Format.sub64_b32 Format.cutoff_b32 hl h (by show _ ≤ 127; norm_num)
    (by rw [Format.u_b32]; norm_num) (Format.ω_b32.le.trans (by norm_num)) (by rw [Format.u_b32]; norm_num)
    (by rw [Format.u_b32]; norm_num) hM1 (hM.trans (by norm_num)) (by rw [Format.u_b32]; norm_num at hM ⊢; linarith)
    hc hD hU hW a
  exact ⟨⟨f1, f2.trans b⟩, ⟨r1, r2.trans b⟩, u1, u2.trans b⟩

/-- Non-vacuity: a camera at the origin looking along the z axis with the y axis up. -/
example (hp : 1 < 2 ^ Format.b64.p) :
    let z : F64 (Libm.rounded .b64) := Flt.whole .b64 0 (by positivity)
    let o : F64 (Libm.rounded .b64) := Flt.whole .b64 1 hp
    |Flt.val (f := .b64) ((fromView nalgebra ![z, z, z] ![z, z, o] ![z, o, z]).forward 2) - 1| ≤ 83 / 10 ^ 13 := by
  intro z o
  obtain ⟨h, hl⟩ := wellPosed_sample .b64 hp 400
  have hz : Flt.val (f := .b64) z = 0 := by simp [z, Flt.whole, Flt.val]
  have ho : Flt.val (f := .b64) o = 1 := by simp [o, Flt.whole, Flt.val]
  have e : (RustFloat.rounding .b64 (Libm.rounded .b64)).vec ![z, z, o] -
      (RustFloat.rounding .b64 (Libm.rounded .b64)).vec ![z, z, z] = ![0, 0, 1] := by
    funext a
    fin_cases a
    · show Flt.val (f := .b64) z - Flt.val (f := .b64) z = 0
      rw [sub_self]
    · show Flt.val (f := .b64) z - Flt.val (f := .b64) z = 0
      rw [sub_self]
    · show Flt.val (f := .b64) o - Flt.val (f := .b64) z = 1
      rw [hz, ho, sub_zero]
  have b : ∀ a, Flt.Bounded (f := .b64) 1 ((![z, z, z] : V3 (F64 (Libm.rounded .b64))) a) := by
    intro a
    fin_cases a <;> exact Flt.bounded_whole (f := .b64) (k := 0) (B := 1) (by positivity) (by simp)
  have r := (c105_f64_axes hl h le_rfl (by norm_num) b rfl rfl rfl 2).1.2
  rw [e, len_ez] at r
  simpa using r

end CamGeom
