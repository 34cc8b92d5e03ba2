import Verif.Props.FromView
import Verif.Props.Symmetry

/-!
# C63, C64: more about `from_view`

C63: exact arithmetic.  C64: exact arithmetic except that `π` is replaced by any number `p`, such as the
nearest `f64`.
-/

namespace CamGeom
open Spec Matrix ExtrinsicParameters

/-- The rows of `rotation()` are `right()`, `-up()` and `forward()`. -/
theorem c63_rotation_rows {e : ExtrinsicParameters ℝ} (h : ValidExtrinsics e) :
    e.rotation 0 = e.right ∧ e.rotation 1 = -e.up ∧ e.rotation 2 = e.forward := by
  obtain ⟨q, c, hq, rfl⟩ := h
  have hi := unitQuat_inverse hq
  have e1 : (fromRotationAndCamcenter q c : ExtrinsicParameters ℝ).rotation = q.toRotationMatrix := rfl
  rw [e1, right_eq hq, up_eq hq, forward_eq hq, ← rotate_neg]
  simp only [← mulVec3_toRotationMatrix hi]
  refine ⟨?_, ?_, ?_⟩ <;> funext a <;> fin_cases a <;>
    simp [Quat.toRotationMatrix, Quat.inverse, Mat.mulVec3] <;> ring

/-- C63: `forward()`, `up()` and `camcenter()` determine how extrinsic parameters act on all points. -/
theorem c63_determined {e e' : ExtrinsicParameters ℝ} (h : ValidExtrinsics e) (h' : ValidExtrinsics e')
    (hf : e.forward = e'.forward) (hu : e.up = e'.up) (hc : e.camcenter = e'.camcenter) {n : ℕ}
    (w : Points WorldFrame ℝ n) :
    e.rotation = e'.rotation ∧ e.worldToCamera w = e'.worldToCamera w := by
  obtain ⟨r0, r1, r2⟩ := c63_rotation_rows h
  obtain ⟨s0, s1, s2⟩ := c63_rotation_rows h'
  have hr : ∀ {e : ExtrinsicParameters ℝ}, ValidExtrinsics e → e.right = e.forward ⨯₃ e.up := by
    intro e he
    obtain ⟨-, -, -, -, -, -, h1, h2⟩ := c09_orthonormal he
    obtain ⟨q, c, hq, rfl⟩ := he
    have hi := unitQuat_inverse hq
    rw [right_eq hq, up_eq hq, forward_eq hq, rotate_cross hi]
    congr 1
    rw [cross_apply]; funext a; fin_cases a <;> simp
  have hrot : e.rotation = e'.rotation := by
    funext a
    fin_cases a
    · show e.rotation 0 = e'.rotation 0
      rw [r0, s0, hr h, hr h', hf, hu]
    · show e.rotation 1 = e'.rotation 1
      rw [r1, s1, hu]
    · show e.rotation 2 = e'.rotation 2
      rw [r2, s2, hf]
  refine ⟨hrot, ?_⟩
  ext1; funext i
  rw [worldToCamera_rot h, worldToCamera_rot h', hrot, hc]

/-- C63: only the direction from camera to `lookat` matters, and `up` only up to a positive factor and a
multiple of that direction. -/
theorem c63_invariance {na : Linalg ℝ} (hna : RotationContract na) (c l u : V3 ℝ)
    (hu : (l - c) ⨯₃ u ≠ 0) (s a b : ℝ) (hs : 0 < s) (ha : 0 < a) {n : ℕ}
    (w : Points WorldFrame ℝ n) :
    (fromView na c (c + s • (l - c)) (a • u + b • (l - c))).worldToCamera w =
      (fromView na c l u).worldToCamera w := by
  set d := l - c with hd
  have e1 : c + s • d - c = s • d := add_sub_cancel_left _ _
  have hcr : (s • d) ⨯₃ (a • u + b • d) = (s * a) • (d ⨯₃ u) := by
    rw [map_add, map_smul, map_smul, map_smul]
    simp only [LinearMap.smul_apply, cross_self, smul_zero, add_zero, smul_smul]
    ring_nf
  have hsa : 0 < s * a := mul_pos hs ha
  have hu' : (c + s • d - c) ⨯₃ (a • u + b • d) ≠ 0 := by
    rw [e1, hcr]; exact smul_ne_zero hsa.ne' hu
  have hd0 : d ≠ 0 := by rintro h; apply hu; rw [h]; simp
  have hl := len_pos.2 hd0
  obtain ⟨v1, c1, f1, -⟩ := c07_looks_at hna c (c + s • d) (a • u + b • d) hu'
  obtain ⟨v2, c2, f2, -⟩ := c07_looks_at hna c l u hu
  obtain ⟨-, -, -, r1⟩ := c08_up_right hna c (c + s • d) (a • u + b • d) hu'
  obtain ⟨-, -, -, r2⟩ := c08_up_right hna c l u hu
  have hf : (fromView na c (c + s • d) (a • u + b • d)).forward = (fromView na c l u).forward := by
    rw [f1, f2, distance, distance, e1, ← hd, len_smul, abs_of_pos hs, smul_smul]
    congr 1
    field_simp
  have hr : (fromView na c (c + s • d) (a • u + b • d)).right = (fromView na c l u).right := by
    have hk := len_pos.2 hu
    rw [r1, r2, e1, hcr, len_smul, abs_of_pos hsa, smul_smul, ← hd]
    congr 1
    field_simp
  refine (c63_determined v1 v2 hf ?_ (c1.trans c2.symm) w).2
  rw [← (c09_orthonormal v1).2.2.2.2.2.2.1, ← (c09_orthonormal v2).2.2.2.2.2.2.1, hf, hr]

/-- C63: `from_view` inverts the accessors: the view from `camcenter()` in the direction `forward()` with
`up()` acts like the original extrinsic parameters. -/
theorem c63_view_of_accessors {na : Linalg ℝ} (hna : RotationContract na) {e : ExtrinsicParameters ℝ}
    (he : ValidExtrinsics e) (s : ℝ) (hs : 0 < s) {n : ℕ} (w : Points WorldFrame ℝ n) :
    (fromView na e.camcenter (e.camcenter + s • e.forward) e.up).worldToCamera w =
      e.worldToCamera w := by
  have hr : e.forward ⨯₃ e.up = e.right := by
    obtain ⟨q, c, hq, rfl⟩ := he
    have hi := unitQuat_inverse hq
    rw [right_eq hq, up_eq hq, forward_eq hq, rotate_cross hi]
    congr 1
    rw [cross_apply]; funext a; fin_cases a <;> simp
  obtain ⟨l1, l2, l3, -, -, d3, c1, -⟩ := c09_orthonormal he
  have e1 : e.camcenter + s • e.forward - e.camcenter = s • e.forward := add_sub_cancel_left _ _
  have hcr : (s • e.forward) ⨯₃ e.up = s • e.right := by
    rw [map_smul, LinearMap.smul_apply, hr]
  have hu : (e.camcenter + s • e.forward - e.camcenter) ⨯₃ e.up ≠ 0 := by
    rw [e1, hcr]
    refine smul_ne_zero hs.ne' ?_
    rw [← len_pos, l1]; norm_num
  obtain ⟨v1, k1, f1, -⟩ := c07_looks_at hna _ _ _ hu
  obtain ⟨-, -, -, r1⟩ := c08_up_right hna _ _ _ hu
  have hf : (fromView na e.camcenter (e.camcenter + s • e.forward) e.up).forward = e.forward := by
    rw [f1, distance, e1, len_smul, l3, abs_of_pos hs, smul_smul, mul_one,
      one_div, inv_mul_cancel₀ hs.ne', one_smul]
  have hri : (fromView na e.camcenter (e.camcenter + s • e.forward) e.up).right = e.right := by
    rw [r1, e1, hcr, len_smul, l1, abs_of_pos hs, smul_smul, mul_one,
      one_div, inv_mul_cancel₀ hs.ne', one_smul]
  refine (c63_determined v1 he hf ?_ k1 w).2
  rw [← (c09_orthonormal v1).2.2.2.2.2.2.1, hf, hri, c1]

/-- C63: `from_view` commutes with rotations (`g` a unit quaternion) and translations of the world. -/
theorem c63_equivariance {na : Linalg ℝ} (hna : RotationContract na) (c l u : V3 ℝ)
    (hu : (l - c) ⨯₃ u ≠ 0) {g : Quat ℝ} (hg : UnitQuat g) (t : V3 ℝ) {n : ℕ}
    (w : Points WorldFrame ℝ n) :
    (fromView na (g.rotate c + t) (g.rotate l + t) (g.rotate u)).worldToCamera
        ⟨fun i => g.rotate (w.data i) + t⟩ = (fromView na c l u).worldToCamera w := by
  have e1 : g.rotate l + t - (g.rotate c + t) = g.rotate (l - c) := by
    rw [add_sub_add_right_eq_sub, rotate_sub]
  have hu' : (g.rotate l + t - (g.rotate c + t)) ⨯₃ g.rotate u ≠ 0 := by
    rw [e1, rotate_cross hg]
    exact fun h => hu ((rotate_eq_zero hg).1 h)
  obtain ⟨q, hq, h1, h2, s, k, hk, hs, hkl, h3⟩ := fromView_spec hna hu
  obtain ⟨q', hq', h1', h2', s', k', hk', hs', hkl', h3'⟩ := fromView_spec hna hu'
  rw [e1, len_rotate hg] at h2'
  rw [e1, rotate_dot hg, len_rotate hg] at hs'
  rw [e1, rotate_cross hg, len_rotate hg, len_rotate hg] at hkl'
  have hss : s' = s := by rw [hs', hs]
  have hkk : k' = k := by rw [hkl', hkl]
  rw [hss, hkk] at h3'
  -- `q'` after `g` agrees with `q` on the view direction, on `up` and on their cross product
  have agree : ∀ v, q'.rotate (g.rotate v) = q.rotate v := by
    have hm := unitQuat_mul hq' hg
    intro v
    have a1 : (q'.mul g).rotate (l - c) = q.rotate (l - c) := by
      rw [mul_rotate hq' hg, h2', h2]
    have a2 : (q'.mul g).rotate u = q.rotate u := by rw [mul_rotate hq' hg, h3', h3]
    have a3 : (q'.mul g).rotate ((l - c) ⨯₃ u) = q.rotate ((l - c) ⨯₃ u) := by
      rw [← rotate_cross hm, ← rotate_cross hq, a1, a2]
    rw [← mul_rotate hq' hg]
    -- a vector with prescribed products with a basis
    have hb : ∀ y : V3 ℝ, y ⬝ᵥ q.rotate (l - c) = 0 → y ⬝ᵥ q.rotate u = 0 →
        y ⬝ᵥ q.rotate ((l - c) ⨯₃ u) = 0 → y = 0 := by
      intro y y1 y2 y3
      rw [← rotate_cross hq, h2, h3] at y3
      rw [h2] at y1
      rw [h3] at y2
      have hlen : 0 < len (l - c) := len_pos.2 (by rintro h; apply hu; rw [h]; simp)
      simp [dotProduct, Fin.sum_univ_three, cross_apply] at y1 y2 y3
      have z2 : y 2 = 0 := y1.resolve_right hlen.ne'
      have z1 : y 1 = 0 := by
        rw [z2] at y2; simpa [hk.ne'] using y2
      have z0 : y 0 = 0 := by
        simpa [hk.ne', hlen.ne'] using y3
      funext a; fin_cases a <;> assumption
    have := hb ((q'.mul g).rotate v - q.rotate v)
      (by rw [sub_dotProduct, rotate_dot hq, ← a1, rotate_dot hm, sub_self])
      (by rw [sub_dotProduct, rotate_dot hq, ← a2, rotate_dot hm, sub_self])
      (by rw [sub_dotProduct, rotate_dot hq, ← a3, rotate_dot hm, sub_self])
    exact sub_eq_zero.1 this
  ext1; funext i
  rw [h1, h1', worldToCamera_row hq, worldToCamera_row hq']
  simp only
  rw [add_sub_add_right_eq_sub, ← rotate_sub, agree]

/-- Real arithmetic with another number in place of `π`. -/
noncomputable abbrev scalarWithPi (p : ℝ) : Scalar ℝ := { instScalarReal with pi := p }

/-- Rotation by any angle about a unit axis (Rodrigues). -/
theorem rotate_axisAngle {d : V3 ℝ} (hd : d ⬝ᵥ d = 1) (p : ℝ) (v : V3 ℝ) :
    UnitQuat (Quat.fromAxisAngle d p) ∧
      (Quat.fromAxisAngle d p).rotate v =
        Real.cos p • v + Real.sin p • (d ⨯₃ v) + ((1 - Real.cos p) * (d ⬝ᵥ v)) • d := by
  simp only [dotProduct, Fin.sum_univ_three] at hd
  have h2 : p = 2 * (p / 2) := by ring
  have hc : Real.cos p = 1 - 2 * Real.sin (p / 2) ^ 2 := by
    conv_lhs => rw [h2, Real.cos_two_mul, Real.cos_sq']
    ring
  have hs : Real.sin p = 2 * Real.sin (p / 2) * Real.cos (p / 2) := by
    conv_lhs => rw [h2, Real.sin_two_mul]
  have hsc := Real.sin_sq_add_cos_sq (p / 2)
  have hq : Quat.fromAxisAngle d p = ⟨Real.cos (p / 2), d 0 * Real.sin (p / 2),
      d 1 * Real.sin (p / 2), d 2 * Real.sin (p / 2)⟩ := by
    simp only [Quat.fromAxisAngle, cos_real, sin_real, lit_real]
    norm_num
  rw [hq, hc, hs]
  set S := Real.sin (p / 2)
  set C := Real.cos (p / 2)
  constructor
  · unfold UnitQuat
    simp only
    linear_combination S ^ 2 * hd + hsc
  · rw [rotate_apply]
    funext a
    rw [Pi.add_apply, Pi.add_apply, Pi.smul_apply, Pi.smul_apply, Pi.smul_apply]
    fin_cases a <;> simp [dotProduct, Fin.sum_univ_three, cross_apply]
    · linear_combination -2 * v 0 * S ^ 2 * hd
    · linear_combination -2 * v 1 * S ^ 2 * hd
    · linear_combination -2 * v 2 * S ^ 2 * hd

theorem fromView_unfold {R : Type} [Scalar R] (na : Linalg R) (c l u : V3 R) :
    fromView na c l u = fromRotationAndCamcenter
      ((lookAtLh na (V3.normalize (V3.sub l c)) u).mul
        (Quat.fromAxisAngle (V3.normalize (V3.sub l c)) Scalar.pi)) c := rfl

theorem withPi_1 (p : ℝ) : @V3.normalize ℝ (scalarWithPi p) = @V3.normalize ℝ _ := rfl
theorem withPi_2 (p : ℝ) : @V3.sub ℝ (scalarWithPi p) = @V3.sub ℝ _ := rfl
theorem withPi_3 (p : ℝ) : @lookAtLh ℝ (scalarWithPi p) = @lookAtLh ℝ _ := rfl
theorem withPi_4 (p : ℝ) : @Quat.mul ℝ (scalarWithPi p) = @Quat.mul ℝ _ := rfl
theorem withPi_5 (p : ℝ) : @Quat.fromAxisAngle ℝ (scalarWithPi p) = @Quat.fromAxisAngle ℝ _ := rfl
theorem withPi_8 (p : ℝ) : @Quat.toRotationMatrix ℝ (scalarWithPi p) = @Quat.toRotationMatrix ℝ _ := rfl
theorem withPi_9 (p : ℝ) : @Mat.mulVec3 ℝ (scalarWithPi p) = @Mat.mulVec3 ℝ _ := rfl
theorem withPi_10 (p : ℝ) : @V3.neg ℝ (scalarWithPi p) = @V3.neg ℝ _ := rfl
theorem withPi_11 (p : ℝ) : @Isometry.inverse ℝ (scalarWithPi p) = @Isometry.inverse ℝ _ := rfl
theorem withPi_6 (p : ℝ) :
    @fromRotationAndCamcenter ℝ (scalarWithPi p) = @fromRotationAndCamcenter ℝ _ := by
  funext q c
  unfold fromRotationAndCamcenter
  rw [withPi_8, withPi_9, withPi_10, withPi_11]
  rfl
theorem withPi_7 (p : ℝ) : @Scalar.pi ℝ (scalarWithPi p) = p := rfl
theorem fromView_pi (p : ℝ) (na : Linalg ℝ) (c l u : V3 ℝ) :
    @fromView ℝ (scalarWithPi p) na c l u = fromRotationAndCamcenter
      ((lookAtLh na (V3.normalize (l - c)) u).mul (Quat.fromAxisAngle (V3.normalize (l - c)) p)) c := by
  rw [@fromView_unfold ℝ (scalarWithPi p), withPi_1, withPi_2, withPi_3, withPi_4, withPi_5, withPi_6, withPi_7]
  rfl

/-- C64: what an inexact `π` (such as the nearest `f64`) does to `from_view`: centre, viewing direction and
the pixel of `lookat` stay exact; the camera is turned about its viewing direction by `π - p`. -/
theorem c64_inexact_pi {na : Linalg ℝ} (hna : RotationContract na) (c l u : V3 ℝ)
    (hu : (l - c) ⨯₃ u ≠ 0) (p : ℝ) :
    let e := fromView na c l u
    let e' := @fromView ℝ (scalarWithPi p) na c l u
    ValidExtrinsics e' ∧ e'.camcenter = c ∧ e'.forward = e.forward ∧
    e'.up = Real.cos (Real.pi - p) • e.up + Real.sin (Real.pi - p) • e.right ∧
    e'.right = Real.cos (Real.pi - p) • e.right - Real.sin (Real.pi - p) • e.up := by
  intro e e'
  have hd0 : l - c ≠ 0 := by rintro h; apply hu; rw [h]; simp
  obtain ⟨ve, ce, fe, -⟩ := c07_looks_at hna c l u hu
  obtain ⟨q, hq, he, -⟩ := fromView_spec hna hu
  obtain ⟨l1, l2, l3, d1, d2, d3, c1, -⟩ := c09_orthonormal ve
  have he1 : e = fromRotationAndCamcenter q c := he
  have e2 : e' = _ := fromView_pi p na c l u
  have e1 : e = _ := fromView_unfold na c l u
  have hfz : V3.normalize (l - c) = e.forward := by
    rw [normalize_eq, ← one_div]; exact fe.symm
  change len e.right = 1 at l1
  change len e.forward = 1 at l3
  change e.right ⬝ᵥ e.forward = 0 at d2
  change e.up ⬝ᵥ e.forward = 0 at d3
  clear_value e e'
  clear ve ce fe l2 d1 c1 he
  rw [sub_eq, hfz] at e1
  rw [hfz] at e2
  change e = fromRotationAndCamcenter ((lookAtLh na e.forward u).mul
    (Quat.fromAxisAngle e.forward Real.pi)) c at e1
  generalize lookAtLh na e.forward u = qM at e1 e2
  have hz1 : e.forward ⬝ᵥ e.forward = 1 := by rw [← len_sq, l3, one_pow]
  have hqq : qM.mul (Quat.fromAxisAngle e.forward Real.pi) = q := by
    exact (congrArg rquat e1).symm.trans (congrArg rquat he1)
  have hpi := fun v => (rotate_axisAngle hz1 Real.pi v)
  have hp := fun v => (rotate_axisAngle hz1 p v)
  have hM : UnitQuat qM := by
    have h1 := (hpi 0).1
    have h2 := hq
    rw [← hqq] at h2
    generalize Quat.fromAxisAngle e.forward Real.pi = b at h1 h2
    unfold UnitQuat at *
    simp only [Quat.mul] at h2
    linear_combination h2 - (qM.w ^ 2 + qM.i ^ 2 + qM.j ^ 2 + qM.k ^ 2) * h1
  have hq' := unitQuat_mul hM (hp 0).1
  have r1 : e.right = q.inverse.rotate ![1, 0, 0] := by
    conv_lhs => rw [he1]
    exact right_eq hq c
  have r2 : e.up = q.inverse.rotate ![0, -1, 0] := by
    conv_lhs => rw [he1]
    exact up_eq hq c
  have r3 : e.forward = q.inverse.rotate ![0, 0, 1] := by
    conv_lhs => rw [he1]
    exact forward_eq hq c
  have hi := unitQuat_inverse hq
  have x1 : e.forward ⨯₃ e.up = e.right := by
    rw [r1, r2, r3, rotate_cross hi]; congr 1
    rw [cross_apply]; funext a; fin_cases a <;> simp
  have x2 : e.forward ⨯₃ e.right = -e.up := by
    rw [r1, r2, r3, rotate_cross hi, ← rotate_neg]; congr 1
    rw [cross_apply]; funext a; fin_cases a <;> simp
  rw [dotProduct_comm] at d2 d3
  -- rotation by `p` and by `π` about the viewing direction
  have key : ∀ v w : V3 ℝ, (Quat.fromAxisAngle e.forward p).rotate w =
      (Quat.fromAxisAngle e.forward Real.pi).rotate v →
      (qM.mul (Quat.fromAxisAngle e.forward p)).rotate w = q.rotate v := by
    intro v w h
    rw [mul_rotate hM (hp 0).1, h, ← hqq, mul_rotate hM (hpi 0).1]
  have hcs := Real.sin_sq_add_cos_sq p
  refine ⟨⟨_, _, hq', e2⟩, by rw [e2]; rfl, ?_, ?_, ?_⟩
  · rw [e2, forward_eq hq']
    apply rotate_injective hq'
    rw [rotate_inverse_rotate hq', key e.forward]
    · rw [r3, rotate_inverse_rotate hq]
    · rw [(hp _).2, (hpi _).2, cross_self, hz1]
      simp only [Real.cos_pi, Real.sin_pi]
      funext a
      simp; ring
  · rw [e2, up_eq hq']
    apply rotate_injective hq'
    rw [rotate_inverse_rotate hq', key e.up]
    · rw [r2, rotate_inverse_rotate hq]
    · rw [rotate_add, rotate_smul, rotate_smul, (hp _).2, (hp _).2, (hpi _).2, x1, x2, d2, d3]
      simp only [Real.cos_pi, Real.sin_pi, Real.cos_pi_sub, Real.sin_pi_sub]
      funext a
      simp
      linear_combination (-e.up a) * hcs
  · rw [e2, right_eq hq']
    apply rotate_injective hq'
    rw [rotate_inverse_rotate hq', key e.right]
    · rw [r1, rotate_inverse_rotate hq]
    · rw [rotate_sub, rotate_smul, rotate_smul, (hp _).2, (hp _).2, (hpi _).2, x1, x2, d2, d3]
      simp only [Real.cos_pi, Real.sin_pi, Real.cos_pi_sub, Real.sin_pi_sub]
      funext a
      simp
      linear_combination (-e.right a) * hcs

/-- C64: `lookat` still projects exactly onto the principal point. -/
theorem c64_principal_point {na : Linalg ℝ} (hna : RotationContract na) (c l u : V3 ℝ)
    (hu : (l - c) ⨯₃ u ≠ 0) (π' : ℝ) (p : PerspectiveParams ℝ) :
    ((Camera.mk (IntrinsicParametersPerspective.ofParams p)
      (@fromView ℝ (scalarWithPi π') na c l u)).worldToPixel (.single l)).data 0 = ![p.cx, p.cy] := by
  have hd0 : l - c ≠ 0 := by rintro h; apply hu; rw [h]; simp
  have hlen := len_pos.2 hd0
  obtain ⟨v, hc, hf, -, -⟩ := c64_inexact_pi hna c l u hu π'
  set e' := @fromView ℝ (scalarWithPi π') na c l u
  have h0 := c09_camera_axes v 0 0 (distance l c)
  have hl : e'.camcenter + (0 : ℝ) • e'.right + (0 : ℝ) • e'.up + distance l c • e'.forward = l := by
    have h2 : distance l c ≠ 0 := hlen.ne'
    rw [hc, hf, (c07_looks_at hna c l u hu).2.2.1, smul_smul, mul_one_div_cancel h2]
    simp
  rw [hl] at h0
  refine (c11_pinhole p _ 0 (by rw [h0]; exact hlen.ne')).trans ?_
  rw [h0]; funext a; fin_cases a <;> simp [pinhole]

end CamGeom
