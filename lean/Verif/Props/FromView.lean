import Verif.Props.CameraRays
import Verif.Lemmas.RotationToQuat
import Mathlib.Tactic.Positivity

/-!
# C07 and C08: `from_view`

`hna` is the contract of nalgebra's rotation-matrix-to-quaternion conversion; it is satisfied by
nalgebra's method (`rotationContract_shepperd`).  The guard `(lookat - camcenter) ⨯₃ up ≠ 0` says
that `lookat ≠ camcenter` and `up` is nonzero and not parallel to the view direction.
-/

namespace CamGeom
open Spec Matrix ExtrinsicParameters

/-- Columns `x`, `z × x`, `z` with `x`, `z` orthonormal form a rotation. -/
theorem isRotation_of_xz {x z : V3 ℝ} (hx : x ⬝ᵥ x = 1) (hz : z ⬝ᵥ z = 1) (hxz : x ⬝ᵥ z = 0) :
    IsRotation ![![x 0, (z ⨯₃ x) 0, z 0], ![x 1, (z ⨯₃ x) 1, z 1], ![x 2, (z ⨯₃ x) 2, z 2]] := by
  simp only [dotProduct, Fin.sum_univ_three] at hx hz hxz
  constructor
  · ext a b
    fin_cases a <;> fin_cases b <;>
      simp [Matrix.mul_apply, Fin.sum_univ_three, cross_apply]
    · linear_combination hx
    · ring
    · linear_combination hxz
    · ring
    · linear_combination (z 0 * z 0 + z 1 * z 1 + z 2 * z 2) * hx + hz
        - (x 0 * z 0 + x 1 * z 1 + x 2 * z 2) * hxz
    · ring
    · linear_combination hxz
    · ring
    · linear_combination hz
  · rw [Matrix.det_fin_three]
    simp [cross_apply]
    linear_combination (z 0 * z 0 + z 1 * z 1 + z 2 * z 2) * hx + hz
        - (x 0 * z 0 + x 1 * z 1 + x 2 * z 2) * hxz

/-- Rotation by π about a unit axis. -/
theorem rotate_pi {d : V3 ℝ} (hd : d ⬝ᵥ d = 1) (v : V3 ℝ) :
    UnitQuat (Quat.fromAxisAngle d Real.pi) ∧
      (Quat.fromAxisAngle d Real.pi).rotate v = (2 * (d ⬝ᵥ v)) • d - v := by
  simp only [dotProduct, Fin.sum_univ_three] at hd
  have hc : Real.cos (Real.pi / ((2 : ℚ) : ℝ)) = 0 := by norm_num
  have hs : Real.sin (Real.pi / ((2 : ℚ) : ℝ)) = 1 := by norm_num
  have hq : Quat.fromAxisAngle d Real.pi = ⟨0, d 0, d 1, d 2⟩ := by
    simp only [Quat.fromAxisAngle, cos_real, sin_real, lit_real, hc, hs, mul_one]
  constructor
  · rw [hq]; unfold UnitQuat; linear_combination hd
  · rw [hq, rotate_apply]
    funext a
    fin_cases a <;> simp [dotProduct, Fin.sum_univ_three]
    · linear_combination -2 * v 0 * hd
    · linear_combination -2 * v 1 * hd
    · linear_combination -2 * v 2 * hd

theorem mulVec3_col (M : Mat 3 3 ℝ) :
    Mat.mulVec3 M ![1, 0, 0] = (fun a => M a 0) ∧ Mat.mulVec3 M ![0, 1, 0] = (fun a => M a 1) ∧
    Mat.mulVec3 M ![0, 0, 1] = (fun a => M a 2) := by
  refine ⟨?_, ?_, ?_⟩ <;> funext a <;> simp [Mat.mulVec3]

/-- What `from_view` computes: a unit rotation sending the view direction to +z, the image of the
supplied up vector into the (-y, z) half plane, and `dir × up` to +x. -/
theorem fromView_spec {na : Linalg ℝ} (hna : RotationContract na) {c l u : V3 ℝ}
    (hu : (l - c) ⨯₃ u ≠ 0) :
    ∃ q, UnitQuat q ∧ fromView na c l u = fromRotationAndCamcenter q c ∧
      q.rotate (l - c) = ![0, 0, len (l - c)] ∧
      ∃ s k : ℝ, 0 < k ∧ s = (u ⬝ᵥ (l - c)) / len (l - c) ∧ k = len ((l - c) ⨯₃ u) / len (l - c) ∧
        q.rotate u = ![0, -k, s] := by
  set d := l - c with hd
  have hd0 : d ≠ 0 := by rintro h; apply hu; rw [h]; simp
  have hlen := len_pos.2 hd0
  set z := V3.normalize d with hz
  have hzd : d = len d • z := by rw [hz, normalize_eq, smul_smul, mul_inv_cancel₀ hlen.ne', one_smul]
  have hz1 : z ⬝ᵥ z = 1 := by rw [← len_sq, hz, len_normalize hd0, one_pow]
  have hzz : V3.normalize z = z := normalize_of_len_one (by rw [hz, len_normalize hd0])
  -- the x axis of `face_towards`
  have huz : u ⨯₃ z ≠ 0 := by
    intro h
    apply hu
    rw [hzd, ← cross_anticomm, map_smul, h]; simp
  set k := len (u ⨯₃ z) with hk
  have hkpos : 0 < k := len_pos.2 huz
  set x := V3.normalize (u ⨯₃ z) with hx
  have hxk : u ⨯₃ z = k • x := by rw [hx, normalize_eq, smul_smul, mul_inv_cancel₀ hkpos.ne', one_smul]
  have hx1 : x ⬝ᵥ x = 1 := by rw [← len_sq, hx, len_normalize huz, one_pow]
  have hxz : x ⬝ᵥ z = 0 := by
    have : k * (x ⬝ᵥ z) = 0 := by
      rw [← smul_eq_mul, ← smul_dotProduct, ← hxk, dotProduct_comm, dot_cross_self]
    exact (mul_eq_zero.1 this).resolve_left hkpos.ne'
  have hxu : x ⬝ᵥ u = 0 := by
    have : k * (x ⬝ᵥ u) = 0 := by
      rw [← smul_eq_mul, ← smul_dotProduct, ← hxk, dotProduct_comm, dot_self_cross]
    exact (mul_eq_zero.1 this).resolve_left hkpos.ne'
  have hM := isRotation_of_xz hx1 hz1 hxz
  obtain ⟨hqM, hMq⟩ := hna _ hM
  set qM := na.fromRotationMatrix _ with hqMdef
  have hft : faceTowardsMatrix z u =
      ![![x 0, (z ⨯₃ x) 0, z 0], ![x 1, (z ⨯₃ x) 1, z 1], ![x 2, (z ⨯₃ x) 2, z 2]] := by
    simp only [faceTowardsMatrix, hzz, cross_eq, ← hx]
  have hcol : ∀ v, qM.rotate v = Mat.mulVec3
      ![![x 0, (z ⨯₃ x) 0, z 0], ![x 1, (z ⨯₃ x) 1, z 1], ![x 2, (z ⨯₃ x) 2, z 2]] v := by
    intro v; rw [← mulVec3_toRotationMatrix hqM, hMq]
  have e1 : qM.inverse.rotate x = ![1, 0, 0] := by
    have : qM.rotate ![1, 0, 0] = x := by
      rw [hcol, (mulVec3_col _).1]; funext a; fin_cases a <;> rfl
    rw [← this, inverse_rotate_rotate hqM]
  have e2 : qM.inverse.rotate (z ⨯₃ x) = ![0, 1, 0] := by
    have : qM.rotate ![0, 1, 0] = z ⨯₃ x := by
      rw [hcol, (mulVec3_col _).2.1]; funext a; fin_cases a <;> rfl
    rw [← this, inverse_rotate_rotate hqM]
  have e3 : qM.inverse.rotate z = ![0, 0, 1] := by
    have : qM.rotate ![0, 0, 1] = z := by
      rw [hcol, (mulVec3_col _).2.2]; funext a; fin_cases a <;> rfl
    rw [← this, inverse_rotate_rotate hqM]
  -- decomposition of `up`
  have hup : u = (u ⬝ᵥ z) • z + k • (z ⨯₃ x) := by
    have h1 : k • (z ⨯₃ x) = z ⨯₃ (u ⨯₃ z) := by rw [hxk, map_smul]
    rw [h1]
    simp only [dotProduct, Fin.sum_univ_three] at hz1
    funext a
    fin_cases a <;> simp [cross_apply, dotProduct, Fin.sum_univ_three]
    · linear_combination -u 0 * hz1
    · linear_combination -u 1 * hz1
    · linear_combination -u 2 * hz1
  refine ⟨(qM.inverse).mul (Quat.fromAxisAngle z Real.pi),
    unitQuat_mul (unitQuat_inverse hqM) (rotate_pi hz1 0).1, ?_, ?_, u ⬝ᵥ z, k, hkpos, ?_, ?_, ?_⟩
  · simp only [fromView, sub_eq, ← hd, ← hz, lookAtLh, hft, pi_real]
    rfl
  · rw [mul_rotate (unitQuat_inverse hqM) (rotate_pi hz1 0).1]
    conv_lhs => rw [hzd]
    rw [rotate_smul, rotate_smul, (rotate_pi hz1 z).2, hz1]
    have : ((2 * 1 : ℝ) • z - z) = z := by funext a; simp; ring
    rw [this, e3]
    funext a; fin_cases a <;> simp
  · conv_rhs => rw [hzd]
    rw [dotProduct_smul, smul_eq_mul, len_smul]
    rw [hz, len_normalize hd0, ← hz, abs_of_pos hlen, mul_one, mul_div_cancel_left₀ _ hlen.ne']
  · have h1 : len (d ⨯₃ u) = len d * k := by
      conv_lhs => rw [hzd]
      have h2 : (len d • z) ⨯₃ u = (-len d) • (u ⨯₃ z) := by
        rw [← cross_anticomm, map_smul, neg_smul]
      rw [h2, len_smul, abs_neg, abs_of_pos hlen]
    rw [h1, mul_div_cancel_left₀ _ hlen.ne']
  · rw [mul_rotate (unitQuat_inverse hqM) (rotate_pi hz1 0).1]
    rw [(rotate_pi hz1 u).2]
    have : (2 * (z ⬝ᵥ u)) • z - u = (u ⬝ᵥ z) • z + (-k) • (z ⨯₃ x) := by
      conv_lhs => rw [dotProduct_comm z u]
      conv_lhs => arg 2; rw [hup]
      funext a; simp; ring
    rw [this, rotate_add, rotate_smul, rotate_smul, e3, e2]
    funext a; fin_cases a <;> simp

/-- C07: `from_view` gives valid extrinsics at `camcenter`, looking at `lookat`. -/
theorem c07_looks_at {na : Linalg ℝ} (hna : RotationContract na) (c l u : V3 ℝ)
    (hu : (l - c) ⨯₃ u ≠ 0) :
    ValidExtrinsics (fromView na c l u) ∧ (fromView na c l u).camcenter = c ∧
    (fromView na c l u).forward = (1 / distance l c) • (l - c) ∧
    ((fromView na c l u).worldToCamera (.single l)).data 0 = ![0, 0, distance l c] := by
  obtain ⟨q, hq, hf, hdir, -⟩ := fromView_spec hna hu
  have hd0 : l - c ≠ 0 := by rintro h; apply hu; rw [h]; simp
  have hlen := len_pos.2 hd0
  rw [hf]
  refine ⟨⟨q, c, hq, rfl⟩, rfl, ?_, ?_⟩
  · rw [forward_eq hq]
    apply rotate_injective hq
    rw [rotate_inverse_rotate hq, rotate_smul, hdir, distance]
    funext a; fin_cases a <;> simp [hlen.ne']
  · rw [worldToCamera_row hq]; exact hdir

/-- C07: `lookat` projects onto the principal point of a perspective camera and onto the image
centre of an orthographic camera. -/
theorem c07_principal_point {na : Linalg ℝ} (hna : RotationContract na) (c l u : V3 ℝ)
    (hu : (l - c) ⨯₃ u ≠ 0) (p : PerspectiveParams ℝ) (o : OrthographicParams ℝ) :
    ((Camera.mk (IntrinsicParametersPerspective.ofParams p) (fromView na c l u)).worldToPixel
      (.single l)).data 0 = ![p.cx, p.cy] ∧
    ((Camera.mk (IntrinsicParametersOrthographic.ofParams o) (fromView na c l u)).worldToPixel
      (.single l)).data 0 = ![o.cx, o.cy] := by
  have hd0 : l - c ≠ 0 := by rintro h; apply hu; rw [h]; simp
  have hlen := len_pos.2 hd0
  have h := (c07_looks_at hna c l u hu).2.2.2
  constructor
  · refine (c11_pinhole p _ 0 (by rw [h]; exact hlen.ne')).trans ?_
    rw [h]; funext a; fin_cases a <;> simp [pinhole]
  · refine (c12_formula o _ 0).trans ?_
    rw [h]; funext a; fin_cases a <;> simp [orthographic]

/-- C08: `up()` is the normalized part of the supplied up vector perpendicular to the view direction,
and `right()` is the normalized `view direction × up`. -/
theorem c08_up_right {na : Linalg ℝ} (hna : RotationContract na) (c l u : V3 ℝ)
    (hu : (l - c) ⨯₃ u ≠ 0) :
    let w := u - ((u ⬝ᵥ (l - c)) / ((l - c) ⬝ᵥ (l - c))) • (l - c)
    w ⬝ᵥ (l - c) = 0 ∧ w ≠ 0 ∧
    (fromView na c l u).up = (1 / len w) • w ∧
    (fromView na c l u).right = (1 / len ((l - c) ⨯₃ u)) • ((l - c) ⨯₃ u) := by
  obtain ⟨q, hq, hf, hdir, s, k, hk, hs, hkl, hup⟩ := fromView_spec hna hu
  have hd0 : l - c ≠ 0 := by rintro h; apply hu; rw [h]; simp
  have hlen := len_pos.2 hd0
  intro w
  have hdd : (l - c) ⬝ᵥ (l - c) = len (l - c) ^ 2 := (len_sq _).symm
  have hqw : q.rotate w = ![0, -k, 0] := by
    simp only [w]
    rw [rotate_sub, rotate_smul, hup, hdir, hdd]
    funext a
    fin_cases a <;> simp [-dotProduct_sub]
    rw [hs]; field_simp; ring
  have hlw : len w = k := by
    rw [← len_rotate hq, hqw, len]
    simp [Fin.sum_univ_three, Real.sqrt_sq hk.le]
  refine ⟨?_, ?_, ?_, ?_⟩
  · rw [← rotate_dot hq, hqw, hdir]; simp [dotProduct, Fin.sum_univ_three]
  · rw [← len_pos, hlw]; exact hk
  · rw [hf, up_eq hq]
    apply rotate_injective hq
    rw [rotate_inverse_rotate hq, rotate_smul, hqw, hlw]
    funext a; fin_cases a <;> simp [hk.ne']
  · rw [hf, right_eq hq]
    apply rotate_injective hq
    rw [rotate_inverse_rotate hq, rotate_smul, ← rotate_cross hq, hdir, hup]
    have hl : len ((l - c) ⨯₃ u) = k * len (l - c) := by rw [hkl]; field_simp
    rw [hl, cross_apply]
    funext a; fin_cases a <;> simp
    field_simp

/-- C08: with positive `fy`, a point displaced from `lookat` along the supplied up vector (and still
in front of the camera) projects strictly above the principal point; without skew, straight above. -/
theorem c08_up_in_image {na : Linalg ℝ} (hna : RotationContract na) (c l u : V3 ℝ)
    (hu : (l - c) ⨯₃ u ≠ 0) (p : PerspectiveParams ℝ) (hfy : 0 < p.fy) (s : ℝ) (hs : 0 < s)
    (hz : 0 < ((fromView na c l u).worldToCamera (.single (l + s • u))).data 0 2) :
    let px := ((Camera.mk (IntrinsicParametersPerspective.ofParams p)
      (fromView na c l u)).worldToPixel (.single (l + s • u))).data 0
    px 1 < p.cy ∧ (p.skew = 0 → px 0 = p.cx) := by
  obtain ⟨q, hq, hf, hdir, s', k, hk, -, -, hup⟩ := fromView_spec hna hu
  have hrow : ((fromView na c l u).worldToCamera (.single (l + s • u))).data 0 =
      ![0, -(s * k), len (l - c) + s * s'] := by
    rw [hf, worldToCamera_row hq]
    have : (Points.single (l + s • u) : Points WorldFrame ℝ 1).data 0 - c = (l - c) + s • u := by
      simp only [Points.single]; abel
    rw [this, rotate_add, rotate_smul, hdir, hup]
    funext a; fin_cases a <;> simp
  intro px
  have hpx : px = _ := c11_pinhole p ((fromView na c l u).worldToCamera (.single (l + s • u))) 0 hz.ne'
  rw [hrow] at hz
  rw [hpx, hrow]
  have hz' : 0 < len (l - c) + s * s' := hz
  constructor
  · simp only [pinhole, Matrix.cons_val]
    have : p.fy * (-(s * k) / (len (l - c) + s * s')) < 0 := by
      apply mul_neg_of_pos_of_neg hfy
      apply div_neg_of_neg_of_pos _ hz'
      have := mul_pos hs hk
      linarith
    linarith
  · intro h0
    simp [pinhole, h0]

/-- Non-vacuity of C07/C08: nalgebra's conversion, the camera of the crate's documentation
(at (10,0,0), looking at the origin, up = +z). -/
example : RotationContract ⟨fun _ => (0, 0), shepperd⟩ ∧
    ((![0, 0, 0] : V3 ℝ) - ![10, 0, 0]) ⨯₃ ![0, 0, 1] ≠ 0 := by
  refine ⟨rotationContract_shepperd _, fun h => ?_⟩
  have := congrFun h 1
  simp [cross_apply] at this

end CamGeom
