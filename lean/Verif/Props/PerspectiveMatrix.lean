import Verif.Props.Linearize
import Verif.Lemmas.RQ
import Verif.Lemmas.Householder

/-!
# C23–C26: cameras from 3x4 projection matrices

`hqr` and `hrot` are the contracts of nalgebra's QR and of its matrix-to-quaternion conversion; both
are proved for nalgebra's algorithms (`nalgebra_qr`, `nalgebra_rot`), see `c23_nalgebra`, `c26_nalgebra`.
-/

namespace CamGeom
open Spec Matrix ExtrinsicParameters

/-- The left 3x3 block of a 3x4 matrix. -/
def leftBlock (P : Mat 3 4 ℝ) : Matrix (Fin 3) (Fin 3) ℝ := Matrix.of fun i j => P i j.castSucc

theorem removeColumn_three (P : Mat 3 4 ℝ) : Matrix.of (Mat.removeColumn P 3) = leftBlock P := by
  ext i j; fin_cases j <;> rfl

/-- `pmat2cam_center` solves `A c = -p₄` (Cramer's rule). -/
theorem camCenter_spec {P : Mat 3 4 ℝ} (h : (leftBlock P).det ≠ 0) :
    homImage P (Camera.pmat2camCenter P) = 0 := by
  have hw : -Mat.det3 (Mat.removeColumn P 3) ≠ 0 := by
    rw [det3_eq, removeColumn_three]; exact neg_ne_zero.2 h
  have key : ∀ x y z w : ℝ, w ≠ 0 → ∀ a, P a 0 * x + P a 1 * y + P a 2 * z + P a 3 * w = 0 →
      P a 0 * (x / w) + P a 1 * (y / w) + P a 2 * (z / w) + P a 3 * 1 = 0 := by
    intro x y z w hw a h; field_simp; linarith
  funext a
  simp only [homImage, Matrix.mulVec, dotProduct, Fin.sum_univ_four, Matrix.of_apply,
    Camera.pmat2camCenter, Matrix.cons_val, Pi.zero_apply]
  refine key _ _ _ _ hw a ?_
  have e : ∀ (c : Fin 4) (j : Fin 3), Fin.succAbove c j = if j.castSucc < c then j.castSucc else j.succ :=
    fun c j => rfl
  fin_cases a <;> simp [Mat.det3, Mat.removeColumn, e] <;> ring

theorem homImage_eq (P : Mat 3 4 ℝ) (x : Vec) (a : Fin 3) :
    homImage P x a = (leftBlock P).mulVec x a + P a 3 := by
  simp [homImage, leftBlock, Matrix.mulVec, dotProduct, Fin.sum_univ_four, Fin.sum_univ_three]

/-- What `from_perspective_matrix` computes. -/
theorem fromPerspectiveMatrix_spec {na : Linalg ℝ} (hqr : QrContract na) {P : Mat 3 4 ℝ}
    (h : (leftBlock P).det ≠ 0) :
    ∃ Rot K : Mat 3 3 ℝ, IsRotation Rot ∧ Upper K ∧ Matrix.of K * Matrix.of Rot = leftBlock P ∧
      ((∀ i, 0 < K i i) ∨ ∀ i, K i i < 0) ∧
      Camera.fromPerspectiveMatrix na P = .ok
        { intrinsics := .ofParams ⟨K 0 0 / K 2 2, K 1 1 / K 2 2, K 0 1 / K 2 2, K 0 2 / K 2 2,
            K 1 2 / K 2 2⟩
          extrinsics := fromRotationAndCamcenter (na.fromRotationMatrix Rot)
            (Camera.pmat2camCenter P) } := by
  have hA : (Matrix.of (Mat.removeColumn P 3)).det ≠ 0 := by rw [removeColumn_three]; exact h
  obtain ⟨Rot, K, hdec, hR, hU, hKR, hs⟩ := rqDecomposition_spec hqr hA
  refine ⟨Rot, K, hR, hU, by rw [hKR, removeColumn_three], hs, ?_⟩
  simp only [Camera.fromPerspectiveMatrix, hdec, bind, Except.bind, pure, Except.pure, Mat.scale,
    lit_real, Rat.cast_one, mul_one_div]

theorem kmul_params {K : Mat 3 3 ℝ} (hU : Upper K) (h22 : K 2 2 ≠ 0) (v : V3 ℝ) :
    K 2 2 • kmul ⟨K 0 0 / K 2 2, K 1 1 / K 2 2, K 0 1 / K 2 2, K 0 2 / K 2 2, K 1 2 / K 2 2⟩ v =
      (Matrix.of K).mulVec v := by
  have h10 := hU 1 0 (by decide)
  have h20 := hU 2 0 (by decide)
  have h21 := hU 2 1 (by decide)
  funext a
  fin_cases a <;> simp [kmul, Matrix.mulVec, dotProduct, Fin.sum_univ_three, h10, h20, h21] <;>
    field_simp

theorem diag_ne {K : Mat 3 3 ℝ} (hs : (∀ i, 0 < K i i) ∨ ∀ i, K i i < 0) (i : Fin 3) : K i i ≠ 0 :=
  hs.elim (fun h => (h i).ne') fun h => (h i).ne

/-- The homogeneous image under `P` is a multiple of what the returned camera computes. -/
theorem homImage_of_spec {P : Mat 3 4 ℝ} (h : (leftBlock P).det ≠ 0) {Rot K : Mat 3 3 ℝ}
    {q : Quat ℝ} (hq : UnitQuat q) (hqR : q.toRotationMatrix = Rot) (hU : Upper K)
    (hKR : Matrix.of K * Matrix.of Rot = leftBlock P) (h22 : K 2 2 ≠ 0) (x : Vec) :
    homImage P x = K 2 2 • kmul ⟨K 0 0 / K 2 2, K 1 1 / K 2 2, K 0 1 / K 2 2, K 0 2 / K 2 2,
      K 1 2 / K 2 2⟩ (q.rotate (x - Camera.pmat2camCenter P)) := by
  rw [kmul_params hU h22, ← mulVec3_toRotationMatrix hq, mulVec3_eq, hqR, Matrix.mulVec_mulVec, hKR]
  funext a
  have hc := congrFun (camCenter_spec h) a
  rw [homImage_eq, Pi.zero_apply] at hc
  rw [homImage_eq, Matrix.mulVec_sub, Pi.sub_apply]
  linarith

/-- C23: the returned camera projects as the matrix does, and its centre is the null vector. -/
theorem c23_reproduces {na : Linalg ℝ} (hqr : QrContract na) (hrot : RotationContract na)
    (P : Mat 3 4 ℝ) (hP : (leftBlock P).det ≠ 0) :
    ∃ cam, Camera.fromPerspectiveMatrix na P = .ok cam ∧
      homImage P cam.extrinsics.camcenter = 0 ∧
      ∀ (n : ℕ) (w : Points WorldFrame ℝ n) (i : Fin n), homImage P (w.data i) 2 ≠ 0 →
        (cam.worldToPixel w).data i = homProject P (w.data i) ∧
        (cam.extrinsics.worldToCamera w).data i 2 ≠ 0 := by
  obtain ⟨Rot, K, hR, hU, hKR, hs, hok⟩ := fromPerspectiveMatrix_spec hqr hP
  obtain ⟨hq, hqR⟩ := hrot Rot hR
  have h22 := diag_ne hs 2
  refine ⟨_, hok, camCenter_spec hP, fun n w i hz => ?_⟩
  have him := homImage_of_spec hP hq hqR hU hKR h22 (w.data i)
  constructor
  · rw [persp_worldToPixel_row _ hq, homProject, him]
    simp only [Pi.smul_apply, smul_eq_mul, mul_div_mul_left _ _ h22]
    simp [kmul]
  · rw [worldToCamera_row hq]
    intro h0
    apply hz
    rw [him]
    simp [kmul, h0]

/-- C24: `from_perspective_matrix` never returns an error, for any scalar type, any matrix and any
linear algebra routines. -/
theorem c24_never_fails {R : Type} [Scalar R] (na : Linalg R) (P : Mat 3 4 R) :
    ∃ cam, Camera.fromPerspectiveMatrix na P = .ok cam := by
  unfold Camera.fromPerspectiveMatrix Camera.rqDecomposition
  simp only [bind, Except.bind, pure, Except.pure]
  split
  · split at * <;> simp_all
  · exact ⟨_, rfl⟩

/-- C24: for an invertible left block the focal lengths are positive and the rotation is proper. -/
theorem c24_positive_proper {na : Linalg ℝ} (hqr : QrContract na) (hrot : RotationContract na)
    (P : Mat 3 4 ℝ) (hP : (leftBlock P).det ≠ 0) {cam : Camera ℝ (IntrinsicParametersPerspective ℝ)}
    (hc : Camera.fromPerspectiveMatrix na P = .ok cam) :
    0 < cam.intrinsics.fx ∧ 0 < cam.intrinsics.fy ∧ ValidExtrinsics cam.extrinsics ∧
      IsRotation cam.extrinsics.rotation ∧ UnitQuat cam.extrinsics.rquat := by
  obtain ⟨Rot, K, hR, hU, hKR, hs, hok⟩ := fromPerspectiveMatrix_spec hqr hP
  obtain ⟨hq, hqR⟩ := hrot Rot hR
  rw [hok] at hc
  cases hc
  have hv : ValidExtrinsics (fromRotationAndCamcenter (na.fromRotationMatrix Rot)
      (Camera.pmat2camCenter P)) := ⟨_, _, hq, rfl⟩
  refine ⟨?_, ?_, hv, (c05_translation_rotation hv).2, hq⟩
  · rcases hs with h | h
    · exact div_pos (h 0) (h 2)
    · exact div_pos_of_neg_of_neg (h 0) (h 2)
  · rcases hs with h | h
    · exact div_pos (h 1) (h 2)
    · exact div_pos_of_neg_of_neg (h 1) (h 2)

/-- Uniqueness of the RQ factorization up to scale. -/
theorem rq_unique {K K' R R' : Mat 3 3 ℝ} {s : ℝ} (hs0 : s ≠ 0) (hU : Upper K) (hU' : Upper K')
    (hR : IsRotation R) (hR' : IsRotation R') (hs : (∀ i, 0 < K i i) ∨ ∀ i, K i i < 0)
    (hs' : (∀ i, 0 < K' i i) ∨ ∀ i, K' i i < 0)
    (h : Matrix.of K' * Matrix.of R' = s • (Matrix.of K * Matrix.of R)) :
    R' = R ∧ ∀ i j, K' i j = s * K i j := by
  have hRR : Matrix.of R' * (Matrix.of R').transpose = 1 := mul_eq_one_comm.1 hR'.1
  set W : Mat 3 3 ℝ := Matrix.of.symm (Matrix.of R * (Matrix.of R').transpose) with hW
  have hWof : Matrix.of W = Matrix.of R * (Matrix.of R').transpose := rfl
  have hWrot : IsRotation W := by
    constructor
    · rw [hWof, transpose_mul, transpose_transpose, mul_assoc, ← mul_assoc (Matrix.of R).transpose,
        hR.1, one_mul, hRR]
    · rw [hWof, det_mul, det_transpose, hR.2, hR'.2, one_mul]
  have hK' : Matrix.of K' = s • (Matrix.of K * Matrix.of W) := by
    calc Matrix.of K' = Matrix.of K' * Matrix.of R' * (Matrix.of R').transpose := by
          rw [mul_assoc, hRR, mul_one]
      _ = _ := by rw [h, smul_mul_assoc, mul_assoc, hWof]
  have hent : ∀ i j, K' i j = s * (K i 0 * W 0 j + K i 1 * W 1 j + K i 2 * W 2 j) := by
    intro i j
    have := congrFun (congrFun hK' i) j
    simpa [Matrix.mul_apply, Fin.sum_univ_three] using this
  have k10 := hU 1 0 (by decide)
  have k20 := hU 2 0 (by decide)
  have k21 := hU 2 1 (by decide)
  have d := diag_ne hs
  have w20 : W 2 0 = 0 := by
    have := hent 2 0
    rw [hU' 2 0 (by decide), k20, k21] at this
    simpa [hs0, d 2, eq_comm] using this
  have w21 : W 2 1 = 0 := by
    have := hent 2 1
    rw [hU' 2 1 (by decide), k20, k21] at this
    simpa [hs0, d 2, eq_comm] using this
  have w10 : W 1 0 = 0 := by
    have := hent 1 0
    rw [hU' 1 0 (by decide), k10, w20] at this
    simpa [hs0, d 1, eq_comm] using this
  have E := rotEqs hWrot
  have s0 : W 0 0 * W 0 0 = 1 := by have := E.c00; rw [w10, w20] at this; linarith
  have n0 : W 0 0 ≠ 0 := by rintro h; rw [h] at s0; simp at s0
  have w01 : W 0 1 = 0 := by
    have := E.c01; rw [w10, w20] at this; simpa [n0] using this
  have w02 : W 0 2 = 0 := by
    have := E.c02; rw [w10, w20] at this; simpa [n0] using this
  have s1 : W 1 1 * W 1 1 = 1 := by have := E.c11; rw [w01, w21] at this; linarith
  have n1 : W 1 1 ≠ 0 := by rintro h; rw [h] at s1; simp at s1
  have w12 : W 1 2 = 0 := by
    have := E.c12; rw [w01, w21] at this; simpa [n1] using this
  -- signs of the diagonal
  have e0 : K' 0 0 = s * K 0 0 * W 0 0 := by rw [hent, w10, w20]; ring
  have e1 : K' 1 1 = s * K 1 1 * W 1 1 := by rw [hent, w01, w21]; ring
  have e2 : K' 2 2 = s * K 2 2 * W 2 2 := by rw [hent, w02, w12]; ring
  have pp : ∀ i j, 0 < K i i * K j j := fun i j =>
    hs.elim (fun h => mul_pos (h i) (h j)) fun h => mul_pos_of_neg_of_neg (h i) (h j)
  have pp' : ∀ i j, 0 < K' i i * K' j j := fun i j =>
    hs'.elim (fun h => mul_pos (h i) (h j)) fun h => mul_pos_of_neg_of_neg (h i) (h j)
  have ss : 0 < s * s := mul_self_pos.2 hs0
  have p01 : 0 < W 0 0 * W 1 1 := by
    have h1 := pp' 0 1
    rw [e0, e1] at h1
    have h2 := mul_pos ss (pp 0 1)
    exact pos_of_mul_pos_right (a := s * s * (K 0 0 * K 1 1)) (by linarith) h2.le
  have p12 : 0 < W 1 1 * W 2 2 := by
    have h1 := pp' 1 2
    rw [e1, e2] at h1
    have h2 := mul_pos ss (pp 1 2)
    exact pos_of_mul_pos_right (a := s * s * (K 1 1 * K 2 2)) (by linarith) h2.le
  have k00 := E.k00
  rw [w12, w21] at k00
  have k22 := E.k22
  rw [w01, w10] at k22
  have hw0 : W 0 0 = 1 := by
    rcases mul_self_eq_one_iff.1 s0 with h | h
    · exact h
    · nlinarith
  have hw1 : W 1 1 = 1 := by
    rcases mul_self_eq_one_iff.1 s1 with h | h
    · exact h
    · rw [h, hw0] at p01; linarith
  have hw2 : W 2 2 = 1 := by rw [hw0, hw1] at k22; linarith
  have hW1 : Matrix.of W = 1 := by
    ext i j
    fin_cases i <;> fin_cases j <;> simp [hw0, hw1, hw2, w01, w02, w12, w10, w20, w21]
  refine ⟨?_, fun i j => ?_⟩
  · have h1 : Matrix.of R = Matrix.of R' := by
      calc Matrix.of R = Matrix.of R * ((Matrix.of R').transpose * Matrix.of R') := by
            rw [hR'.1, mul_one]
        _ = Matrix.of W * Matrix.of R' := by rw [hWof, mul_assoc]
        _ = _ := by rw [hW1, one_mul]
    exact (Matrix.of.injective h1).symm
  · have := congrFun (congrFun hK' i) j
    rw [hW1, mul_one] at this
    simpa using this

theorem leftBlock_smul (s : ℝ) (P : Mat 3 4 ℝ) :
    leftBlock (fun i j => s * P i j) = s • leftBlock P := by
  ext i j; simp [leftBlock]

theorem camCenter_unique {P : Mat 3 4 ℝ} (h : (leftBlock P).det ≠ 0) {c : Vec}
    (hc : homImage P c = 0) : Camera.pmat2camCenter P = c := by
  have h1 : (leftBlock P).mulVec (Camera.pmat2camCenter P) = (leftBlock P).mulVec c := by
    funext a
    have e1 := congrFun (camCenter_spec h) a
    have e2 := congrFun hc a
    rw [homImage_eq] at e1 e2
    simp only [Pi.zero_apply] at e1 e2
    linarith
  have hu : IsUnit (leftBlock P) := (Matrix.isUnit_iff_isUnit_det _).2 (isUnit_iff_ne_zero.2 h)
  exact Matrix.mulVec_injective_of_isUnit hu h1

/-- C25: scale and sign of the matrix are ignored: the very same camera is returned. -/
theorem c25_scale_sign {na : Linalg ℝ} (hqr : QrContract na)
    (P : Mat 3 4 ℝ) (hP : (leftBlock P).det ≠ 0) (s : ℝ) (hs : s ≠ 0) :
    Camera.fromPerspectiveMatrix na (fun i j => s * P i j) = Camera.fromPerspectiveMatrix na P := by
  have hP' : (leftBlock fun i j => s * P i j).det ≠ 0 := by
    rw [leftBlock_smul, det_smul]; simp [hs, hP]
  obtain ⟨R, K, hR, hU, hKR, hsg, hok⟩ := fromPerspectiveMatrix_spec hqr hP
  obtain ⟨R', K', hR', hU', hKR', hsg', hok'⟩ := fromPerspectiveMatrix_spec hqr hP'
  obtain ⟨hRR, hKK⟩ := rq_unique hs hU hU' hR hR' hsg hsg' (by rw [hKR', leftBlock_smul, hKR])
  have hc : Camera.pmat2camCenter (fun i j => s * P i j) = Camera.pmat2camCenter P := by
    refine camCenter_unique hP' ?_
    have := camCenter_spec hP
    funext a
    have h := congrFun this a
    rw [homImage_eq, Pi.zero_apply] at h
    rw [homImage_eq, leftBlock_smul, Matrix.smul_mulVec, Pi.smul_apply, smul_eq_mul,
      Pi.zero_apply, ← mul_add, h, mul_zero]
  rw [hok, hok', hRR, hc]
  simp only [hKK, mul_div_mul_left _ _ hs]

theorem leftBlock_asCameraMatrix (p : PerspectiveParams ℝ) {q : Quat ℝ} (hq : UnitQuat q)
    (c : V3 ℝ) :
    leftBlock (Camera.mk (IntrinsicParametersPerspective.ofParams p)
        (fromRotationAndCamcenter q c)).asCameraMatrix =
      (q.rotate (0 - c) 2)⁻¹ • (Matrix.of (IntrinsicParametersPerspective.ofParams p).asIntrinsicsMatrix *
        Matrix.of q.toRotationMatrix) := by
  ext i j
  rw [leftBlock, Matrix.of_apply, asCameraMatrix_apply, kqt_23 p hq, div_eq_inv_mul, Matrix.smul_apply,
    smul_eq_mul, Matrix.mul_apply, Fin.sum_univ_three]
  fin_cases j <;> simp [Mat.mul3, fromRotationAndCamcenter]

theorem upper_intrinsics (p : PerspectiveParams ℝ) :
    Upper (IntrinsicParametersPerspective.ofParams p).asIntrinsicsMatrix := by
  intro i j h
  fin_cases i <;> fin_cases j <;>
    first
    | (exact absurd h (by decide))
    | simp [IntrinsicParametersPerspective.ofParams, IntrinsicParametersPerspective.asIntrinsicsMatrix]

theorem det_asCameraMatrix (p : PerspectiveParams ℝ) {q : Quat ℝ} (hq : UnitQuat q) (c : V3 ℝ)
    (hd : q.rotate (0 - c) 2 ≠ 0) (hx : p.fx ≠ 0) (hy : p.fy ≠ 0) :
    (leftBlock (Camera.mk (IntrinsicParametersPerspective.ofParams p)
        (fromRotationAndCamcenter q c)).asCameraMatrix).det ≠ 0 := by
  have hK : (Matrix.of (IntrinsicParametersPerspective.ofParams p).asIntrinsicsMatrix).det =
      p.fx * p.fy := by
    rw [Matrix.det_fin_three]
    simp [IntrinsicParametersPerspective.ofParams, IntrinsicParametersPerspective.asIntrinsicsMatrix]
  rw [leftBlock_asCameraMatrix p hq, det_smul, det_mul, (toRotationMatrix_isRotation hq).2, hK]
  simpa [hx, hy] using hd

/-- C26: camera to matrix and back gives the same parameters, centre and rotation matrix. -/
theorem c26_same_camera {na : Linalg ℝ} (hqr : QrContract na) (hrot : RotationContract na)
    (p : PerspectiveParams ℝ) (hx : 0 < p.fx) (hy : 0 < p.fy) {e : ExtrinsicParameters ℝ}
    (he : ValidExtrinsics e) (h0 : (e.worldToCamera (.single 0)).data 0 2 ≠ 0) :
    ∃ cam, Camera.fromPerspectiveMatrix na
        (Camera.mk (IntrinsicParametersPerspective.ofParams p) e).asCameraMatrix = .ok cam ∧
      cam.intrinsics = .ofParams p ∧ cam.extrinsics.camcenter = e.camcenter ∧
      cam.extrinsics.rotation = e.rotation := by
  obtain ⟨q, c, hq, rfl⟩ := he
  rw [worldToCamera_row hq] at h0
  change q.rotate (0 - c) 2 ≠ 0 at h0
  have hdet := det_asCameraMatrix p hq c h0 hx.ne' hy.ne'
  obtain ⟨R, K, hR, hU, hKR, hsg, hok⟩ := fromPerspectiveMatrix_spec hqr hdet
  rw [leftBlock_asCameraMatrix p hq] at hKR
  have hK0 : ∀ i, 0 < (IntrinsicParametersPerspective.ofParams p).asIntrinsicsMatrix i i := by
    intro i
    fin_cases i <;> simp [IntrinsicParametersPerspective.ofParams,
      IntrinsicParametersPerspective.asIntrinsicsMatrix, hx, hy]
  obtain ⟨hRR, hKK⟩ := rq_unique (inv_ne_zero h0) (upper_intrinsics p) hU
    (toRotationMatrix_isRotation hq) hR (.inl hK0) hsg hKR
  have hc : Camera.pmat2camCenter (Camera.mk (IntrinsicParametersPerspective.ofParams p)
      (fromRotationAndCamcenter q c)).asCameraMatrix = c := by
    refine camCenter_unique hdet ?_
    rw [homImage_asCameraMatrix p hq, sub_self, rotate_zero]
    funext a; fin_cases a <;> simp [kmul]
  refine ⟨_, hok, ?_, ?_, ?_⟩
  · simp only [hKK, mul_div_mul_left _ _ (inv_ne_zero h0)]
    simp [IntrinsicParametersPerspective.ofParams, IntrinsicParametersPerspective.asIntrinsicsMatrix]
  · exact hc
  · have h1 := (hrot R hR).2
    rw [hRR] at h1
    simpa [ExtrinsicParameters.rotation, fromRotationAndCamcenter, hRR] using h1

/-- C26: with focal lengths of any sign the round trip still projects alike. -/
theorem c26_projects_alike {na : Linalg ℝ} (hqr : QrContract na) (hrot : RotationContract na)
    (p : PerspectiveParams ℝ) (hx : p.fx ≠ 0) (hy : p.fy ≠ 0) {e : ExtrinsicParameters ℝ}
    (he : ValidExtrinsics e) (h0 : (e.worldToCamera (.single 0)).data 0 2 ≠ 0) :
    let c := Camera.mk (IntrinsicParametersPerspective.ofParams p) e
    ∃ cam, Camera.fromPerspectiveMatrix na c.asCameraMatrix = .ok cam ∧
      cam.extrinsics.camcenter = e.camcenter ∧
      ∀ (n : ℕ) (w : Points WorldFrame ℝ n) (i : Fin n), (e.worldToCamera w).data i 2 ≠ 0 →
        (cam.worldToPixel w).data i = (c.worldToPixel w).data i := by
  intro c
  have he' := he
  obtain ⟨q, cc, hq, rfl⟩ := he
  have h0' := h0
  rw [worldToCamera_row hq] at h0'
  change q.rotate (0 - cc) 2 ≠ 0 at h0'
  have hdet := det_asCameraMatrix p hq cc h0' hx hy
  obtain ⟨cam, hok, hnull, hproj⟩ := c23_reproduces hqr hrot _ hdet
  refine ⟨cam, hok, ?_, fun n w i hz => ?_⟩
  · have h1 := camCenter_unique hdet hnull
    have h2 : Camera.pmat2camCenter c.asCameraMatrix = cc := by
      refine camCenter_unique hdet ?_
      rw [homImage_asCameraMatrix p hq, sub_self, rotate_zero]
      funext a; fin_cases a <;> simp [kmul]
    rw [← h1]; exact h2
  · have hz2 : homImage c.asCameraMatrix (w.data i) 2 ≠ 0 := by
      rw [(c21_depth p he' h0 w i).2]; exact div_ne_zero hz h0
    rw [(hproj n w i hz2).1]
    exact c21_projects_alike p he' h0 w i hz

/-- C23 with nalgebra's algorithms, free of contracts. -/
theorem c23_nalgebra (P : Mat 3 4 ℝ) (hP : (leftBlock P).det ≠ 0) :
    ∃ cam, Camera.fromPerspectiveMatrix nalgebra P = .ok cam ∧
      homImage P cam.extrinsics.camcenter = 0 ∧
      (0 < cam.intrinsics.fx ∧ 0 < cam.intrinsics.fy ∧ IsRotation cam.extrinsics.rotation) ∧
      ∀ (n : ℕ) (w : Points WorldFrame ℝ n) (i : Fin n), homImage P (w.data i) 2 ≠ 0 →
        (cam.worldToPixel w).data i = homProject P (w.data i) := by
  obtain ⟨cam, h1, h2, h3⟩ := c23_reproduces nalgebra_qr nalgebra_rot P hP
  obtain ⟨fx, fy, -, hr, -⟩ := c24_positive_proper nalgebra_qr nalgebra_rot P hP h1
  exact ⟨cam, h1, h2, ⟨fx, fy, hr⟩, fun n w i h => (h3 n w i h).1⟩

/-- C26 with nalgebra's algorithms, free of contracts. -/
theorem c26_nalgebra (p : PerspectiveParams ℝ) (hx : 0 < p.fx) (hy : 0 < p.fy)
    {e : ExtrinsicParameters ℝ} (he : ValidExtrinsics e)
    (h0 : (e.worldToCamera (.single 0)).data 0 2 ≠ 0) :
    ∃ cam, Camera.fromPerspectiveMatrix nalgebra
        (Camera.mk (IntrinsicParametersPerspective.ofParams p) e).asCameraMatrix = .ok cam ∧
      cam.intrinsics = .ofParams p ∧ cam.extrinsics.camcenter = e.camcenter ∧
      cam.extrinsics.rotation = e.rotation :=
  c26_same_camera nalgebra_qr nalgebra_rot p hx hy he h0

/-- Non-vacuity for C23–C25: a skewed, translated matrix with negative determinant, and the
contracts hold for `nalgebra`. -/
example : (leftBlock ![![-100, 3, 640, 7], ![2, 100, 480, -5], ![0, 1 / 10, 1, 3]]).det ≠ 0 ∧
    QrContract nalgebra ∧ RotationContract nalgebra := by
  refine ⟨?_, nalgebra_qr, nalgebra_rot⟩
  rw [Matrix.det_fin_three]
  simp [leftBlock, Fin.castSucc, Fin.castAdd, Fin.castLE]; norm_num

/-- Non-vacuity for C26: a rotated camera whose principal plane misses the origin. -/
example : ∃ cam, Camera.fromPerspectiveMatrix nalgebra (Camera.mk
      (IntrinsicParametersPerspective.ofParams ⟨100, 110, 3, 640, 480⟩)
      (fromRotationAndCamcenter exQuat ![1, 2, 3])).asCameraMatrix = .ok cam ∧
      cam.intrinsics = .ofParams ⟨100, 110, 3, 640, 480⟩ := by
  obtain ⟨cam, h1, h2, -⟩ := c26_same_camera nalgebra_qr nalgebra_rot ⟨100, 110, 3, 640, 480⟩
    (by norm_num) (by norm_num) (e := fromRotationAndCamcenter exQuat ![1, 2, 3])
    ⟨_, _, exQuat_unit, rfl⟩ (by
      rw [worldToCamera_row exQuat_unit, rotate_apply]
      simp [Points.single, exQuat]; norm_num)
  exact ⟨cam, h1, h2⟩

end CamGeom
