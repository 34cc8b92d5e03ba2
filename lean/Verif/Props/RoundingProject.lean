import Verif.Props.CameraFacts
import Verif.Props.RayGeometry
import Verif.Props.RoundingPerspective

/-!
# C81: projecting with the camera returned by `from_perspective_matrix`, in floating point

The pixel computed by `world_to_pixel` of the camera that `from_perspective_matrix` returns for a 3x4 matrix
is compared with the projection by the matrix itself.
-/

namespace CamGeom
open Spec Matrix ExtrinsicParameters Rounding

variable {R : Type} [Scalar R] {fl : Rounding R} {n : ℕ}

theorem homImage_of_null {P : Mat 3 4 ℝ} {c : Vec} (h : homImage P c = 0) (x : Vec) (i : Fin 3) :
    homImage P x i = (fun j : Fin 3 => P i j.castSucc) ⬝ᵥ (x - c) := by
  have h1 := homImage_add P c (x - c) i
  rw [add_sub_cancel, h] at h1
  rw [h1, dotProduct, Fin.sum_univ_three]
  simp

theorem abs_dot_entries {v d : Vec} {e : ℝ} (h : ∀ a, |v a| ≤ e) : |v ⬝ᵥ d| ≤ 2 * e * len d :=
  (abs_dot_le v d).trans (mul_le_mul_of_nonneg_right (len_le_entries h) (len_nonneg d))

/-- Quotients with separate perturbations of numerator and denominator. -/
theorem quotient_near {a b A B α β : ℝ} (hB : B ≠ 0) (ha : |a - A| ≤ α) (hb : |b - B| ≤ β) (hβ : β ≤ |B| / 2) :
    b ≠ 0 ∧ |a / b - A / B| ≤ 2 * (α + |A / B| * β) / |B| := by
  have hBp : 0 < |B| := abs_pos.2 hB
  have h1 : |B| / 2 ≤ |b| := by
    have := abs_sub_abs_le_abs_sub B b
    rw [abs_sub_comm] at this
    linarith
  have hb0 : b ≠ 0 := abs_pos.1 (by linarith)
  refine ⟨hb0, ?_⟩
  have e : a / b - A / B = ((a - A) - A / B * (b - B)) / b := by field_simp; ring
  rw [e, abs_div, div_le_div_iff₀ (by linarith) hBp]
  have h2 : |a - A - A / B * (b - B)| ≤ α + |A / B| * β := by
    refine (abs_sub _ _).trans (add_le_add ha ?_)
    rw [abs_mul]
    exact mul_le_mul_of_nonneg_left hb (abs_nonneg _)
  have h3 : 0 ≤ α + |A / B| * β := (abs_nonneg _).trans h2
  calc |a - A - A / B * (b - B)| * |B| ≤ (α + |A / B| * β) * |B| := by gcongr
    _ ≤ (α + |A / B| * β) * (2 * |b|) := by gcongr; linarith
    _ = _ := by ring

/-- The intrinsic matrix of a camera with floating-point parameters. -/
def Rounding.kmat (fl : Rounding R) (cam : Camera R (IntrinsicParametersPerspective R)) :
    Matrix (Fin 3) (Fin 3) ℝ :=
  kMatrix (fl.val cam.intrinsics.fx) (fl.val cam.intrinsics.fy) (fl.val cam.intrinsics.skew)
    (fl.val cam.intrinsics.cx) (fl.val cam.intrinsics.cy)

namespace Represents

variable {cam : Camera R (IntrinsicParametersPerspective R)} {P : Mat 3 4 R} {c : Vec} {κ : ℝ} {Q : Quat ℝ}
  {s : ℝ}

/-- The homogeneous image under the camera with exact rotation and centre. -/
theorem image (h : Represents fl cam P c κ Q s) (h0 : homImage (fl.mat34 P) c = 0) (x : Vec) (i : Fin 3) :
    |s * len (fl.leftRow P 2) * (fl.kmat cam *ᵥ (Matrix.of Q.toRotationMatrix *ᵥ (x - c))) i -
      homImage (fl.mat34 P) x i| ≤ 27200 * fl.u * len (fl.leftRow P i) * len (x - c) := by
  rw [homImage_of_null h0, Matrix.mulVec_mulVec]
  have e : s * len (fl.leftRow P 2) * ((fl.kmat cam * Matrix.of Q.toRotationMatrix) *ᵥ (x - c)) i -
      (fun j : Fin 3 => fl.mat34 P i j.castSucc) ⬝ᵥ (x - c) =
      (fun j => s * len (fl.leftRow P 2) * (fl.kmat cam * Matrix.of Q.toRotationMatrix) i j -
        fl.leftRow P i j) ⬝ᵥ (x - c) := by
    simp only [Matrix.mulVec, dotProduct, Fin.sum_univ_three, Rounding.leftRow, Rounding.mat34]
    ring
  rw [e]
  refine (abs_dot_entries (fun j => h.rows i j)).trans (le_of_eq (by ring))

/-- The intrinsic parameters are at most the row lengths relative to the third row. -/
theorem param_le (h : Represents fl cam P c κ Q s) (hu : fl.u ≤ 1 / 10 ^ 7) (i l : Fin 3) :
    |fl.kmat cam i l| * len (fl.leftRow P 2) ≤ 101 / 100 * len (fl.leftRow P i) := by
  have hT := toRotationMatrix_isRotation h.unit
  have hTT : Matrix.of Q.toRotationMatrix * (Matrix.of Q.toRotationMatrix).transpose = 1 :=
    mul_eq_one_comm.1 hT.1
  set T := Q.toRotationMatrix with hTd
  set N := len (fl.leftRow P 2) with hN
  have hN0 : 0 ≤ N := len_nonneg _
  have hNi : 0 ≤ len (fl.leftRow P i) := len_nonneg _
  have hsa : |s| = 1 := by rcases h.sign with h | h <;> rw [h] <;> norm_num
  have hl : len (T l) = 1 := by
    rw [len_eq, row_len hT, Real.sqrt_one]
  have e : s * N * fl.kmat cam i l = fl.leftRow P i ⬝ᵥ T l +
      (fun j => s * N * (fl.kmat cam * Matrix.of T) i j - fl.leftRow P i j) ⬝ᵥ T l := by
    have h1 : fl.kmat cam i l = (fl.kmat cam * Matrix.of T * (Matrix.of T).transpose) i l := by
      rw [Matrix.mul_assoc, hTT, Matrix.mul_one]
    rw [h1, Matrix.mul_apply]
    simp only [dotProduct, Fin.sum_univ_three, Matrix.transpose_apply, Matrix.of_apply]
    ring
  have h2 : |fl.leftRow P i ⬝ᵥ T l| ≤ len (fl.leftRow P i) := by
    have := abs_dot_le (fl.leftRow P i) (T l)
    rwa [hl, _root_.mul_one] at this
  have h3 := abs_dot_entries (d := T l) (fun j => h.rows i j)
  rw [hl, _root_.mul_one] at h3
  have h4 : |s * N * fl.kmat cam i l| = |fl.kmat cam i l| * N := by
    rw [abs_mul, abs_mul, hsa, abs_of_nonneg hN0]; ring
  rw [← h4, e]
  refine (abs_add_le _ _).trans ?_
  have h5 : fl.u * len (fl.leftRow P i) ≤ 1 / 10 ^ 7 * len (fl.leftRow P i) := by gcongr
  refine (add_le_add h2 h3).trans ?_
  norm_num at h5 ⊢
  linarith

/-- The exact pinhole image with the computed intrinsics and the exact rotation and centre, compared to the
projection by the matrix. -/
theorem pinhole_near (h : Represents fl cam P c κ Q s) (h0 : homImage (fl.mat34 P) c = 0)
    (hN : 0 < len (fl.leftRow P 2)) {x : Vec} {ρ F : ℝ}
    (hρ : len (x - c) * len (fl.leftRow P 2) ≤ ρ * |homImage (fl.mat34 P) x 2|)
    (hρu : 54400 * fl.u * ρ ≤ 1) (hz : homImage (fl.mat34 P) x 2 ≠ 0)
    (hF : ∀ i, len (fl.leftRow P i) ≤ F * len (fl.leftRow P 2)) (a : Fin 2) :
    (Matrix.of Q.toRotationMatrix *ᵥ (x - c)) 2 ≠ 0 ∧
    |Spec.pinhole (fl.val cam.intrinsics.fx) (fl.val cam.intrinsics.fy) (fl.val cam.intrinsics.skew)
        (fl.val cam.intrinsics.cx) (fl.val cam.intrinsics.cy) (Matrix.of Q.toRotationMatrix *ᵥ (x - c)) a -
      homProject (fl.mat34 P) x a| ≤ 54400 * fl.u * ρ * (F * (1 + ρ)) := by
  have hu0 := fl.u_nonneg
  set N : Fin 3 → ℝ := fun i => len (fl.leftRow P i) with hNd
  set X := Matrix.of Q.toRotationMatrix *ᵥ (x - c) with hX
  set H := homImage (fl.mat34 P) x with hH
  set d := len (x - c) with hd
  have hd0 : 0 ≤ d := len_nonneg _
  have hzp : 0 < |H 2| := abs_pos.2 hz
  have hsa : |s| = 1 := by rcases h.sign with h | h <;> rw [h] <;> norm_num
  have hs0 : s ≠ 0 := by rcases h.sign with h | h <;> rw [h] <;> norm_num
  have hN2 : N 2 ≠ 0 := ne_of_gt hN
  have hF0 : 0 ≤ F := by
    by_contra hc
    have := hF 2
    nlinarith
  have him := h.image h0 x
  have hk2 : (fl.kmat cam *ᵥ X) 2 = X 2 := by
    simp [Rounding.kmat, kMatrix, Matrix.mulVec, dotProduct, Fin.sum_univ_three]
  have hρ0 : 0 ≤ ρ := by
    by_contra hc
    have : 0 ≤ d * N 2 := mul_nonneg hd0 hN.le
    nlinarith
  have hβ : 27200 * fl.u * N 2 * d ≤ |H 2| / 2 := by
    have h1 : fl.u * (d * N 2) ≤ fl.u * (ρ * |H 2|) := mul_le_mul_of_nonneg_left hρ hu0
    have h2 : 54400 * fl.u * ρ * |H 2| ≤ 1 * |H 2| := mul_le_mul_of_nonneg_right hρu hzp.le
    linarith
  -- the exact pixel
  have hpx : ∀ i, |H i / H 2| ≤ F * ρ := fun i => by
    rw [abs_div, div_le_iff₀ hzp]
    have h1 : |H i| ≤ N i * d := by
      rw [hH, homImage_of_null h0]
      exact abs_dot_le _ _
    calc |H i| ≤ N i * d := h1
      _ ≤ F * N 2 * d := mul_le_mul_of_nonneg_right (hF i) hd0
      _ = F * (d * N 2) := by ring
      _ ≤ F * (ρ * |H 2|) := mul_le_mul_of_nonneg_left hρ hF0
      _ = _ := by ring
  have key : ∀ i, X 2 ≠ 0 ∧ |(fl.kmat cam *ᵥ X) i / X 2 - H i / H 2| ≤ 54400 * fl.u * ρ * (F * (1 + ρ)) := by
    intro i
    have h2 := him 2
    rw [← hX, hk2] at h2
    obtain ⟨hb, hq⟩ := quotient_near hz (him i) h2 hβ
    have hX2 : X 2 ≠ 0 := fun h => hb (by rw [h]; ring)
    refine ⟨hX2, ?_⟩
    rw [← hX, mul_div_mul_left _ _ (mul_ne_zero hs0 hN2)] at hq
    refine hq.trans ?_
    rw [div_le_iff₀ hzp]
    have h3 : 27200 * fl.u * N i * d ≤ 27200 * fl.u * (F * N 2) * d := by
      gcongr
      exact hF i
    have h4 : |H i / H 2| * (27200 * fl.u * N 2 * d) ≤ F * ρ * (27200 * fl.u * N 2 * d) := by
      gcongr
      exact hpx i
    have h5 : 27200 * fl.u * (F * (1 + ρ)) * (d * N 2) ≤
        27200 * fl.u * (F * (1 + ρ)) * (ρ * |H 2|) := by gcongr
    show 2 * (27200 * fl.u * N i * d + |H i / H 2| * (27200 * fl.u * N 2 * d)) ≤ _
    linarith
  have e : ∀ f g k : ℝ, X 2 ≠ 0 → (f * X 0 + g * X 1 + k * X 2) / X 2 = f * (X 0 / X 2) + g * (X 1 / X 2) + k := by
    intro f g k hX2
    field_simp
  refine ⟨(key 0).1, ?_⟩
  fin_cases a
  · have h1 := (key 0).2
    have e1 : (fl.kmat cam *ᵥ X) 0 = fl.val cam.intrinsics.fx * X 0 + fl.val cam.intrinsics.skew * X 1 +
        fl.val cam.intrinsics.cx * X 2 := by
      simp [Rounding.kmat, kMatrix, Matrix.mulVec, dotProduct, Fin.sum_univ_three]
    rw [e1, e _ _ _ (key 0).1] at h1
    exact h1
  · have h1 := (key 1).2
    have e1 : (fl.kmat cam *ᵥ X) 1 = 0 * X 0 + fl.val cam.intrinsics.fy * X 1 +
        fl.val cam.intrinsics.cy * X 2 := by
      simp [Rounding.kmat, kMatrix, Matrix.mulVec, dotProduct, Fin.sum_univ_three]
    rw [e1, e _ _ _ (key 0).1, MulZeroClass.zero_mul, _root_.zero_add] at h1
    exact h1

end Represents

/-- The exact transformation with a nearly unit quaternion and a perturbed centre. -/
theorem pose_near {q : Quat R} {Q : Quat ℝ} (hQ : UnitQuat Q) {η ε M : ℝ} (hq : QNear fl η q Q) (hη : η ≤ 1 / 4)
    {c' : V3 R} {c : Vec} (hc : ∀ a, |fl.val (c' a) - c a| ≤ ε) (hM : ∀ a, |fl.val (c' a)| ≤ M)
    (w : Points WorldFrame R n) (i : Fin n) (hx : ∀ a, |fl.val (w.data i a)| ≤ M) (a : Fin 3) :
    |((fromRotationAndCamcenter (fl.quat q) (fl.vec c')).worldToCamera
        (⟨fun i => fl.vec (w.data i)⟩ : Points WorldFrame ℝ n)).data i a -
      (Matrix.of Q.toRotationMatrix *ᵥ (fl.vec (w.data i) - c)) a| ≤ 59 * η * M + 3 * ε := by
  obtain ⟨h1, h1n⟩ := qnear_rotation hQ hq hη
  have hη0 : 0 ≤ η := (abs_nonneg _).trans hq.w
  have hM0 : 0 ≤ M := (abs_nonneg _).trans (hM 0)
  have hT := toRotationMatrix_isRotation hQ
  have ev : ((fromRotationAndCamcenter (fl.quat q) (fl.vec c')).worldToCamera
      (⟨fun i => fl.vec (w.data i)⟩ : Points WorldFrame ℝ n)).data i a =
      Mat.mulVec3 (fl.quat q).toRotationMatrix (fl.vec (w.data i)) a -
        (quatNormSq (fl.quat q) - 1) * fl.vec (w.data i) a -
          Mat.mulVec3 (fl.quat q).toRotationMatrix (fl.vec c') a := by
    rw [worldToCamera_data, toRotationMatrix_defect (fl.quat q) (fl.vec (w.data i)), Pi.add_apply,
      Pi.smul_apply, smul_eq_mul, add_sub_cancel_right]
    exact (sub_eq_add_neg _ _).symm
  have eX : (Matrix.of Q.toRotationMatrix *ᵥ (fl.vec (w.data i) - c)) a =
      Mat.mulVec3 Q.toRotationMatrix (fl.vec (w.data i)) a - Mat.mulVec3 Q.toRotationMatrix (fl.vec c') a +
        Mat.mulVec3 Q.toRotationMatrix (fl.vec c' - c) a := by
    simp only [Mat.mulVec3, Matrix.mulVec, dotProduct, Fin.sum_univ_three, Matrix.of_apply, Pi.sub_apply]
    ring
  have mv : ∀ y : Vec, (∀ b, |y b| ≤ M) →
      |Mat.mulVec3 (fl.quat q).toRotationMatrix y a - Mat.mulVec3 Q.toRotationMatrix y a| ≤ 27 * η * M := by
    intro y hy
    have t : ∀ b, |(fl.quat q).toRotationMatrix a b * y b - Q.toRotationMatrix a b * y b| ≤ 9 * η * M :=
      fun b => by
        rw [← sub_mul, abs_mul]
        exact mul_le_mul (h1 a b) (hy b) (abs_nonneg _) (by positivity)
    have t0 := abs_le.1 (t 0)
    have t1 := abs_le.1 (t 1)
    have t2 := abs_le.1 (t 2)
    simp only [Mat.mulVec3]
    rw [abs_le]
    constructor <;> linarith [t0.1, t0.2, t1.1, t1.2, t2.1, t2.2]
  have m1 := abs_le.1 (mv (fl.vec (w.data i)) hx)
  have m2 := abs_le.1 (mv (fl.vec c') hM)
  have m3 : |(quatNormSq (fl.quat q) - 1) * fl.vec (w.data i) a| ≤ 5 * η * M := by
    rw [abs_mul]
    exact mul_le_mul h1n (hx a) (abs_nonneg _) (by positivity)
  have m4 := abs_le.1 m3
  have m5 : |Mat.mulVec3 Q.toRotationMatrix (fl.vec c' - c) a| ≤ 3 * ε := by
    have t : ∀ b, |Q.toRotationMatrix a b * (fl.vec c' - c) b| ≤ ε := fun b => by
      rw [abs_mul]
      calc _ ≤ 1 * ε := mul_le_mul (rot_entry hT a b) (hc b) (abs_nonneg _) (by norm_num)
        _ = ε := _root_.one_mul _
    have t0 := abs_le.1 (t 0)
    have t1 := abs_le.1 (t 1)
    have t2 := abs_le.1 (t 2)
    simp only [Mat.mulVec3]
    rw [abs_le]
    constructor <;> linarith [t0.1, t0.2, t1.1, t1.2, t2.1, t2.2]
  have m6 := abs_le.1 m5
  rw [ev, eX, abs_le]
  constructor <;> linarith [m1.1, m1.2, m2.1, m2.2, m4.1, m4.2, m6.1, m6.2]

theorem pixel_budget {γ f s c A B ω m z M F ρ : ℝ} (hγ : γ ≤ 1 / 10 ^ 15)
    (hf : |f| ≤ 101 / 100 * F) (hs : |s| ≤ 101 / 100 * F) (hc : |c| ≤ 101 / 100 * F) (hA0 : 0 ≤ A) (hB0 : 0 ≤ B)
    (hA : A ≤ 203 / 100 * ρ) (hB : B ≤ 203 / 100 * ρ) (hω0 : 0 ≤ ω) (hω : ω ≤ 1 / 2 ^ 30) (hm0 : 0 ≤ m)
    (hm : m ≤ 3) (hz : 99 / 100 ≤ z) (hM : 1 ≤ M) (hF : 1 ≤ F) (hρ : 1 ≤ ρ) :
    γ * (2 * |f| * A + 2 * |s| * B + |c| + 2 * m * ω / z + ω) +
      2 * (3 / 10 ^ 9 * M) / z * (|f| * A + |s| * B) ≤ 299 / 10 ^ 10 * (M * F * ρ) := by
  have hz0 : 0 < z := by linarith
  have hδZ : 2 * (3 / 10 ^ 9 * M) / z ≤ 607 / 10 ^ 11 * M := by
    rw [div_le_iff₀ hz0]
    have : 607 / 10 ^ 11 * M * (99 / 100) ≤ 607 / 10 ^ 11 * M * z := by gcongr
    norm_num at this ⊢
    linarith
  have hωZ : 2 * m * ω / z ≤ 9 * ω := by
    rw [div_le_iff₀ hz0]
    have h1 : 9 * ω * (99 / 100) ≤ 9 * ω * z := by gcongr
    have h2 : m * ω ≤ 3 * ω := by gcongr
    linarith
  have t1 : F * ρ ≤ M * F * ρ := by
    have : F * ρ * 1 ≤ F * ρ * M := by gcongr
    linarith
  have t2 : F ≤ F * ρ := by nlinarith
  have t3 : 1 ≤ F := hF
  calc _ ≤ 1 / 10 ^ 15 * (2 * (101 / 100 * F) * (203 / 100 * ρ) + 2 * (101 / 100 * F) * (203 / 100 * ρ) +
        101 / 100 * F + 9 * ω + ω) +
      607 / 10 ^ 11 * M * (101 / 100 * F * (203 / 100 * ρ) + 101 / 100 * F * (203 / 100 * ρ)) := by
        gcongr
    _ ≤ _ := by norm_num at hω ⊢; linarith

/-- C81: let `P` be a well-conditioned `f64` matrix and `x` a point at depth at least one, with coordinates
of `x` and of the camera centre up to `M` and the first rows at most `F` times as long as the third.  Then
`world_to_pixel` of the camera returned by `from_perspective_matrix` is finite and within
`3e-8 M F len (x - c) / depth` of the projection of `x` by `P` itself. -/
theorem c81_f64_world_to_pixel {lib : Libm Format.b64} {P : Mat 3 4 (F64 lib)} {c : Vec}
    {κ M F : ℝ} (h : WellConditioned (RustFloat.rounding .b64 lib) P c (2 ^ 200) κ) (hκ : 1 / 10 ^ 4 ≤ κ)
    (hκ1 : κ ≤ 1) (hM : 1 ≤ M) (hM' : M ≤ 2 ^ 10) (hc : ∀ a, |c a| ≤ M) (hF : 1 ≤ F) (hF' : F ≤ 2 ^ 19)
    (hrow : ∀ i, len ((RustFloat.rounding .b64 lib).leftRow P i) ≤
      F * len ((RustFloat.rounding .b64 lib).leftRow P 2)) :
    ∃ cam, Camera.fromPerspectiveMatrix nalgebra P = .ok cam ∧
      ∀ {n : ℕ} (w : Points WorldFrame (F64 lib) n) (i : Fin n) (x : Vec),
      x = (RustFloat.rounding .b64 lib).vec (w.data i) → (∀ a, Flt.Bounded (f := .b64) M (w.data i a)) →
      ∀ depth, depth = |homImage ((RustFloat.rounding .b64 lib).mat34 P) x 2| /
        len ((RustFloat.rounding .b64 lib).leftRow P 2) → 1 ≤ depth → ∀ a,
      Flt.isFinite (f := .b64) ((cam.worldToPixel w).data i a) ∧
      |Flt.val (f := .b64) ((cam.worldToPixel w).data i a) -
        homProject ((RustFloat.rounding .b64 lib).mat34 P) x a| ≤
          3 / 10 ^ 8 * M * F * (len (x - c) / depth) := by
  set fl := RustFloat.rounding .b64 lib with hfl
  obtain ⟨p, rot, cen, hcam, Q, s, hrep⟩ := c80_f64 h (le_trans (by norm_num) hκ) hκ1
  refine ⟨_, hcam, ?_⟩
  rw [← hfl] at hrep
  intro n w i x hx hxb depth hdepth hdepth1 a
  have hu : fl.u = 1 / 2 ^ 53 := Format.u_b64
  have hω : fl.ω ≤ 1 / 2 ^ 30 := Format.ω_b64.trans (by norm_num)
  have hω0 : 0 < fl.ω := Format.b64.ω_pos
  have hM0 : 0 ≤ M := by linarith
  have hN : 0 < len (fl.leftRow P 2) := lt_of_lt_of_le (by positivity) (h.lower 2)
  set N := len (fl.leftRow P 2) with hNd
  set H := homImage (fl.mat34 P) x with hH
  set d := len (x - c) with hd
  have hd0 : 0 ≤ d := len_nonneg _
  have hHd : |H 2| = depth * N := by rw [hdepth]; field_simp
  have hz : H 2 ≠ 0 := by
    refine abs_pos.1 ?_
    rw [hHd]
    positivity
  set ρ := d / depth with hρ
  have hdep0 : 0 < depth := by linarith
  have hdρ : d = ρ * depth := by rw [hρ]; field_simp
  have hρ1 : 1 ≤ ρ := by
    have h1 : |H 2| ≤ N * d := by
      rw [hH, homImage_of_null h.null]
      exact abs_dot_le _ _
    rw [hHd] at h1
    rw [hρ, le_div_iff₀ hdep0]
    nlinarith
  have hxM : ∀ b, |x b| ≤ M := fun b => by rw [hx]; exact (hxb b).2
  have hdM : d ≤ 4 * M := by
    have : len (x - c) ≤ 2 * (2 * M) := len_le_entries fun b => by
      have := abs_sub (x b) (c b)
      have h1 := hxM b
      have h2 := hc b
      rw [Pi.sub_apply]
      linarith
    linarith
  have hρM : ρ ≤ 4 * M := by
    rw [hρ, div_le_iff₀ hdep0]
    nlinarith
  -- the exact camera
  have hpin := fun a => hrep.pinhole_near h.null hN (x := x) (ρ := ρ) (F := F)
    (by rw [← hH, hHd, ← hd, hdρ]; exact le_of_eq (by ring))
    (by rw [hu]; norm_num at hM' ⊢; linarith) hz hrow a
  set X := Matrix.of Q.toRotationMatrix *ᵥ (x - c) with hX
  have hlX : len X = d := by
    rw [hX, ← mulVec3_eq, mulVec3_toRotationMatrix hrep.unit, len_rotate hrep.unit]
  have hsa : |s| = 1 := by rcases hrep.sign with h | h <;> rw [h] <;> norm_num
  have hX2 : 99 / 100 * depth ≤ |X 2| := by
    have h1 := hrep.image h.null x 2
    have hk2 : (fl.kmat ⟨.ofParams p, fromRotationAndCamcenter rot cen⟩ *ᵥ X) 2 = X 2 := by
      simp [Rounding.kmat, kMatrix, Matrix.mulVec, dotProduct, Fin.sum_univ_three]
    rw [← hX, hk2, ← hH, ← hNd, ← hd] at h1
    have h2 := abs_sub_abs_le_abs_sub (H 2) (s * N * X 2)
    rw [abs_sub_comm] at h2
    have h3 : |s * N * X 2| = N * |X 2| := by
      rw [abs_mul, abs_mul, hsa, abs_of_pos hN, _root_.one_mul]
    rw [h3, hHd] at h2
    have h4 : depth * N - N * |X 2| ≤ 27200 * fl.u * N * d := h2.trans h1
    have h5 : depth - |X 2| ≤ 27200 * fl.u * d := by
      refine le_of_mul_le_mul_left ?_ hN
      linarith
    have h6 : 27200 * fl.u * d ≤ 1 / 100 * depth := by
      rw [hdρ, hu]
      have : ρ * depth ≤ 4 * 2 ^ 10 * depth := by gcongr; linarith
      norm_num at this ⊢
      linarith
    linarith
  have hslope : ∀ b, |X b / X 2| ≤ 101 / 99 * ρ := fun b => by
    have h1 : |X b| ≤ d := hlX ▸ abs_coord_le X b
    rw [abs_div, div_le_iff₀ (by linarith)]
    have h2 : ρ * (99 / 100 * depth) ≤ ρ * |X 2| := by gcongr
    rw [hdρ] at h1
    have h3 : 0 ≤ ρ * depth := by positivity
    linarith
  -- the computed camera coordinates
  have hlc : len c ≤ 2 * M := len_le_entries hc
  have hε : 95 * fl.u * (1 + len c) / κ ≤ 32 / 10 ^ 11 * M := by
    rw [div_le_iff₀ (by linarith [show (0 : ℝ) < 1 / 10 ^ 4 by norm_num]), hu]
    have h1 : 32 / 10 ^ 11 * M * (1 / 10 ^ 4) ≤ 32 / 10 ^ 11 * M * κ := by gcongr
    norm_num at h1 ⊢
    linarith
  have hcn : ∀ b, |fl.val (cen b) - c b| ≤ 32 / 10 ^ 11 * M := fun b => (hrep.center_near b).trans hε
  have hcM : ∀ b, |fl.val (cen b)| ≤ 101 / 100 * M := fun b => by
    have h1 := abs_add_le (fl.val (cen b) - c b) (c b)
    rw [sub_add_cancel] at h1
    have h2 := hcn b
    have h3 := hc b
    norm_num at h2 ⊢
    linarith
  have hη : 60600 * fl.u ≤ 314 / 10 ^ 13 := by rw [hu]; norm_num
  have hqn : QNear fl (314 / 10 ^ 13) rot Q := by
    have h1 : QNear fl (60600 * fl.u) rot Q := hrep.quat_near
    exact ⟨h1.w.trans hη, h1.i.trans hη, h1.j.trans hη, h1.k.trans hη⟩
  have hqf : QFinite fl rot := hrep.quat_fin
  obtain ⟨bw, bi, bj, bk⟩ := unitQuat_abs hrep.unit
  have bd : ∀ {y Y : ℝ}, |y - Y| ≤ 314 / 10 ^ 13 → |Y| ≤ 1 → |y| ≤ 5 / 4 := by
    intro y Y hy hY
    have := abs_add_le (y - Y) Y
    rw [sub_add_cancel] at this
    norm_num at hy ⊢
    linarith
  have b2 : ∀ {y : ℝ}, |y| ≤ 5 / 4 → |y| ≤ 2 ^ 1 := fun h => h.trans (by norm_num)
  have hqr : QInRange fl rot := ⟨⟨hqf.w, b2 (bd hqn.w bw)⟩, ⟨hqf.i, b2 (bd hqn.i bi)⟩, ⟨hqf.j, b2 (bd hqn.j bj)⟩,
    ⟨hqf.k, b2 (bd hqn.k bk)⟩⟩
  have hxf : ∀ b, |fl.val (w.data i b)| ≤ M := fun b => (hxb b).2
  have hcam' := fun b => c77_world_to_camera (k := 11) (RustFloat.range .b64 lib) hqr (c := cen)
    (fun b => ⟨hrep.center_fin b, (hcM b).trans (by norm_num at hM' ⊢; linarith)⟩) w i
    (fun b => ⟨(hxb b).1, (hxf b).trans (by norm_num at hM' ⊢; linarith)⟩) (by show _ ≤ 1023; norm_num) b
  have near : ∀ b, |fl.val (((fromRotationAndCamcenter rot cen).worldToCamera w).data i b) - X b| ≤
      3 / 10 ^ 9 * M := fun b => by
    have h1 := c47_world_to_camera fl rot cen (5 / 4) (101 / 100 * M) (bd hqn.w bw) (bd hqn.i bi)
      (bd hqn.j bj) (bd hqn.k bk) hcM w i (fun b => (hxf b).trans (by linarith)) b (hcam' b).1
    have h2 := pose_near hrep.unit hqn (by norm_num) hcn hcM w i (fun b => (hxf b).trans (by linarith)) b
    rw [← hx, ← hX] at h2
    have h3 := abs_sub_le (fl.val (((fromRotationAndCamcenter rot cen).worldToCamera w).data i b))
      (((fromRotationAndCamcenter (fl.quat rot) (fl.vec cen)).worldToCamera
        (⟨fun i => fl.vec (w.data i)⟩ : Points WorldFrame ℝ n)).data i b) (X b)
    refine h3.trans ((add_le_add h1 h2).trans ?_)
    have h4 : (1 + fl.u) ^ 8 - 1 ≤ 1 / 10 ^ 15 := by rw [hu]; norm_num
    have h5 : ((1 + fl.u) ^ 8 - 1) * ((24 * (5 / 4) ^ 2 + 1) * (101 / 100 * M) +
        fl.ω * (18 * (101 / 100 * M) + 15 * (5 / 4) + 6)) ≤
        1 / 10 ^ 15 * ((24 * (5 / 4) ^ 2 + 1) * (101 / 100 * M) +
        1 / 2 ^ 30 * (18 * (101 / 100 * M) + 15 * (5 / 4) + 6)) := by gcongr
    refine (add_le_add_left h5 _).trans ?_
    norm_num
    linarith
  have hX2' : 99 / 100 ≤ |X 2| := by linarith
  have hδ : 3 / 10 ^ 9 * M ≤ |X 2| / 2 := by norm_num at hM' ⊢; linarith
  have hzc : 1 / 2 ^ 1 ≤ |fl.val (((fromRotationAndCamcenter rot cen).worldToCamera w).data i 2)| := by
    have h5 := abs_sub_abs_le_abs_sub (X 2)
      (fl.val (((fromRotationAndCamcenter rot cen).worldToCamera w).data i 2))
    rw [abs_sub_comm] at h5
    have := near 2
    norm_num at hM' this ⊢
    linarith
  -- the intrinsic parameters
  have hpar : ∀ j l, |fl.kmat ⟨.ofParams p, fromRotationAndCamcenter rot cen⟩ j l| ≤ 101 / 100 * F := by
    intro j l
    have h1 := hrep.param_le (by rw [hu]; norm_num) j l
    have h2 := hrow j
    refine le_of_mul_le_mul_right ?_ hN
    linarith
  have b1 : |fl.val p.fx| ≤ 101 / 100 * F := hpar 0 0
  have b2' : |fl.val p.skew| ≤ 101 / 100 * F := hpar 0 1
  have b3 : |fl.val p.cx| ≤ 101 / 100 * F := hpar 0 2
  have b4 : |fl.val p.fy| ≤ 101 / 100 * F := hpar 1 1
  have b5 : |fl.val p.cy| ≤ 101 / 100 * F := hpar 1 2
  have hpr : ∀ y ∈ [p.fx, p.fy, p.skew, p.cx, p.cy], InRange fl 20 y := by
    have hf := hrep.params_fin
    have hF2 : 101 / 100 * F ≤ 2 ^ 20 := by norm_num at hF' ⊢; linarith
    intro y hy
    refine ⟨hf y hy, le_trans ?_ hF2⟩
    simp only [List.mem_cons, List.not_mem_nil, or_false] at hy
    rcases hy with rfl | rfl | rfl | rfl | rfl <;> assumption
  have fin := fun a => (c77_camera_to_pixel (m := 20) (k := 19) (l := 1) (RustFloat.range .b64 lib) p
    hpr ((fromRotationAndCamcenter rot cen).worldToCamera w) i hcam' hzc (by show _ ≤ 1023; norm_num) a).1
  refine ⟨fin a, ?_⟩
  obtain ⟨eU, eV⟩ := c48_perspective fl p ((fromRotationAndCamcenter rot cen).worldToCamera w) i _ _ _
    rfl rfl rfl
  have p3 : 0 ≤ (1 + fl.u) ^ 3 - 1 := by rw [hu]; norm_num
  have p4 : 0 ≤ (1 + fl.u) ^ 4 - 1 := by rw [hu]; norm_num
  have g4 : (1 + fl.u) ^ 4 - 1 ≤ 1 / 10 ^ 15 := by rw [hu]; norm_num
  have g3 : (1 + fl.u) ^ 3 - 1 ≤ 1 / 10 ^ 15 := by rw [hu]; norm_num
  have hZ0 := (hpin 0).1
  have hr : ∀ b, |X b / X 2| + 1 ≤ 203 / 100 * ρ := fun b => by linarith [hslope b]
  have hF0 : 0 ≤ F := by linarith
  have hρ0 : 0 ≤ ρ := by linarith
  -- everything in units of `M F ρ`
  have t1 : F * ρ ≤ M * F * ρ := by
    have : F * ρ * 1 ≤ F * ρ * M := by gcongr
    linarith
  have t2 : F ≤ F * ρ := by nlinarith
  have t3 : 54400 * fl.u * ρ * (F * (1 + ρ)) ≤ 5 / 10 ^ 11 * (M * F * ρ) := by
    have h1 : F * ρ * (1 + ρ) ≤ F * ρ * (8 * M) := by gcongr; linarith
    rw [hu]
    norm_num at h1 ⊢
    linarith
  have fin' : ∀ {out pin hom B : ℝ}, |out - pin| ≤ B → |pin - hom| ≤ 54400 * fl.u * ρ * (F * (1 + ρ)) →
      B ≤ 299 / 10 ^ 10 * (M * F * ρ) → |out - hom| ≤ 3 / 10 ^ 8 * M * F * ρ := by
    intro out pin hom B h1 h2 h3
    have := abs_sub_le out pin hom
    have h4 : 0 ≤ M * F * ρ := by positivity
    norm_num at h3 t3 ⊢
    linarith
  fin_cases a
  · have h := pixel_combine hZ0 hδ (near 0) (near 1) (near 2) p4 hω0.le (by norm_num) (eU (fin 0)).2
    refine fin' h (hpin 0).2 ?_
    exact pixel_budget g4 b1 b2' b3 (by positivity) (by positivity) (hr 0) (hr 1) hω0.le hω (by norm_num)
      (by norm_num) hX2' hM hF hρ1
  · have h := pixel_combine (f := fl.val p.fy) (s := 0) (m := 2) hZ0 hδ (near 1) (near 1) (near 2) p3 hω0.le
      (by norm_num) (by simpa using (eV (fin 1)).2)
    rw [MulZeroClass.zero_mul, _root_.add_zero] at h
    refine fin' h (hpin 1).2 ?_
    exact pixel_budget g3 b4 (by rw [abs_zero]; linarith) b5 (by positivity) (by positivity) (hr 1) (hr 1)
      hω0.le hω (by norm_num) (by norm_num) hX2' hM hF hρ1

/-- Non-vacuity of C81: the matrix of `wellConditioned_witness` with `κ = 1 / 2`, `M = 3`, `F = 5`, and the
world origin, at depth 3. -/
example (lib : Libm Format.b64) : ∃ (P : Mat 3 4 (F64 lib)) (c : Vec),
    WellConditioned (RustFloat.rounding .b64 lib) P c (2 ^ 200) (1 / 2) ∧ (∀ a, |c a| ≤ 3) ∧
    (∀ i, len ((RustFloat.rounding .b64 lib).leftRow P i) ≤
      5 * len ((RustFloat.rounding .b64 lib).leftRow P 2)) ∧
    1 ≤ |homImage ((RustFloat.rounding .b64 lib).mat34 P) 0 2| /
      len ((RustFloat.rounding .b64 lib).leftRow P 2) := by
  obtain ⟨h, hM, l0, l1, l2⟩ := wellConditioned_witness .b64 (by show 17 < 2 ^ 53; norm_num) lib (2 ^ 200)
    (by norm_num)
  refine ⟨_, _, h, fun a => ?_, fun i => ?_, ?_⟩
  · fin_cases a <;> norm_num
  · fin_cases i
    · show len (Rounding.leftRow _ _ 0) ≤ _; rw [l0, l2]; norm_num
    · show len (Rounding.leftRow _ _ 1) ≤ _; rw [l1, l2]; norm_num
    · show len (Rounding.leftRow _ _ 2) ≤ _; rw [l2]; norm_num
  · rw [hM, l2]
    simp [homImage, Matrix.mulVec, dotProduct, Fin.sum_univ_four]

end CamGeom
