import Verif.Lemmas.CenterNear
import Verif.Props.Finite
import Verif.Props.FloatView
import Verif.Lemmas.FloatQr

/-!
# C80: `from_perspective_matrix` in floating point

The factorization computed by nalgebra's Householder QR and matrix-to-quaternion conversion is stable row by
row: the computed camera reproduces row `i` of the matrix up to a multiple of the unit roundoff times the
length of row `i`, with an exactly orthonormal rotation in place of the stored quaternion, from which the
stored quaternion differs by a multiple of the unit roundoff.
-/

namespace CamGeom
open Spec Matrix ExtrinsicParameters

variable {R : Type} [Scalar R] {fl : Rounding R}

/-- Row `i` of the left 3x3 block of a 3x4 matrix of floating-point numbers. -/
def Rounding.leftRow (fl : Rounding R) (P : Mat 3 4 R) (i : Fin 3) : Vec := fun j => fl.val (P i j.castSucc)

/-- The real matrix represented by a 3x4 matrix of floating-point numbers. -/
def Rounding.mat34 (fl : Rounding R) (P : Mat 3 4 R) : Mat 3 4 ℝ := fun i j => fl.val (P i j)

/-- A well-conditioned projection matrix: finite entries, rows of the left block of lengths between `1 / B`
and `B`, spanning a parallelepiped whose volume is at least `κ` times the product of their lengths, and a
camera centre `c` within `B` of the origin. -/
structure WellConditioned (fl : Rounding R) (P : Mat 3 4 R) (c : Vec) (B κ : ℝ) : Prop where
  fin : ∀ i j, fl.isFinite (P i j)
  lower : ∀ i, 1 / B ≤ len (fl.leftRow P i)
  upper : ∀ i, len (fl.leftRow P i) ≤ B
  volume : κ * (len (fl.leftRow P 0) * len (fl.leftRow P 1) * len (fl.leftRow P 2)) ≤
    |(leftBlock (fl.mat34 P)).det|
  null : homImage (fl.mat34 P) c = 0
  center : len c ≤ B

/-- The intrinsic matrix of given parameters. -/
def kMatrix (fx fy skew cx cy : ℝ) : Matrix (Fin 3) (Fin 3) ℝ := !![fx, skew, cx; 0, fy, cy; 0, 0, 1]

/-- A camera that represents `P` up to rounding errors.  `Q` is an exactly normalized quaternion. -/
structure Represents (fl : Rounding R) (cam : Camera R (IntrinsicParametersPerspective R)) (P : Mat 3 4 R)
    (c : Vec) (κ : ℝ) (Q : Quat ℝ) (s : ℝ) : Prop where
  sign : s = 1 ∨ s = -1
  unit : UnitQuat Q
  params_fin : ∀ x ∈ [cam.intrinsics.fx, cam.intrinsics.fy, cam.intrinsics.skew, cam.intrinsics.cx,
    cam.intrinsics.cy], fl.isFinite x
  fx_pos : 0 < fl.val cam.intrinsics.fx
  fy_pos : 0 < fl.val cam.intrinsics.fy
  quat_fin : QFinite fl cam.extrinsics.rquat
  quat_near : QNear fl (60600 * fl.u) cam.extrinsics.rquat Q
  center_fin : ∀ a, fl.isFinite (cam.extrinsics.camcenter a)
  center_near : ∀ a, |fl.val (cam.extrinsics.camcenter a) - c a| ≤ 95 * fl.u * (1 + len c) / κ
  rows : ∀ i j, |s * len (fl.leftRow P 2) *
      (kMatrix (fl.val cam.intrinsics.fx) (fl.val cam.intrinsics.fy) (fl.val cam.intrinsics.skew)
        (fl.val cam.intrinsics.cx) (fl.val cam.intrinsics.cy) * Matrix.of Q.toRotationMatrix) i j -
      fl.leftRow P i j| ≤ 13600 * fl.u * len (fl.leftRow P i)

/-- C80: `from_perspective_matrix` of a well-conditioned matrix returns a camera that is finite, has positive
focal lengths and represents the matrix up to rounding errors. -/
theorem c80_represents (r : RoundingRange fl) (q : RoundingQr fl) (k : RoundingMore fl)
    (hquarter : fl.QuarterExact) (hbig : 4 ≤ k.big) (htop : 10 ≤ r.top) (hu : fl.u ≤ 1 / 10 ^ 7) {P : Mat 3 4 R}
    {c : Vec} {B κ : ℝ} (h : WellConditioned fl P c B κ) (hB : 1 ≤ B) (hκ : 0 < κ) (hκ1 : κ ≤ 1)
    (hκu : 10 ^ 5 * fl.u ≤ κ) (hω : fl.ω * (4 * B ^ 4) ≤ κ ^ 2) (hr : 2000 * B ^ 4 ≤ 2 ^ r.top) :
    ∃ p rot cen, Camera.fromPerspectiveMatrix nalgebra P =
        .ok ⟨IntrinsicParametersPerspective.ofParams p, fromRotationAndCamcenter rot cen⟩ ∧
      ∃ Q s, Represents fl ⟨.ofParams p, fromRotationAndCamcenter rot cen⟩ P c κ Q s := by
  have hu0 := fl.u_nonneg
  have hω0 := fl.ω_nonneg
  have hB0 : 0 < B := by linarith
  set m := Mat.removeColumn P 3 with hm
  set N : Fin 3 → ℝ := fun i => len (fl.leftRow P i) with hN
  have hrow : ∀ i, vrow fl m i = fl.leftRow P i := fun i => by
    funext j; fin_cases j <;> rfl
  have hblock : vmat fl m = leftBlock (fl.mat34 P) := removeColumn_three (fl.mat34 P)
  have hNp : ∀ i, 0 < N i := fun i => lt_of_lt_of_le (by positivity) (h.lower i)
  have hs : Scale r (2 * B ^ 4) := ⟨by positivity, by linarith⟩
  have pw : ∀ n ≤ 4, B ^ n ≤ B ^ 4 := fun n hn => pow_le_pow_right₀ hB hn
  have b1 : (1 : ℝ) ≤ B ^ 4 := one_le_pow₀ hB
  have s0 : Scale r 1 := hs.mono' (by norm_num) (by linarith)
  have s2 : Scale r 2 := hs.mono' (by norm_num) (by linarith)
  have hκ2 : κ ^ 2 ≤ 1 := pow_le_one₀ hκ.le hκ1
  have hωB : ∀ n ≤ 4, fl.ω * B ^ n ≤ 1 / 4 := fun n hn => by
    have := mul_le_mul_of_nonneg_left (pw n hn) hω0
    linarith
  have hω1 : fl.ω ≤ 1 := by linarith [hωB 0 (by norm_num)]
  have inv : ∀ i, 1 / B ≤ N i := h.lower
  have hin : RqInput r m N κ := by
    refine ⟨fun i j => h.fin i _, fun i => by rw [hrow], hNp, by rw [hblock]; exact h.volume, hκ1, hκu, hκ,
      fun i => ?_, fun i => hs.mono' (by linarith [hNp i]) ?_, fun i => hs.mono' (by have := hNp i; positivity) ?_⟩
    · have h1 : κ / 2 * (1 / B) * (κ / 2 * (1 / B)) ≤ κ / 2 * N i * (κ / 2 * N i) := by
        have h2 : κ / 2 * (1 / B) ≤ κ / 2 * N i := mul_le_mul_of_nonneg_left (inv i) (by linarith)
        exact mul_le_mul h2 h2 (by positivity) (mul_nonneg (by linarith) (hNp i).le)
      refine le_trans ?_ h1
      have e : κ / 2 * (1 / B) * (κ / 2 * (1 / B)) = κ ^ 2 / (4 * B ^ 2) := by field_simp; norm_num
      rw [e, le_div_iff₀ (by positivity)]
      have := mul_le_mul_of_nonneg_left (pw 2 (by norm_num)) hω0
      linarith
    · have := h.upper i
      have := pw 1 (by norm_num)
      rw [pow_one] at this
      show 2 * len _ ≤ _
      linarith
    · have h1 : N i * N i ≤ B * B := mul_le_mul (h.upper i) (h.upper i) (hNp i).le hB0.le
      have := pw 2 (by norm_num)
      linarith
  obtain ⟨M, K, T, σ, hdec, hσ, hT, hMf, hMn, hK⟩ := rqDecomposition_near q k hin hu hω1 s0 s2
  have hσσ : σ * σ = 1 := by rcases hσ with h | h <;> rw [h] <;> norm_num
  have hσa : |σ| = 1 := by rcases hσ with h | h <;> rw [h] <;> norm_num
  have huN : ∀ i, fl.u * N i ≤ 1 / 10 ^ 7 * N i := fun i => mul_le_mul_of_nonneg_right hu (hNp i).le
  have huN0 : ∀ i, 0 ≤ fl.u * N i := fun i => mul_nonneg hu0 (hNp i).le
  -- the entries of `K` are at most the row lengths
  have hTT : Matrix.of T * (Matrix.of T).transpose = 1 := mul_eq_one_comm.1 hT.1
  have hT1 : ∀ j, len (T j) = 1 := fun j => by
    have h1 := congrFun (congrFun hTT j) j
    rw [Matrix.mul_apply, Matrix.one_apply_eq] at h1
    rw [len_eq, dotProduct]
    simp only [Matrix.transpose_apply, Matrix.of_apply] at h1
    rw [h1, Real.sqrt_one]
  have hKb : ∀ i j, |fl.val (K i j)| ≤ 101 / 100 * N i := fun i j => by
    set W := vmat fl K * Matrix.of T with hW
    have e1 : fl.val (K i j) = W i ⬝ᵥ T j := by
      have : vmat fl K = W * (Matrix.of T).transpose := by
        rw [hW, Matrix.mul_assoc, hTT, Matrix.mul_one]
      have := congrFun (congrFun this i) j
      exact this
    have e2 : len (W i) ≤ 101 / 100 * N i := by
      have h1 := len_add_le (W i - fl.leftRow P i) (fl.leftRow P i)
      rw [sub_add_cancel] at h1
      have h2 : len (W i - fl.leftRow P i) ≤ 2 * (13500 * fl.u * N i) := len_le_entries fun j => by
        have := hK.prod i j
        have e : fl.leftRow P i j = fl.val (m i j) := by rw [← hrow]; rfl
        rw [Pi.sub_apply, e]
        exact this
      have : len (fl.leftRow P i) = N i := rfl
      linarith [huN i, hNp i]
    rw [e1]
    refine (abs_dot_le _ _).trans ?_
    rw [hT1, mul_one]
    exact e2
  -- division by the last entry
  have hi2 : Near fl (1 / N 2) 1 22 (Scalar.lit 1 / K 2 2) (1 / (σ * N 2)) := by
    have hN2 := hNp 2
    have h1B : 1 / N 2 ≤ B := by
      rw [div_le_iff₀ hN2]
      have := inv 2
      rw [div_le_iff₀ hB0] at this
      linarith
    have h1B' : 1 / B ≤ 1 / N 2 := one_div_le_one_div_of_le hN2 (h.upper 2)
    have n1 : Near fl 1 1 0 (Scalar.lit 1 : R) 1 := Near.of_val fl.lit_one.1 fl.lit_one.2 (by norm_num)
    have n2 : Near fl (N 2) 1 19 (K 2 2) (σ * N 2) := by
      refine ⟨hK.k_fin 2 2, ?_, ?_⟩
      · rw [abs_mul, hσa, abs_of_pos hN2]
      · have e : fl.val (K 2 2) - σ * N 2 = σ * (σ * fl.val (K 2 2) - N 2) := by
          rw [mul_sub, ← mul_assoc, hσσ, one_mul]
        rw [e, abs_mul, hσa, one_mul]
        exact hK.diag2
    refine Near.div (r := r) (M := 1) 1 zero_le_one hN2 ?_ ?_ hu n1 n2 ?_ ?_
    · exact hs.mono' (by positivity) (h1B.trans (by have := pw 1 (by norm_num); rw [pow_one] at this; linarith))
    · refine le_trans ?_ h1B'
      rw [le_div_iff₀ hB0]
      have := hωB 1 (by norm_num)
      rw [pow_one] at this
      linarith
    · rw [abs_mul, hσa, abs_of_pos hN2]
    · rw [abs_div, abs_mul, hσa, abs_of_pos hN2, abs_one, one_mul, one_mul]
  have hk : ∀ i j, Near fl (N i * (1 / N 2)) 2 25 (K i j * (Scalar.lit 1 / K 2 2))
      (fl.val (K i j) * (1 / (σ * N 2))) := fun i j => by
    have hN2 := hNp 2
    have hNi := hNp i
    have h1B : 1 / N 2 ≤ B := by
      rw [div_le_iff₀ hN2]
      have := inv 2
      rw [div_le_iff₀ hB0] at this
      linarith
    have h1B' : 1 / B ≤ 1 / N 2 := one_div_le_one_div_of_le hN2 (h.upper 2)
    refine Near.mul (r := r) (M := 2) hNi.le (by positivity) ?_ ?_ hu
      (Near.exact (m := 101 / 100) (hK.k_fin i j) (hKb i j)) hi2 ?_
    · refine hs.mono' (by positivity) ?_
      have : N i * (1 / N 2) ≤ B * B := mul_le_mul (h.upper i) h1B (by positivity) hB0.le
      have := pw 2 (by norm_num)
      linarith
    · have h1 : 1 / B * (1 / B) ≤ N i * (1 / N 2) := mul_le_mul (inv i) h1B' (by positivity) hNi.le
      refine le_trans ?_ h1
      rw [div_mul_div_comm, one_mul, le_div_iff₀ (by positivity)]
      have := hωB 2 (by norm_num)
      linarith
    · rw [abs_mul, ← mul_assoc]
      have e : |1 / (σ * N 2)| = 1 / N 2 := by
        rw [abs_div, abs_mul, hσa, abs_of_pos hN2, abs_one, one_mul]
      rw [e]
      refine mul_le_mul_of_nonneg_right ?_ (by positivity)
      linarith [hKb i j]
  set p : PerspectiveParams R :=
    ⟨K 0 0 * (Scalar.lit 1 / K 2 2), K 1 1 * (Scalar.lit 1 / K 2 2), K 0 1 * (Scalar.lit 1 / K 2 2),
      K 0 2 * (Scalar.lit 1 / K 2 2), K 1 2 * (Scalar.lit 1 / K 2 2)⟩ with hp
  -- the scaled entries
  have hk' : ∀ i j, |σ * N 2 * fl.val (K i j * (Scalar.lit 1 / K 2 2)) - fl.val (K i j)| ≤ 25 * (fl.u * N i) :=
    fun i j => by
      have hN2 := hNp 2
      have hne : σ * N 2 ≠ 0 := mul_ne_zero (by rintro rfl; norm_num at hσσ) hN2.ne'
      have e : σ * N 2 * fl.val (K i j * (Scalar.lit 1 / K 2 2)) - fl.val (K i j) =
          σ * N 2 * (fl.val (K i j * (Scalar.lit 1 / K 2 2)) - fl.val (K i j) * (1 / (σ * N 2))) := by
        rw [mul_sub, mul_left_comm, mul_one_div_cancel hne, mul_one]
      rw [e, abs_mul, abs_mul, hσa, one_mul, abs_of_pos hN2]
      refine (mul_le_mul_of_nonneg_left (hk i j).err hN2.le).trans (le_of_eq ?_)
      field_simp
  have hpos : ∀ i, 0 < fl.val (K i i * (Scalar.lit 1 / K 2 2)) := fun i => by
    have h1 := (abs_le.1 (hk i i).err).1
    have h2 := hK.diag i
    have hN2 := hNp 2
    have hNi := hNp i
    have e : fl.val (K i i) * (1 / (σ * N 2)) = σ * fl.val (K i i) * (1 / N 2) := by
      rcases hσ with h | h <;> rw [h] <;> simp
    rw [e] at h1
    have h3 : κ / 2 * N i * (1 / N 2) ≤ σ * fl.val (K i i) * (1 / N 2) :=
      mul_le_mul_of_nonneg_right h2 (by positivity)
    have h4 : 25 * (fl.u * (N i * (1 / N 2))) ≤ 25 * (κ / 10 ^ 5 * (N i * (1 / N 2))) := by
      have : fl.u ≤ κ / 10 ^ 5 := by linarith
      gcongr
    have h5 : 0 < κ * (N i * (1 / N 2)) := by positivity
    linarith
  -- the quaternion
  have hδ : 40 * fl.u ≤ 20200 * fl.u := by linarith
  have hδ' : 20200 * fl.u ≤ 1 / 200 := by linarith
  obtain ⟨iw, ii, ij, ik⟩ := shepperd_inRange r k hquarter htop hT hMn hδ hδ' hω1 hMf
  have hqf : QFinite fl (shepperd M) := ⟨iw.1, ii.1, ij.1, ik.1⟩
  obtain ⟨Q, hQ, hQT, hQn⟩ := shepperd_tight k hquarter hbig hT hMn hδ hδ' hω1 hqf
  -- the centre
  have hcen := center_near (r := r) (P := P) (N := N) hu hB hs (by linarith [hωB 3 (by norm_num)]) h.fin
    (fun i => by rw [hrow]) inv h.upper h.center h.null hκ hκ1 hκu (by rw [hblock]; exact h.volume)
  refine ⟨p, shepperd M, Camera.pmat2camCenter P, ?_, Q, σ, hσ, hQ, ?_, hpos 0, hpos 1, hqf, ?_,
    fun a => (hcen a).1, fun a => (hcen a).2, ?_⟩
  · simp only [Camera.fromPerspectiveMatrix, ← hm, hdec, bind, Except.bind, pure, Except.pure, Mat.scale]
    rfl
  · intro x hx
    simp only [List.mem_cons, List.not_mem_nil, or_false] at hx
    rcases hx with rfl | rfl | rfl | rfl | rfl
    exacts [(hk 0 0).fin, (hk 1 1).fin, (hk 0 1).fin, (hk 0 2).fin, (hk 1 2).fin]
  · have e : 3 * (20200 * fl.u) = 60600 * fl.u := by ring
    rw [← e]
    exact hQn
  · intro i j
    rw [hQT]
    set Kc : Matrix (Fin 3) (Fin 3) ℝ := kMatrix (fl.val p.fx) (fl.val p.fy) (fl.val p.skew) (fl.val p.cx)
      (fl.val p.cy) with hKc
    have hent : ∀ l, |σ * N 2 * Kc i l - fl.val (K i l)| ≤ 25 * (fl.u * N i) := by
      have z : ∀ {i l : Fin 3}, l < i → |σ * N 2 * 0 - fl.val (K i l)| ≤ 25 * (fl.u * N i) := fun {i l} hl => by
        rw [hK.upper i l hl, mul_zero, sub_zero, abs_zero]
        linarith [huN0 i]
      intro l
      fin_cases i <;> fin_cases l
      · exact hk' 0 0
      · exact hk' 0 1
      · exact hk' 0 2
      · exact z (by decide)
      · exact hk' 1 1
      · exact hk' 1 2
      · exact z (by decide)
      · exact z (by decide)
      · show |σ * N 2 * 1 - fl.val (K 2 2)| ≤ _
        have e : σ * N 2 * 1 - fl.val (K 2 2) = -(σ * (σ * fl.val (K 2 2) - N 2)) := by
          rw [mul_sub, ← mul_assoc, hσσ]; ring
        rw [e, abs_neg, abs_mul, hσa, one_mul]
        exact hK.diag2.trans (by show 19 * (fl.u * N 2) ≤ 25 * (fl.u * N 2); linarith [huN0 2])
    have e : fl.leftRow P i j = fl.val (m i j) := by rw [← hrow]; rfl
    have hprod := hK.prod i j
    have e2 : σ * len (fl.leftRow P 2) * (Kc * Matrix.of T) i j - fl.leftRow P i j =
        (σ * N 2 * Kc i 0 - fl.val (K i 0)) * T 0 j + (σ * N 2 * Kc i 1 - fl.val (K i 1)) * T 1 j +
        (σ * N 2 * Kc i 2 - fl.val (K i 2)) * T 2 j + ((vmat fl K * Matrix.of T) i j - fl.val (m i j)) := by
      rw [e, Matrix.mul_apply, Matrix.mul_apply, Fin.sum_univ_three, Fin.sum_univ_three]
      simp only [vmat, Matrix.of_apply, hN]
      ring
    show |σ * len (fl.leftRow P 2) * (Kc * Matrix.of T) i j - fl.leftRow P i j| ≤ _
    rw [e2]
    have tb : ∀ l, |(σ * N 2 * Kc i l - fl.val (K i l)) * T l j| ≤ 25 * (fl.u * N i) := fun l => by
      rw [abs_mul]
      calc _ ≤ 25 * (fl.u * N i) * 1 := mul_le_mul (hent l) (rot_entry hT l j) (abs_nonneg _)
            (by linarith [huN0 i])
        _ = _ := mul_one _
    refine (abs_add_le _ _).trans ?_
    have a1 := abs_add_three ((σ * N 2 * Kc i 0 - fl.val (K i 0)) * T 0 j)
      ((σ * N 2 * Kc i 1 - fl.val (K i 1)) * T 1 j) ((σ * N 2 * Kc i 2 - fl.val (K i 2)) * T 2 j)
    show _ ≤ 13600 * fl.u * N i
    linarith [tb 0, tb 1, tb 2, huN0 i]

theorem Format.ω_b64' : Format.b64.ω = 1 / 2 ^ 1022 := by
  show (2 : ℝ) ^ ((3 - 1024 - 53 : ℤ) + 53 - 1) = _
  rw [show (3 - 1024 - 53 : ℤ) + 53 - 1 = -(1022 : ℕ) by norm_num, _root_.zpow_neg, one_div, zpow_natCast]

/-- C80 for `f64`: rows of lengths between `2^-200` and `2^200`, `κ ≥ 1e-10`. -/
theorem c80_f64 {lib : Libm Format.b64} {P : Mat 3 4 (F64 lib)} {c : Vec} {κ : ℝ}
    (h : WellConditioned (RustFloat.rounding .b64 lib) P c (2 ^ 200) κ) (hκ : 1 / 10 ^ 10 ≤ κ) (hκ1 : κ ≤ 1) :
    ∃ p rot cen, Camera.fromPerspectiveMatrix nalgebra P =
        .ok ⟨IntrinsicParametersPerspective.ofParams p, fromRotationAndCamcenter rot cen⟩ ∧
      ∃ Q s, Represents (RustFloat.rounding .b64 lib) ⟨.ofParams p, fromRotationAndCamcenter rot cen⟩ P c κ Q s := by
  have eu : (RustFloat.rounding .b64 lib).u = 1 / 2 ^ 53 := Format.u_b64
  have eω : (RustFloat.rounding .b64 lib).ω = 1 / 2 ^ 1022 := Format.ω_b64'
  refine c80_represents (RustFloat.range .b64 lib) (RustFloat.roundingQr .b64 lib)
    (RustFloat.roundingMore lib Format.cutoff_b64) (RustFloat.quarterExact .b64 lib)
    (RustFloat.four_le_big _ _ (by show (3 : ℤ) ≤ 1024; norm_num)) (by show _ ≤ 1023; norm_num)
    (by rw [eu]; norm_num) h (one_le_pow₀ (by norm_num)) (by linarith [show (0 : ℝ) < 1 / 10 ^ 10 by positivity])
    hκ1 (by rw [eu]; refine le_trans ?_ hκ; norm_num) ?_ ?_
  · rw [eω]
    refine le_trans ?_ (pow_le_pow_left₀ (by positivity) hκ 2)
    rw [← pow_mul, show (1022 : ℕ) = 200 * 4 + 222 from rfl, pow_add, one_div_mul_eq_div,
      mul_comm (2 ^ (200 * 4) : ℝ), mul_div_mul_right _ _ (by positivity)]
    norm_num
  · show _ ≤ (2 : ℝ) ^ 1023
    rw [← pow_mul, show (1023 : ℕ) = 223 + 200 * 4 from rfl, pow_add (2 : ℝ) 223]
    exact mul_le_mul_of_nonneg_right (by norm_num) (by positivity)

/-- C80 for `f32`: rows of lengths between `2^-25` and `2^25`, `κ ≥ 0.006`. -/
theorem c80_f32 {lib : Libm Format.b32} {P : Mat 3 4 (F32 lib)} {c : Vec} {κ : ℝ}
    (h : WellConditioned (RustFloat.rounding .b32 lib) P c (2 ^ 25) κ) (hκ : 6 / 1000 ≤ κ) (hκ1 : κ ≤ 1) :
    ∃ p rot cen, Camera.fromPerspectiveMatrix nalgebra P =
        .ok ⟨IntrinsicParametersPerspective.ofParams p, fromRotationAndCamcenter rot cen⟩ ∧
      ∃ Q s, Represents (RustFloat.rounding .b32 lib) ⟨.ofParams p, fromRotationAndCamcenter rot cen⟩ P c κ Q s := by
  have eu : (RustFloat.rounding .b32 lib).u = 1 / 2 ^ 24 := Format.u_b32
  have eω : (RustFloat.rounding .b32 lib).ω = 1 / 2 ^ 126 := Format.ω_b32
  refine c80_represents (RustFloat.range .b32 lib) (RustFloat.roundingQr .b32 lib)
    (RustFloat.roundingMore lib Format.cutoff_b32) (RustFloat.quarterExact .b32 lib)
    (RustFloat.four_le_big _ _ (by show (3 : ℤ) ≤ 128; norm_num)) (by show _ ≤ 127; norm_num)
    (by rw [eu]; norm_num) h (one_le_pow₀ (by norm_num)) (by linarith)
    hκ1 (by rw [eu]; refine le_trans ?_ hκ; norm_num) ?_ ?_
  · rw [eω]
    refine le_trans ?_ (pow_le_pow_left₀ (by positivity) hκ 2)
    norm_num
  · show _ ≤ (2 : ℝ) ^ 127
    norm_num

/-- Non-vacuity of C80: a matrix with rows `(4, 0, 3, 13)`, `(0, 4, 3, 17)`, `(0, 0, 1, 3)`, whose camera
centre is `(-1, -2, -3)`. -/
theorem wellConditioned_witness (f : Format) (hf : 17 < 2 ^ f.p) (lib : Libm f) (B : ℝ) (hB : 5 ≤ B) :
    let w : ℕ → RustFloat f lib := fun k => if h : k < 2 ^ f.p then Flt.whole f k h else 0
    let P : Mat 3 4 (RustFloat f lib) :=
      ![![w 4, w 0, w 3, w 13], ![w 0, w 4, w 3, w 17], ![w 0, w 0, w 1, w 3]]
    WellConditioned (RustFloat.rounding f lib) P ![-1, -2, -3] B (1 / 2) ∧
      (RustFloat.rounding f lib).mat34 P = ![![4, 0, 3, 13], ![0, 4, 3, 17], ![0, 0, 1, 3]] ∧
      len ((RustFloat.rounding f lib).leftRow P 0) = 5 ∧ len ((RustFloat.rounding f lib).leftRow P 1) = 5 ∧
      len ((RustFloat.rounding f lib).leftRow P 2) = 1 := by
  intro w
  set fl := RustFloat.rounding f lib with hfl
  have hw : ∀ k, k ≤ 17 → fl.isFinite (w k) ∧ fl.val (w k) = k := fun k hk => by
    have hk' : k < 2 ^ f.p := lt_of_le_of_lt hk hf
    have e : w k = Flt.whole f k hk' := dif_pos hk'
    rw [e]
    refine ⟨trivial, ?_⟩
    show Flt.val (f := f) (Flt.whole f k hk') = _
    simp [Flt.whole, Flt.val]
  have w0 := hw 0 (by norm_num)
  have w1 := hw 1 (by norm_num)
  have w3 := hw 3 (by norm_num)
  have w4 := hw 4 (by norm_num)
  have w13 := hw 13 (by norm_num)
  have w17 := hw 17 (by norm_num)
  intro P
  have hP : P = ![![w 4, w 0, w 3, w 13], ![w 0, w 4, w 3, w 17], ![w 0, w 0, w 1, w 3]] := rfl
  have hM : fl.mat34 P = ![![4, 0, 3, 13], ![0, 4, 3, 17], ![0, 0, 1, 3]] := by
    funext i j
    fin_cases i <;> fin_cases j <;>
      simp [Rounding.mat34, hP, w0.2, w1.2, w3.2, w4.2, w13.2, w17.2]
  have r0 : fl.leftRow P 0 = ![4, 0, 3] := by
    funext j; fin_cases j <;> simp [Rounding.leftRow, hP, w0.2, w3.2, w4.2]
  have r1 : fl.leftRow P 1 = ![0, 4, 3] := by
    funext j; fin_cases j <;> simp [Rounding.leftRow, hP, w0.2, w3.2, w4.2]
  have r2 : fl.leftRow P 2 = ![0, 0, 1] := by
    funext j; fin_cases j <;> simp [Rounding.leftRow, hP, w0.2, w1.2]
  have l25 : Real.sqrt 25 = 5 := by
    rw [show (25 : ℝ) = 5 * 5 by norm_num]; exact Real.sqrt_mul_self (by norm_num)
  have l : ∀ a b c : ℝ, len ![a, b, c] = Real.sqrt (a ^ 2 + b ^ 2 + c ^ 2) := fun a b c => by
    simp [len, Fin.sum_univ_three]
  have l0 : len (fl.leftRow P 0) = 5 := by rw [r0, l]; norm_num [l25]
  have l1 : len (fl.leftRow P 1) = 5 := by rw [r1, l]; norm_num [l25]
  have l2 : len (fl.leftRow P 2) = 1 := by rw [r2, l]; norm_num
  have hB' : 1 / B ≤ 1 := by rw [div_le_one (by linarith)]; linarith
  refine ⟨⟨fun i j => ?_, fun i => ?_, fun i => ?_, ?_, ?_, ?_⟩, hM, l0, l1, l2⟩
  · fin_cases i <;> fin_cases j <;>
      first | exact w0.1 | exact w1.1 | exact w3.1 | exact w4.1 | exact w13.1 | exact w17.1
  · fin_cases i
    · show _ ≤ len (fl.leftRow P 0); rw [l0]; linarith
    · show _ ≤ len (fl.leftRow P 1); rw [l1]; linarith
    · show _ ≤ len (fl.leftRow P 2); rw [l2]; linarith
  · fin_cases i
    · show len (fl.leftRow P 0) ≤ _; rw [l0]; linarith
    · show len (fl.leftRow P 1) ≤ _; rw [l1]; linarith
    · show len (fl.leftRow P 2) ≤ _; rw [l2]; linarith
  · rw [l0, l1, l2, hM, Matrix.det_fin_three]
    simp [leftBlock]
    norm_num
  · rw [hM]
    funext a
    fin_cases a <;> simp [homImage, Matrix.mulVec, dotProduct, Fin.sum_univ_four] <;> norm_num
  · refine le_trans ?_ hB
    rw [l, Real.sqrt_le_iff]
    norm_num

end CamGeom
