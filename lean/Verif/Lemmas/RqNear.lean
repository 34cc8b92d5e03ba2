import Verif.Lemmas.QrNear
import Verif.Lemmas.InRangeView
import Verif.Props.PerspectiveMatrix

/-!
# Rounding errors of `rq` and `rq_decomposition`
-/

namespace CamGeom
open Spec Matrix Householder

variable {R : Type} [Scalar R] {fl : Rounding R} {r : RoundingRange fl}

/-- Row `i` of the values of a matrix. -/
def vrow (fl : Rounding R) (m : Mat 3 3 R) (i : Fin 3) : V3 ℝ := fun j => fl.val (m i j)

/-- The values of a matrix. -/
def vmat (fl : Rounding R) (m : Mat 3 3 R) : Matrix (Fin 3) (Fin 3) ℝ := Matrix.of fun i j => fl.val (m i j)

section perm

variable {x y z : R}

theorem pick_sum0 (hx : fl.isFinite x) (hy : fl.isFinite y) (hz : fl.isFinite z) (y0 : fl.val y = 0)
    (z0 : fl.val z = 0) : fl.isFinite (x + y + z) ∧ fl.val (x + y + z) = fl.val x := by
  obtain ⟨h1, h2⟩ := fl.add_zero hx hy y0
  obtain ⟨h3, h4⟩ := fl.add_zero h1 hz z0
  exact ⟨h3, h4.trans h2⟩

theorem pick_sum1 (hx : fl.isFinite x) (hy : fl.isFinite y) (hz : fl.isFinite z) (x0 : fl.val x = 0)
    (z0 : fl.val z = 0) : fl.isFinite (x + y + z) ∧ fl.val (x + y + z) = fl.val y := by
  obtain ⟨h1, h2⟩ := fl.zero_add hx hy x0
  obtain ⟨h3, h4⟩ := fl.add_zero h1 hz z0
  exact ⟨h3, h4.trans h2⟩

theorem pick_sum2 (hx : fl.isFinite x) (hy : fl.isFinite y) (hz : fl.isFinite z) (x0 : fl.val x = 0)
    (y0 : fl.val y = 0) : fl.isFinite (x + y + z) ∧ fl.val (x + y + z) = fl.val z := by
  obtain ⟨h1, h2⟩ := fl.zero_add hx hy x0
  exact fl.zero_add h1 hz (h2.trans y0)

/-- The permutation matrix of `rq`. -/
def flip3 : Mat 3 3 R :=
  ![![Scalar.lit 0, Scalar.lit 0, Scalar.lit 1],
    ![Scalar.lit 0, Scalar.lit 1, Scalar.lit 0],
    ![Scalar.lit 1, Scalar.lit 0, Scalar.lit 0]]

/-- Multiplication by the permutation matrix is exact. -/
theorem flip3_mul {m : Mat 3 3 R} (hm : ∀ i j, fl.isFinite (m i j)) (i j : Fin 3) :
    fl.isFinite (Mat.mul3 flip3 m i j) ∧ fl.val (Mat.mul3 flip3 m i j) = fl.val (m i.rev j) := by
  have z := fun a => fl.zero_mul fl.lit_zero.1 (hm a j) fl.lit_zero.2
  have o := fun a => fl.one_mul fl.lit_one.1 (hm a j) fl.lit_one.2
  fin_cases i
  · have h := pick_sum2 (z 0).1 (z 1).1 (o 2).1 (z 0).2 (z 1).2
    exact ⟨h.1, h.2.trans (o 2).2⟩
  · have h := pick_sum1 (z 0).1 (o 1).1 (z 2).1 (z 0).2 (z 2).2
    exact ⟨h.1, h.2.trans (o 1).2⟩
  · have h := pick_sum0 (o 0).1 (z 1).1 (z 2).1 (z 1).2 (z 2).2
    exact ⟨h.1, h.2.trans (o 0).2⟩

theorem mul_flip3 {m : Mat 3 3 R} (hm : ∀ i j, fl.isFinite (m i j)) (i j : Fin 3) :
    fl.isFinite (Mat.mul3 m flip3 i j) ∧ fl.val (Mat.mul3 m flip3 i j) = fl.val (m i j.rev) := by
  have z := fun a => fl.mul_zero (hm i a) fl.lit_zero.1 fl.lit_zero.2
  have o := fun a => fl.mul_one (hm i a) fl.lit_one.1 fl.lit_one.2
  fin_cases j
  · have h := pick_sum2 (z 0).1 (z 1).1 (o 2).1 (z 0).2 (z 1).2
    exact ⟨h.1, h.2.trans (o 2).2⟩
  · have h := pick_sum1 (z 0).1 (o 1).1 (z 2).1 (z 0).2 (z 2).2
    exact ⟨h.1, h.2.trans (o 1).2⟩
  · have h := pick_sum0 (o 0).1 (z 1).1 (z 2).1 (z 1).2 (z 2).2
    exact ⟨h.1, h.2.trans (o 0).2⟩

end perm

/-- What is asked of the matrix to be factored: rows of lengths `N i`, far from linearly dependent, far from
overflow and underflow. -/
structure RqInput (r : RoundingRange fl) (m : Mat 3 3 R) (N : Fin 3 → ℝ) (κ : ℝ) : Prop where
  fin : ∀ i j, fl.isFinite (m i j)
  len : ∀ i, len (vrow fl m i) = N i
  pos : ∀ i, 0 < N i
  det : κ * (N 0 * N 1 * N 2) ≤ |(vmat fl m).det|
  κ_le : κ ≤ 1
  κ_big : 10 ^ 5 * fl.u ≤ κ
  κ_pos : 0 < κ
  ω : ∀ i, fl.ω ≤ κ / 2 * N i * (κ / 2 * N i)
  top1 : ∀ i, Scale r (2 * N i)
  top2 : ∀ i, Scale r (2 * (N i * N i))

/-- A computed triangular factor `K`, compared with the exact factor for an exactly orthogonal `Q`. -/
structure RqFactor (fl : Rounding R) (m : Mat 3 3 R) (N : Fin 3 → ℝ) (κ : ℝ) (K : Mat 3 3 R) (σ : ℝ)
    (Q : Matrix (Fin 3) (Fin 3) ℝ) : Prop where
  k_fin : ∀ i j, fl.isFinite (K i j)
  upper : ∀ i j, j < i → fl.val (K i j) = 0
  diag : ∀ i, κ / 2 * N i ≤ σ * fl.val (K i i)
  diag2 : |σ * fl.val (K 2 2) - N 2| ≤ 19 * (fl.u * N 2)
  prod : ∀ i j, |(vmat fl K * Q) i j - fl.val (m i j)| ≤ 13500 * fl.u * N i

/-- `rq` in floating point. -/
theorem rq_near (q : RoundingQr fl) (k : RoundingMore fl) {m : Mat 3 3 R} {N : Fin 3 → ℝ} {κ : ℝ}
    (h : RqInput r m N κ) (hu : fl.u ≤ 1 / 10 ^ 7) (hω1 : fl.ω ≤ 1) (s0 : Scale r 1) (s2 : Scale r 2) :
    ∃ Q, Q * Q.transpose = 1 ∧ (∀ i j, fl.isFinite ((Camera.rq nalgebra m).2 i j)) ∧
      (∀ i j, |fl.val ((Camera.rq nalgebra m).2 i j) - Q i j| ≤ 20200 * fl.u) ∧
      RqFactor fl m N κ (Camera.rq nalgebra m).1 1 Q := by
  set B : Mat 3 3 R := Mat.transpose' (Mat.mul3 flip3 m) with hB
  have vB : ∀ a c, fl.isFinite (B a c) ∧ fl.val (B a c) = fl.val (m c.rev a) := fun a c =>
    flip3_mul h.fin c a
  have colB : ∀ c, vcol fl B c = vrow fl m c.rev := fun c => funext fun a => (vB a c).2
  have hin : QrInput r B (fun c => N c.rev) κ := by
    refine ⟨fun a c => (vB a c).1, fun c => by rw [colB, h.len], fun c => h.pos _, ?_, h.κ_le, h.κ_big,
      h.κ_pos, fun c => h.ω _, fun c => h.top1 _, fun c => h.top2 _⟩
    have h1 : det3c (vcol fl B 0) (vcol fl B 1) (vcol fl B 2) = -(vmat fl m).det := by
      rw [colB, colB, colB, Matrix.det_fin_three]
      simp only [det3c, vrow, vmat, Matrix.of_apply, show Fin.rev (0 : Fin 3) = 2 from rfl,
        show Fin.rev (1 : Fin 3) = 1 from rfl, show Fin.rev (2 : Fin 3) = 0 from rfl]
      ring
    rw [h1, abs_neg]
    refine le_trans (le_of_eq ?_) h.det
    show κ * (N 2 * N 1 * N 0) = _
    ring
  obtain ⟨Qs, hQ⟩ := qr_near q k hin hu hω1 s0 s2
  set Qh := (Householder.qr B).1 with hQh
  set Rh := (Householder.qr B).2 with hRh
  have e1 : (Camera.rq nalgebra m).1 = Mat.mul3 (Mat.mul3 flip3 (Mat.transpose' Rh)) flip3 := rfl
  have e2 : (Camera.rq nalgebra m).2 = Mat.mul3 flip3 (Mat.transpose' Qh) := rfl
  have v1 : ∀ i j, fl.isFinite ((Camera.rq nalgebra m).1 i j) ∧
      fl.val ((Camera.rq nalgebra m).1 i j) = fl.val (Rh j.rev i.rev) := fun i j => by
    have f1 := fun i j => flip3_mul (fl := fl) (m := Mat.transpose' Rh) (fun a b => hQ.r_fin b a) i j
    have f2 := mul_flip3 (fl := fl) (m := Mat.mul3 flip3 (Mat.transpose' Rh)) (fun a b => (f1 a b).1) i j
    rw [e1]
    exact ⟨f2.1, f2.2.trans (f1 _ _).2⟩
  have v2 : ∀ i j, fl.isFinite ((Camera.rq nalgebra m).2 i j) ∧
      fl.val ((Camera.rq nalgebra m).2 i j) = fl.val (Qh j i.rev) := fun i j => by
    rw [e2]
    exact flip3_mul (fl := fl) (m := Mat.transpose' Qh) (fun a b => hQ.q_fin b a) i j
  refine ⟨Matrix.of fun (i j : Fin 3) => Qs j i.rev, ?_, fun i j => (v2 i j).1, fun i j => ?_, ?_⟩
  · ext i j
    have h1 := congrFun (congrFun hQ.orth i.rev) j.rev
    rw [Matrix.mul_apply] at h1 ⊢
    simp only [Matrix.transpose_apply, Matrix.of_apply, Matrix.one_apply, Fin.rev_inj] at h1 ⊢
    exact h1
  · rw [(v2 i j).2]
    exact hQ.q_near j i.rev
  · refine ⟨fun i j => (v1 i j).1, fun i j hij => ?_, fun i => ?_, ?_, fun i j => ?_⟩
    · rw [(v1 i j).2]
      exact hQ.r_zero _ _ (Fin.rev_lt_rev.2 hij)
    · rw [(v1 i i).2, one_mul]
      have := hQ.r_diag i.rev
      rwa [Fin.rev_rev] at this
    · rw [(v1 2 2).2, one_mul]
      exact hQ.r_diag0
    · have h1 := hQ.prod j i.rev
      rw [(vB j i.rev).2, Fin.rev_rev] at h1
      have h2 : (vmat fl (Camera.rq nalgebra m).1 * Matrix.of fun (i j : Fin 3) => Qs j i.rev) i j =
          (Qs * Matrix.of fun a c => fl.val (Rh a c)) j i.rev := by
        rw [Matrix.mul_apply, Matrix.mul_apply, Fin.sum_univ_three, Fin.sum_univ_three]
        simp only [vmat, Matrix.of_apply, (v1 i _).2, show Fin.rev (0 : Fin 3) = 2 from rfl,
          show Fin.rev (1 : Fin 3) = 1 from rfl, show Fin.rev (2 : Fin 3) = 0 from rfl]
        ring
      rw [h2]
      exact h1

/-- A positive diagonal is left alone. -/
theorem flipSigns_id {K Q : Mat 3 3 R} (h : ∀ i, Scalar.lt (K i i) (Scalar.lit 0) = false) :
    Camera.flipSigns K Q = (K, Q) := by
  simp [Camera.flipSigns, forRange, finRange3, h]

/-- The determinant of a computed matrix near an orthogonal matrix. -/
theorem det3_unit_near {M : Mat 3 3 R} {Q : Matrix (Fin 3) (Fin 3) ℝ} (hu : fl.u ≤ 1 / 10 ^ 7)
    (hω1 : fl.ω ≤ 1) (s0 : Scale r 1) (hf : ∀ i j, fl.isFinite (M i j)) (hQ : ∀ i j, |Q i j| ≤ 1)
    (hM : ∀ i j, |fl.val (M i j) - Q i j| ≤ 20200 * fl.u) :
    fl.isFinite (Mat.det3 M) ∧ |fl.val (Mat.det3 M) - Q.det| ≤ 1 / 10 := by
  have n : ∀ i j, Near fl 1 1 20200 (M i j) (Q i j) := fun i j =>
    ⟨hf i j, by rw [mul_one]; exact hQ i j, by rw [mul_one]; exact hM i j⟩
  have p : ∀ i j a b, Near fl 1 1 40500 (M i j * M a b) (Q i j * Q a b) := fun i j a b =>
    (Near.mul (M := 1) zero_le_one zero_le_one (by rw [mul_one]; exact s0) (by rw [mul_one]; exact hω1) hu
      (n i j) (n a b) (by
        rw [abs_mul]
        exact le_trans (mul_le_mul (hQ i j) (hQ a b) (abs_nonneg _) zero_le_one) (by norm_num))).scale
      (by norm_num)
  have d : ∀ {x y : R} {X Y : ℝ}, Near fl 1 1 40500 x X → Near fl 1 1 40500 y Y →
      Near fl 1 2 81100 (x - y) (X - Y) := fun {x y X Y} hx hy =>
    Near.sub s0 hu hx hy ((abs_sub _ _).trans (by linarith [hx.mag, hy.mag]))
  have t : ∀ {x : R} {X : ℝ} (i j), Near fl 1 2 81100 x X → Near fl 1 2 122000 (M i j * x) (Q i j * X) :=
    fun {x X} i j hx => (Near.mul (M := 2) zero_le_one zero_le_one (by rw [mul_one]; exact s0)
      (by rw [mul_one]; exact hω1) hu (n i j) hx (by
        have hX := hx.mag
        rw [mul_one] at hX
        rw [abs_mul]
        exact le_trans (mul_le_mul (hQ i j) hX (abs_nonneg _) zero_le_one) (by norm_num))).scale
      (by norm_num)
  have t0 := t 0 0 (d (p 1 1 2 2) (p 2 1 1 2))
  have t1 := t 0 1 (d (p 1 0 2 2) (p 2 0 1 2))
  have t2 := t 0 2 (d (p 1 0 2 1) (p 2 0 1 1))
  have s1 := Near.sub (M := 4) (C := 244100) s0 hu t0 t1 ((abs_sub _ _).trans (by linarith [t0.mag, t1.mag]))
  have s3 := Near.add (M := 6) (C := 366200) s0 hu s1 t2
    ((abs_add_le _ _).trans (by linarith [s1.mag, t2.mag]))
  refine ⟨s3.fin, ?_⟩
  have := s3.err_le hu zero_le_one (by norm_num)
  rw [Matrix.det_fin_three]
  refine le_trans (le_of_eq ?_) (this.trans (by norm_num))
  congr 1
  show fl.val (Mat.det3 M) - _ = fl.val (Mat.det3 M) - _
  ring

/-- `rq_decomposition` in floating point: the quaternion comes from a matrix near an exact rotation `T`, and
the computed triangular factor times `T` is near the argument. -/
theorem rqDecomposition_near (q : RoundingQr fl) (k : RoundingMore fl) {m : Mat 3 3 R} {N : Fin 3 → ℝ} {κ : ℝ}
    (h : RqInput r m N κ) (hu : fl.u ≤ 1 / 10 ^ 7) (hω1 : fl.ω ≤ 1) (s0 : Scale r 1) (s2 : Scale r 2) :
    ∃ (M K : Mat 3 3 R) (T : Mat 3 3 ℝ) (σ : ℝ), Camera.rqDecomposition nalgebra m = .ok (shepperd M, K) ∧
      (σ = 1 ∨ σ = -1) ∧ IsRotation T ∧ (∀ i j, fl.isFinite (M i j)) ∧
      (∀ i j, |fl.val (M i j) - T i j| ≤ 20200 * fl.u) ∧ RqFactor fl m N κ K σ (Matrix.of T) := by
  have hu0 := fl.u_nonneg
  obtain ⟨Q, hO, hqf, hqn, hK⟩ := rq_near q k h hu hω1 s0 s2
  set K0 := (Camera.rq nalgebra m).1 with hK0
  set Q0 := (Camera.rq nalgebra m).2 with hQ0
  have hO' : Q.transpose * Q = 1 := mul_eq_one_comm.1 hO
  have hQ1 : ∀ i j, |Q i j| ≤ 1 := fun i j => by
    have h1 := congrFun (congrFun hO i) i
    rw [Matrix.mul_apply, Fin.sum_univ_three] at h1
    simp only [Matrix.transpose_apply, Matrix.one_apply_eq] at h1
    refine abs_le_of_sq_le_sq ?_ zero_le_one
    have t0 := mul_self_nonneg (Q i 0)
    have t1 := mul_self_nonneg (Q i 1)
    have t2 := mul_self_nonneg (Q i 2)
    rw [one_pow, sq]
    fin_cases j <;> simp <;> linarith
  have hpos : ∀ i, Scalar.lt (K0 i i) (Scalar.lit 0) = false := fun i => by
    rw [Bool.eq_false_iff]
    intro hlt
    have h1 := (k.lt_iff (hK.k_fin i i) fl.lit_zero.1).1 hlt
    rw [fl.lit_zero.2] at h1
    have h2 := hK.diag i
    have h3 := mul_pos (half_pos h.κ_pos) (h.pos i)
    linarith
  have hdet : Q.det = 1 ∨ Q.det = -1 := by
    have := congrArg Matrix.det hO
    rw [det_mul, det_transpose, det_one] at this
    exact mul_self_eq_one_iff.1 this
  have nneg : ∀ i j, fl.isFinite (Mat.neg Q0 i j) ∧ fl.val (Mat.neg Q0 i j) = - fl.val (Q0 i j) := fun i j =>
    have h1 := r.neg (hqf i j)
    ⟨h1, (fl.neg h1).2⟩
  have kneg : ∀ i j, fl.isFinite (Mat.neg K0 i j) ∧ fl.val (Mat.neg K0 i j) = - fl.val (K0 i j) := fun i j =>
    have h1 := r.neg (hK.k_fin i j)
    ⟨h1, (fl.neg h1).2⟩
  have hqn' : ∀ i j, |fl.val (Mat.neg Q0 i j) - (-Q) i j| ≤ 20200 * fl.u := fun i j => by
    rw [(nneg i j).2, Matrix.neg_apply, ← neg_sub', abs_neg]
    exact hqn i j
  have d1 := det3_unit_near (r := r) hu hω1 s0 hqf hQ1 hqn
  have d2 := det3_unit_near (r := r) (Q := -Q) hu hω1 s0 (fun i j => (nneg i j).1)
    (fun i j => by rw [Matrix.neg_apply, abs_neg]; exact hQ1 i j) hqn'
  have hdn : (-Q).det = - Q.det := by rw [det_neg]; simp; ring
  rw [hdn] at d2
  have hunf : Camera.rqDecomposition nalgebra m = if Scalar.lt (Mat.det3 (Mat.neg Q0)) (Mat.det3 Q0) then
      .ok (shepperd Q0, K0) else .ok (shepperd (Mat.neg Q0), Mat.neg K0) := by
    simp only [Camera.rqDecomposition, ← hK0, ← hQ0, flipSigns_id hpos]
    rfl
  have hlt := k.lt_iff d2.1 d1.1
  have a1 := abs_le.1 d1.2
  have a2 := abs_le.1 d2.2
  rw [hunf]
  rcases hdet with h1 | h1
  · refine ⟨Q0, K0, Q, 1, if_pos (hlt.2 (by linarith)), .inl rfl, ⟨hO', h1⟩, hqf, hqn, hK⟩
  · have hnl : ¬ Scalar.lt (Mat.det3 (Mat.neg Q0)) (Mat.det3 Q0) = true := fun hc => by
      have := hlt.1 hc
      linarith
    refine ⟨Mat.neg Q0, Mat.neg K0, -Q, -1, if_neg hnl, .inr rfl, ⟨?_, ?_⟩, fun i j => (nneg i j).1, hqn',
      fun i j => (kneg i j).1, fun i j hij => ?_, fun i => ?_, ?_, fun i j => ?_⟩
    · show (-Q).transpose * -Q = 1
      rw [transpose_neg, neg_mul_neg, hO']
    · show (-Q).det = 1
      rw [hdn, h1, neg_neg]
    · rw [(kneg i j).2, hK.upper i j hij, neg_zero]
    · rw [(kneg i i).2, neg_mul_neg]
      exact hK.diag i
    · rw [(kneg 2 2).2, neg_mul_neg]
      exact hK.diag2
    · have : vmat fl (Mat.neg K0) = -vmat fl K0 := by
        ext i j; simp [vmat, (kneg i j).2]
      show |(vmat fl (Mat.neg K0) * -Q) i j - _| ≤ _
      rw [this, neg_mul_neg]
      exact hK.prod i j

end CamGeom
