import Verif.Props.FloatLinearize
import Verif.Props.RoundingProject
import Verif.Props.FloatDistance

/-!
# C93: a camera, its matrix and the camera of that matrix, in f64

`from_perspective_matrix` of the matrix that `as_camera_matrix` returns for an `f64` camera gives back a camera that
projects every point to nearly the same pixel.
-/

namespace CamGeom
open Spec Matrix ExtrinsicParameters Rounding

/-! ### Rows -/

/-- The left part of a row of a 3x4 matrix. -/
def leftOf (Y : Mat 3 4 ℝ) (a : Fin 3) : Vec := fun j => Y a j.castSucc

theorem det_eq_triple (Y : Mat 3 4 ℝ) : (leftBlock Y).det = leftOf Y 0 ⬝ᵥ (leftOf Y 1 ⨯₃ leftOf Y 2) := by
  rw [Matrix.det_fin_three, cross_apply]
  simp [leftBlock, leftOf, dotProduct, Fin.sum_univ_three]
  ring

theorem abs_triple_le (a b c : Vec) : |a ⬝ᵥ (b ⨯₃ c)| ≤ len a * len b * len c := by
  refine (abs_dot_le _ _).trans ?_
  rw [_root_.mul_assoc]
  exact mul_le_mul_of_nonneg_left (len_cross_le b c) (len_nonneg a)

/-- Change of the volume when the edges change. -/
theorem triple_near {a b c a' b' c' : Vec} {A B C α β γ : ℝ} (ha : len a ≤ A) (hb' : len b' ≤ B) (hb : len b ≤ B)
    (hc' : len c' ≤ C) (hα : len (a' - a) ≤ α) (hβ : len (b' - b) ≤ β) (hγ : len (c' - c) ≤ γ) :
    |a' ⬝ᵥ (b' ⨯₃ c') - a ⬝ᵥ (b ⨯₃ c)| ≤ α * B * C + A * β * C + A * B * γ := by
  have e : a' ⬝ᵥ (b' ⨯₃ c') - a ⬝ᵥ (b ⨯₃ c) =
      (a' - a) ⬝ᵥ (b' ⨯₃ c') + a ⬝ᵥ ((b' - b) ⨯₃ c') + a ⬝ᵥ (b ⨯₃ (c' - c)) := by
    simp [cross_apply, dotProduct, Fin.sum_univ_three]
    ring
  have hA : 0 ≤ A := (len_nonneg _).trans ha
  have hB : 0 ≤ B := (len_nonneg _).trans hb
  have hα0 : 0 ≤ α := (len_nonneg _).trans hα
  have hβ0 : 0 ≤ β := (len_nonneg _).trans hβ
  rw [e]
  refine (abs_add_le _ _).trans (add_le_add ((abs_add_le _ _).trans (add_le_add ?_ ?_)) ?_)
  · refine (abs_triple_le _ _ _).trans ?_
    have := len_nonneg (a' - a)
    have := len_nonneg b'
    have := len_nonneg c'
    gcongr
  · refine (abs_triple_le _ _ _).trans ?_
    have := len_nonneg (b' - b)
    have := len_nonneg a
    have := len_nonneg c'
    gcongr
  · refine (abs_triple_le _ _ _).trans ?_
    have := len_nonneg (c' - c)
    have := len_nonneg a
    have := len_nonneg b
    gcongr

/-- Solution of three linear equations (Cramer). -/
theorem cramer_le (a b c w : Vec) {A B C α β γ : ℝ} (ha : len a ≤ A) (hb : len b ≤ B) (hc : len c ≤ C)
    (h0 : |a ⬝ᵥ w| ≤ α) (h1 : |b ⬝ᵥ w| ≤ β) (h2 : |c ⬝ᵥ w| ≤ γ) :
    |a ⬝ᵥ (b ⨯₃ c)| * len w ≤ α * (B * C) + β * (C * A) + γ * (A * B) := by
  have e : (a ⬝ᵥ (b ⨯₃ c)) • w = (a ⬝ᵥ w) • (b ⨯₃ c) + (b ⬝ᵥ w) • (c ⨯₃ a) + (c ⬝ᵥ w) • (a ⨯₃ b) := by
    funext j
    fin_cases j <;> simp [cross_apply, dotProduct, Fin.sum_univ_three] <;> ring
  rw [← len_smul, e]
  have hA0 := len_nonneg a
  have hB0 := len_nonneg b
  have hC0 := len_nonneg c
  have hA1 := hA0.trans ha
  have hB1 := hB0.trans hb
  have hC1 := hC0.trans hc
  have hα0 := (abs_nonneg _).trans h0
  have hβ0 := (abs_nonneg _).trans h1
  have hγ0 := (abs_nonneg _).trans h2
  refine (len_add_le _ _).trans (add_le_add ((len_add_le _ _).trans (add_le_add ?_ ?_)) ?_) <;> rw [len_smul]
  · exact mul_le_mul h0 ((len_cross_le _ _).trans (by gcongr)) (len_nonneg _) hα0
  · exact mul_le_mul h1 ((len_cross_le _ _).trans (by gcongr)) (len_nonneg _) hβ0
  · exact mul_le_mul h2 ((len_cross_le _ _).trans (by gcongr)) (len_nonneg _) hγ0

/-! ### The exact matrix of a camera whose quaternion is not exactly of unit norm -/

/-- `K [R | t]`. -/
noncomputable def kqt (p : PerspectiveParams ℝ) (q : Quat ℝ) (c : V3 ℝ) : Mat 3 4 ℝ :=
  Mat.mul3 (IntrinsicParametersPerspective.ofParams p).asIntrinsicsMatrix (fromRotationAndCamcenter q c).cache.qt

theorem row_dot (q : Quat ℝ) (i : Fin 3) : q.toRotationMatrix i ⬝ᵥ q.toRotationMatrix i = quatNormSq q ^ 2 := by
  fin_cases i <;> simp [Quat.toRotationMatrix, dotProduct, Fin.sum_univ_three, quatNormSq] <;> ring

theorem row_dot_ne (q : Quat ℝ) : q.toRotationMatrix 0 ⬝ᵥ q.toRotationMatrix 1 = 0 ∧
    q.toRotationMatrix 0 ⬝ᵥ q.toRotationMatrix 2 = 0 ∧ q.toRotationMatrix 1 ⬝ᵥ q.toRotationMatrix 2 = 0 := by
  refine ⟨?_, ?_, ?_⟩ <;> simp [Quat.toRotationMatrix, dotProduct, Fin.sum_univ_three] <;> ring

theorem kqt_rows (p : PerspectiveParams ℝ) (q : Quat ℝ) (c : V3 ℝ) :
    leftOf (kqt p q c) 0 = p.fx • q.toRotationMatrix 0 + p.skew • q.toRotationMatrix 1 + p.cx • q.toRotationMatrix 2 ∧
    leftOf (kqt p q c) 1 = p.fy • q.toRotationMatrix 1 + p.cy • q.toRotationMatrix 2 ∧
    leftOf (kqt p q c) 2 = q.toRotationMatrix 2 := by
  refine ⟨?_, ?_, ?_⟩ <;> funext j <;> fin_cases j <;>
    simp [leftOf, kqt, Mat.mul3, IntrinsicParametersPerspective.asIntrinsicsMatrix, fromRotationAndCamcenter,
      IntrinsicParametersPerspective.ofParams]

theorem kqt_null (p : PerspectiveParams ℝ) (q : Quat ℝ) (c : V3 ℝ) : homImage (kqt p q c) c = 0 := by
  funext a
  fin_cases a <;>
    simp [homImage, Matrix.mulVec, dotProduct, Fin.sum_univ_four, kqt, Mat.mul3,
      IntrinsicParametersPerspective.asIntrinsicsMatrix, fromRotationAndCamcenter,
      IntrinsicParametersPerspective.ofParams, V3.neg, Mat.mulVec3] <;> ring

theorem kqt_len_sq (p : PerspectiveParams ℝ) (q : Quat ℝ) (c : V3 ℝ) :
    len (leftOf (kqt p q c) 0) ^ 2 = quatNormSq q ^ 2 * (p.fx ^ 2 + p.skew ^ 2 + p.cx ^ 2) ∧
    len (leftOf (kqt p q c) 1) ^ 2 = quatNormSq q ^ 2 * (p.fy ^ 2 + p.cy ^ 2) ∧
    len (leftOf (kqt p q c) 2) ^ 2 = quatNormSq q ^ 2 := by
  obtain ⟨r0, r1, r2⟩ := kqt_rows p q c
  obtain ⟨d1, d2, d3⟩ := row_dot_ne q
  have s0 := row_dot q 0
  have s1 := row_dot q 1
  have s2 := row_dot q 2
  have d1' := (dotProduct_comm _ _).trans d1
  have d2' := (dotProduct_comm _ _).trans d2
  have d3' := (dotProduct_comm _ _).trans d3
  rw [len_sq, len_sq, len_sq, r0, r1, r2]
  simp only [add_dotProduct, dotProduct_add, smul_dotProduct, dotProduct_smul, smul_eq_mul, s0, s1, s2, d1, d2, d3, d1',
    d2', d3']
  refine ⟨by ring, by ring, trivial⟩

theorem kqt_det (p : PerspectiveParams ℝ) (q : Quat ℝ) (c : V3 ℝ) :
    (leftBlock (kqt p q c)).det = quatNormSq q ^ 3 * (p.fx * p.fy) := by
  rw [det_eq_triple]
  obtain ⟨r0, r1, r2⟩ := kqt_rows p q c
  rw [r0, r1, r2]
  simp [cross_apply, dotProduct, Fin.sum_univ_three, Quat.toRotationMatrix, quatNormSq]
  ring

/-- Parameters with focal lengths between a tenth of `F` and `F`, the other ones at most `F`. -/
structure Ordinary (p : PerspectiveParams ℝ) (F : ℝ) : Prop where
  one_le : 1 ≤ F
  fx : |p.fx| ≤ F
  fy : |p.fy| ≤ F
  skew : |p.skew| ≤ F
  cx : |p.cx| ≤ F
  cy : |p.cy| ≤ F
  fx_low : F / 10 ≤ |p.fx|
  fy_low : F / 10 ≤ |p.fy|

theorem len_between {L n A lo hi : ℝ} (hL : 0 ≤ L) (h : L ^ 2 = n ^ 2 * A) (hn : |n - 1| ≤ 1 / 10 ^ 9)
    (hhi : 0 ≤ hi) (h1 : lo ^ 2 ≤ A) (h2 : A ≤ hi ^ 2) :
    (1 - 1 / 10 ^ 9) * lo ≤ L ∧ L ≤ (1 + 1 / 10 ^ 9) * hi := by
  have hn' := abs_le.1 hn
  have n0 : 0 ≤ n := by norm_num at hn'; linarith
  constructor
  · refine abs_le_of_sq_le_sq' ?_ hL |>.2
    rw [h, mul_pow]
    have : (1 - 1 / 10 ^ 9 : ℝ) ^ 2 ≤ n ^ 2 := pow_le_pow_left₀ (by norm_num) (by linarith) 2
    gcongr
  · refine abs_le_of_sq_le_sq' ?_ (by positivity) |>.2
    rw [h, mul_pow]
    have : n ^ 2 ≤ (1 + 1 / 10 ^ 9 : ℝ) ^ 2 := pow_le_pow_left₀ n0 (by linarith) 2
    have : 0 ≤ A := (sq_nonneg _).trans h1
    gcongr

/-- Lengths of the rows of the exact matrix. -/
theorem kqt_len {p : PerspectiveParams ℝ} {q : Quat ℝ} {F : ℝ} (h : Ordinary p F)
    (hq : |quatNormSq q - 1| ≤ 1 / 10 ^ 9) (c : V3 ℝ) :
    (F / 10.01 ≤ len (leftOf (kqt p q c) 0) ∧ len (leftOf (kqt p q c) 0) ≤ 1.75 * F) ∧
    (F / 10.01 ≤ len (leftOf (kqt p q c) 1) ∧ len (leftOf (kqt p q c) 1) ≤ 1.75 * F) ∧
    (0.9999 ≤ len (leftOf (kqt p q c) 2) ∧ len (leftOf (kqt p q c) 2) ≤ 1.0001) := by
  obtain ⟨l0, l1, l2⟩ := kqt_len_sq p q c
  have hF := h.one_le
  have sq : ∀ {x : ℝ}, |x| ≤ F → x ^ 2 ≤ F ^ 2 := fun hx => by
    rw [← sq_abs]; exact pow_le_pow_left₀ (abs_nonneg _) hx 2
  have sql : ∀ {x : ℝ}, F / 10 ≤ |x| → (F / 10) ^ 2 ≤ x ^ 2 := fun hx => by
    exact sq_le_sq' (by linarith [abs_nonneg F]) hx |>.trans_eq (sq_abs _)
  have b1 := sq h.fx
  have b2 := sq h.fy
  have b3 := sq h.skew
  have b4 := sq h.cx
  have b5 := sq h.cy
  have b6 := sql h.fx_low
  have b7 := sql h.fy_low
  have n3 := sq_nonneg p.skew
  have n4 := sq_nonneg p.cx
  have n5 := sq_nonneg p.cy
  have hF2 := sq_nonneg F
  have k0 := len_between (lo := F / 10) (hi := 1.74 * F) (len_nonneg _) l0 hq (by positivity)
    (by linarith) (by rw [mul_pow]; norm_num; linarith)
  have k1 := len_between (lo := F / 10) (hi := 1.74 * F) (len_nonneg _) l1 hq (by positivity)
    (by linarith) (by rw [mul_pow]; norm_num; linarith)
  have k2 := len_between (A := 1) (lo := 1) (hi := 1) (len_nonneg _) (by rw [l2]; ring) hq (by positivity)
    (by norm_num) (by norm_num)
  norm_num at k0 k1 k2 ⊢
  refine ⟨⟨?_, ?_⟩, ⟨?_, ?_⟩, ?_, ?_⟩ <;> linarith

/-- A matrix near the exact matrix of a camera: the errors are at most `1e-13` times the magnitude of the row. -/
structure NearKqt (Y X : Mat 3 4 ℝ) (F M : ℝ) : Prop where
  left : ∀ a b : Fin 3, |Y a b.castSucc - X a b.castSucc| ≤ 1 / 10 ^ 13 * ![F, F, 1] a
  right : ∀ a : Fin 3, |Y a 3 - X a 3| ≤ 1 / 10 ^ 13 * ![F, F, 1] a * (1 + M)

namespace NearKqt

variable {Y X : Mat 3 4 ℝ} {F M : ℝ}

theorem len_sub (h : NearKqt Y X F M) (a : Fin 3) : len (leftOf Y a - leftOf X a) ≤ 2 / 10 ^ 13 * ![F, F, 1] a := by
  have := len_le_entries (v := leftOf Y a - leftOf X a) (fun b => h.left a b)
  linarith

theorem image (h : NearKqt Y X F M) {x : Vec} (hx : ∀ a, |x a| ≤ M) (a : Fin 3) :
    |homImage Y x a - homImage X x a| ≤ 1 / 10 ^ 13 * ![F, F, 1] a * (1 + 4 * M) := by
  have e : homImage Y x a - homImage X x a = (Y a 0 - X a 0) * x 0 + (Y a 1 - X a 1) * x 1 + (Y a 2 - X a 2) * x 2 +
      (Y a 3 - X a 3) := by
    simp only [homImage, Matrix.mulVec, dotProduct, Fin.sum_univ_four, Matrix.of_apply, Matrix.cons_val]
    ring
  have g0 : 0 ≤ 1 / 10 ^ 13 * ![F, F, 1] a := (abs_nonneg _).trans (h.left a 0)
  have t : ∀ b : Fin 3, |(Y a b.castSucc - X a b.castSucc) * x b| ≤ 1 / 10 ^ 13 * ![F, F, 1] a * M := fun b => by
    rw [abs_mul]
    exact mul_le_mul (h.left a b) (hx b) (abs_nonneg _) g0
  have t0 := t 0
  have t1 := t 1
  have t2 := t 2
  have t3 := h.right a
  rw [e]
  refine (abs_add_le _ _).trans ((add_le_add ((abs_add_le _ _).trans (add_le_add ((abs_add_le _ _).trans
    (add_le_add t0 t1)) t2)) t3).trans (le_of_eq (by ring)))

variable {p : PerspectiveParams ℝ} {q : Quat ℝ} {c : V3 ℝ}

theorem len (h : NearKqt Y (kqt p q c) F M) (o : Ordinary p F) (hq : |quatNormSq q - 1| ≤ 1 / 10 ^ 9) :
    (F / 11 ≤ Spec.len (leftOf Y 0) ∧ Spec.len (leftOf Y 0) ≤ 1.8 * F) ∧
    (F / 11 ≤ Spec.len (leftOf Y 1) ∧ Spec.len (leftOf Y 1) ≤ 1.8 * F) ∧
    (0.999 ≤ Spec.len (leftOf Y 2) ∧ Spec.len (leftOf Y 2) ≤ 1.001) := by
  obtain ⟨⟨a1, a2⟩, ⟨b1, b2⟩, ⟨c1, c2⟩⟩ := kqt_len o hq c
  have d := fun a => (abs_le.1 ((len_sub_len_le (leftOf Y a) (leftOf (kqt p q c) a)).trans (h.len_sub a)))
  have d0 := d 0
  have d1 := d 1
  have d2 := d 2
  have hF := o.one_le
  simp only [Matrix.cons_val] at d0 d1 d2
  norm_num at a1 a2 b1 b2 c1 c2 d0 d1 d2 ⊢
  obtain ⟨d00, d01⟩ := d0
  obtain ⟨d10, d11⟩ := d1
  obtain ⟨d20, d21⟩ := d2
  refine ⟨⟨?_, ?_⟩, ⟨?_, ?_⟩, ?_, ?_⟩ <;> linarith

theorem det (h : NearKqt Y (kqt p q c) F M) (o : Ordinary p F) (hq : |quatNormSq q - 1| ≤ 1 / 10 ^ 9) :
    F ^ 2 / 101 ≤ |(leftBlock Y).det| := by
  obtain ⟨⟨a1, a2⟩, ⟨b1, b2⟩, ⟨c1, c2⟩⟩ := kqt_len o hq c
  obtain ⟨-, ⟨-, b4⟩, ⟨-, c4⟩⟩ := h.len o hq
  have hF := o.one_le
  have hn := abs_le.1 hq
  have key := triple_near (A := 1.75 * F) (B := 1.8 * F) (C := 1.001) a2 b4 (b2.trans (by linarith)) c4
    (h.len_sub 0) (h.len_sub 1) (h.len_sub 2)
  rw [← det_eq_triple, ← det_eq_triple, kqt_det] at key
  have h1 : F ^ 2 / 100 ≤ |p.fx * p.fy| := by
    rw [abs_mul]
    have := mul_le_mul o.fx_low o.fy_low (by positivity) (abs_nonneg _)
    linarith
  have h2 : 0.999 * (F ^ 2 / 100) ≤ |quatNormSq q ^ 3 * (p.fx * p.fy)| := by
    rw [abs_mul]
    have h3 : (1 - 1 / 10 ^ 9 : ℝ) ^ 3 ≤ quatNormSq q ^ 3 := pow_le_pow_left₀ (by norm_num) (by linarith) 3
    have h4 : (0.999 : ℝ) ≤ |quatNormSq q ^ 3| := (le_trans (by norm_num) h3).trans (le_abs_self _)
    exact mul_le_mul h4 h1 (by positivity) (abs_nonneg _)
  have h5 := abs_sub_abs_le_abs_sub (quatNormSq q ^ 3 * (p.fx * p.fy)) (leftBlock Y).det
  rw [abs_sub_comm] at h5
  have h6 : 0 ≤ F ^ 2 := sq_nonneg F
  have h7 := h5.trans key
  simp only [Matrix.cons_val] at h7
  norm_num at h2 h7 ⊢
  nlinarith

/-- The centre of the nearby matrix. -/
theorem centre (h : NearKqt Y (kqt p q c) F M) (o : Ordinary p F) (hq : |quatNormSq q - 1| ≤ 1 / 10 ^ 9) (hM : 1 ≤ M)
    (hc : ∀ a, |c a| ≤ M) : ∃ c', homImage Y c' = 0 ∧ Spec.len (c' - c) ≤ 4 / 10 ^ 10 * M := by
  have hdet := h.det o hq
  have hF := o.one_le
  have hF2 : 0 < F ^ 2 := by positivity
  have hne : (leftBlock Y).det ≠ 0 := abs_pos.1 (lt_of_lt_of_le (by positivity) hdet)
  have hu : IsUnit (leftBlock Y).det := isUnit_iff_ne_zero.2 hne
  obtain ⟨c', h0⟩ : ∃ c', homImage Y c' = 0 := by
    refine ⟨(leftBlock Y)⁻¹ *ᵥ (fun a => -Y a 3), ?_⟩
    set c' := (leftBlock Y)⁻¹ *ᵥ (fun a => -Y a 3) with hc'
    have e : leftBlock Y *ᵥ c' = fun a => -Y a 3 := by
      rw [hc', Matrix.mulVec_mulVec, Matrix.mul_nonsing_inv _ hu, Matrix.one_mulVec]
    funext a
    have := congrFun e a
    simp only [leftBlock, Matrix.mulVec, dotProduct, Fin.sum_univ_three, Matrix.of_apply] at this
    simp only [homImage, Matrix.mulVec, dotProduct, Fin.sum_univ_four, Matrix.of_apply, Matrix.cons_val, Pi.zero_apply]
    change Y a 0 * _ + Y a 1 * _ + Y a 2 * _ = _ at this
    linarith
  refine ⟨c', h0, ?_⟩
  have hb : ∀ a, |leftOf Y a ⬝ᵥ (c' - c)| ≤ 1 / 10 ^ 13 * ![F, F, 1] a * (1 + 4 * M) := fun a => by
    have e := homImage_of_null h0 c a
    have i := h.image hc a
    rw [kqt_null, Pi.zero_apply, sub_zero, e, ← neg_sub, dotProduct_neg, abs_neg] at i
    exact i
  obtain ⟨⟨a1, a2⟩, ⟨b1, b2⟩, ⟨c1, c2⟩⟩ := h.len o hq
  have key := cramer_le _ _ _ (c' - c) a2 b2 c2 (hb 0) (hb 1) (hb 2)
  rw [← det_eq_triple] at key
  have l0 := len_nonneg (c' - c)
  have k2 := (mul_le_mul_of_nonneg_right hdet l0).trans key
  simp only [Matrix.cons_val] at k2
  have h3 : F ^ 2 / 101 * Spec.len (c' - c) ≤ F ^ 2 / 101 * (4 / 10 ^ 10 * M) := by
    refine k2.trans ?_
    have : 0 ≤ F ^ 2 * (M - 1) := by nlinarith
    norm_num
    nlinarith
  exact le_of_mul_le_mul_left h3 (by positivity)

/-- Projection by the nearby matrix. -/
theorem project (h : NearKqt Y (kqt p q c) F M) (o : Ordinary p F) (hq : |quatNormSq q - 1| ≤ 1 / 10 ^ 9) (hM : 1 ≤ M)
    (hM' : M ≤ 1000) {x : Vec} (hx : ∀ a, |x a| ≤ M) {Z : ℝ} (hZ : Z = homImage (kqt p q c) x 2) (hZ1 : 1 ≤ |Z|)
    (a : Fin 2) :
    |homProject Y x a - homProject (kqt p q c) x a| ≤ 3 / 10 ^ 12 * (M * F * (Spec.len (x - c) / |Z|)) := by
  obtain ⟨⟨-, a2⟩, ⟨-, b2⟩, ⟨-, c2⟩⟩ := kqt_len o hq c
  have hF := o.one_le
  have hZp : 0 < |Z| := by linarith
  have hZ0 : Z ≠ 0 := abs_pos.1 hZp
  have d0 := len_nonneg (x - c)
  set d := Spec.len (x - c) with hd
  set ρ := d / |Z| with hρ
  have row : ∀ a, |homImage (kqt p q c) x a| ≤ Spec.len (leftOf (kqt p q c) a) * d := fun a => by
    rw [homImage_of_null (kqt_null p q c)]
    exact abs_dot_le _ _
  have hρ1 : 0.999 ≤ ρ := by
    rw [hρ, le_div_iff₀ hZp, hZ]
    have := row 2
    norm_num at c2 ⊢
    nlinarith
  have img := h.image hx
  have i2 := img 2
  simp only [Matrix.cons_val] at i2
  rw [← hZ] at i2
  have big : ∀ a : Fin 3, Spec.len (leftOf (kqt p q c) a) ≤ 1.75 * F → ![F, F, 1] a ≤ F →
      |homImage Y x a / homImage Y x 2 - homImage (kqt p q c) x a / Z| ≤ 3 / 10 ^ 12 * (M * F * ρ) := by
    intro a ha hg
    have key := (quotient_near hZ0 (img a) i2 (by norm_num at hM' ⊢; linarith)).2
    refine key.trans ?_
    have hA : |homImage (kqt p q c) x a / Z| ≤ 1.75 * F * ρ := by
      rw [abs_div, div_le_iff₀ hZp]
      have : 1.75 * F * ρ * |Z| = 1.75 * F * d := by rw [hρ]; field_simp
      rw [this]
      exact (row a).trans (mul_le_mul_of_nonneg_right ha d0)
    have hρ0 : 0 ≤ ρ := by norm_num at hρ1; linarith
    have e1 : 1 / 10 ^ 13 * ![F, F, 1] a * (1 + 4 * M) ≤ 1 / 10 ^ 13 * F * (5 * M) := by
      gcongr
      linarith
    have e2 : |homImage (kqt p q c) x a / Z| * (1 / 10 ^ 13 * 1 * (1 + 4 * M)) ≤ 1.75 * F * ρ * (1 / 10 ^ 13 * 1 * (5 * M)) := by
      gcongr
      linarith
    have e3 : M * F * 0.999 ≤ M * F * ρ := by gcongr
    rw [div_le_iff₀ hZp]
    have e4 : 3 / 10 ^ 12 * (M * F * ρ) * 1 ≤ 3 / 10 ^ 12 * (M * F * ρ) * |Z| := by gcongr
    have hMF : 0 ≤ M * F := by positivity
    generalize |homImage (kqt p q c) x a / Z| = A at *
    generalize ![F, F, 1] a = g at *
    generalize hW : M * F * ρ = W at *
    have e5 : 1.75 * F * ρ * (1 / 10 ^ 13 * 1 * (5 * M)) = 1.75 * 5 / 10 ^ 13 * W := by rw [← hW]; ring
    rw [e5] at e2
    norm_num at e1 e2 e3 e4 ⊢
    linarith
  fin_cases a
  · have := big 0 a2 le_rfl
    rw [hZ] at this
    exact this
  · have := big 1 b2 le_rfl
    rw [hZ] at this
    exact this

end NearKqt

/-! ### The computed matrix -/

section Computed

variable {R : Type} [Scalar R] {fl : Rounding R}

theorem scaled_quotient {k : ℕ} {N X S e : ℝ} {x y : R} (hx : fl.Approx k N x X) (hfy : fl.isFinite y)
    (hf : fl.isFinite (x / y)) (hS : S = fl.val y) (h : ((1 + fl.u) ^ (k + 1) - 1) * (N + fl.ω * |S|) ≤ e) :
    |S * fl.val (x / y) - X| ≤ e := by
  have hd := (Approx.div hf hfy hx).2
  have hy0 : fl.val y ≠ 0 := ((fl.div hf).2 hfy).1
  rw [← hS] at hd hy0
  have hS0 : 0 < |S| := abs_pos.2 hy0
  have e1 : S * fl.val (x / y) - X = S * (fl.val (x / y) - X / S) := by field_simp
  rw [e1, abs_mul]
  refine (mul_le_mul_of_nonneg_left hd hS0.le).trans (le_trans (le_of_eq ?_) h)
  field_simp

end Computed

section F64

variable {lib : Libm Format.b64} {F M T : ℝ}

/-- Up to a common factor, the computed matrix is near the exact one. -/
theorem scaled_matrix {p : PerspectiveParams (F64 lib)} {q : Quat (F64 lib)} {c : V3 (F64 lib)}
    (h : MatrixRange p q c F M T) :
    ∃ S : ℝ, 1 / 2 ^ 31 ≤ |S| ∧ |S| ≤ 14 * (1 + M) ∧
      (∀ a b, (RustFloat.rounding .b64 lib).isFinite ((Camera.mk (IntrinsicParametersPerspective.ofParams p)
        (fromRotationAndCamcenter q c)).asCameraMatrix a b)) ∧
      NearKqt (fun a b => S * (RustFloat.rounding .b64 lib).val ((Camera.mk (IntrinsicParametersPerspective.ofParams p)
        (fromRotationAndCamcenter q c)).asCameraMatrix a b))
        (kqt ((RustFloat.rounding .b64 lib).params p) ((RustFloat.rounding .b64 lib).quat q)
          ((RustFloat.rounding .b64 lib).vec c)) F M := by
  set fl := RustFloat.rounding .b64 lib with hfl
  have hM := h.nonneg
  have hF := h.one_le
  have ω0 : 0 ≤ fl.ω := fl.ω_nonneg
  have ω1 : fl.ω ≤ 1 / 10 ^ 40 := Format.ω_b64.trans (by norm_num)
  set X := kqt (fl.params p) (fl.quat q) (fl.vec c) with hX
  set m := Mat.mul3 (IntrinsicParametersPerspective.ofParams p).asIntrinsicsMatrix
        (fromRotationAndCamcenter q c).cache.qt with hm
  have hK : ∀ (a : Fin 3) j, fl.Comp 0 F ((IntrinsicParametersPerspective.ofParams p).asIntrinsicsMatrix a j)
      ((IntrinsicParametersPerspective.ofParams (fl.params p)).asIntrinsicsMatrix a j) := fun a j =>
    intrinsics_comp hF (h.params p.fx (by simp)).2 (h.params p.fy (by simp)).2 (h.params p.skew (by simp)).2
      (h.params p.cx (by simp)).2 (h.params p.cy (by simp)).2 a j
  have c2 := row2_comp (p := p) h.rotation_tight h.translation_tight
  have hFM : 0 ≤ F * M := by positivity
  have cl : ∀ a b : Fin 3, fl.Comp 10 (13 * ![F, F, 1] a) (m a b.castSucc) (X a b.castSucc) := by
    have lo : ∀ a b : Fin 3, fl.Comp 10 (13 * F) (m a b.castSucc) (X a b.castSucc) := fun a b =>
      (kr_comp h.rotation_tight a (hK a) b).mono le_rfl (by
        norm_num at ω1 ⊢
        linarith)
    intro a b
    fin_cases a
    · exact lo 0 b
    · exact lo 1 b
    · exact (c2.1 b).mono le_rfl (by norm_num)
  have cr : ∀ a : Fin 3, fl.Comp 10 (37 * ![F, F, 1] a * (1 + M)) (m a 3) (X a 3) := by
    have lo : ∀ a : Fin 3, fl.Comp 10 (37 * F * (1 + M)) (m a 3) (X a 3) := fun a =>
      (kt_comp h.translation_tight a (hK a)).mono le_rfl (by
        norm_num at ω1 ⊢
        nlinarith)
    intro a
    fin_cases a
    · exact lo 0
    · exact lo 1
    · exact c2.2.mono le_rfl (by norm_num; linarith)
  have low := h.divisor_low.2
  have high := h.divisor_high
  rw [← hm, ← hfl] at low high
  have p11 : (1 + fl.u) ^ (10 + 1) - 1 ≤ 12 * (1 / 2 ^ 53) := by
    have := f64_pow_le (n := 11) (by norm_num)
    rw [Format.u_b64] at this
    show (1 + Format.b64.u) ^ (10 + 1) - 1 ≤ _
    rw [Format.u_b64]
    norm_num at this ⊢
  have p0 : 0 ≤ (1 + fl.u) ^ (10 + 1) - 1 := by linarith [one_le_pow fl (10 + 1)]
  have budget : ∀ {N g y : ℝ}, 1 ≤ g → 0 ≤ N → N ≤ 37 * g → |y| ≤ 14 * (1 + M) →
      ((1 + fl.u) ^ (10 + 1) - 1) * (N + fl.ω * |y|) ≤ 1 / 10 ^ 13 * g := by
    intro N g y hg hN0 hN hy
    have h1 : fl.ω * |y| ≤ 1 / 10 ^ 40 * (14 * (1 + 2 ^ 20)) := by
      refine mul_le_mul ω1 (hy.trans ?_) (abs_nonneg _) (by norm_num)
      have := h.scene
      linarith
    have h2 : N + fl.ω * |y| ≤ 38 * g := by norm_num at h1; linarith
    refine (mul_le_mul p11 h2 (add_nonneg hN0 (mul_nonneg ω0 (abs_nonneg _))) (by norm_num)).trans ?_
    norm_num
    linarith
  have g1 : ∀ a : Fin 3, 1 ≤ ![F, F, 1] a := by
    intro a
    fin_cases a
    · exact hF
    · exact hF
    · exact le_rfl
  have unf : (Camera.mk (IntrinsicParametersPerspective.ofParams p) (fromRotationAndCamcenter q c)).asCameraMatrix =
      Mat.divScalar (if Scalar.lt (m 0 0) (Scalar.lit 0) then Mat.neg m else m)
        ((if Scalar.lt (m 0 0) (Scalar.lit 0) then Mat.neg m else m) 2 3) := rfl
  have fin := h.matrix_range (Scalar.lt (m 0 0) (Scalar.lit 0))
  rw [unf]
  refine ⟨fl.val (m 2 3), low, high, fun a b => (fin a b).1, ?_⟩
  rcases Bool.eq_false_or_eq_true (Scalar.lt (m 0 0) (Scalar.lit 0)) with hs | hs
  · rw [hs] at fin
    simp only [hs, if_true] at fin ⊢
    have hn : ∀ a b, InRange fl 49 (Mat.neg m a b) := fun a b => (h.kqt_range a b).neg (RustFloat.range .b64 lib)
    have hv : fl.val (Mat.neg m 2 3) = -fl.val (m 2 3) := (fl.neg (hn 2 3).1).2
    have hS : |fl.val (Mat.neg m 2 3)| ≤ 14 * (1 + M) := by rw [hv, abs_neg]; exact high
    have flip : ∀ {y x e : ℝ}, |fl.val (Mat.neg m 2 3) * y - -x| ≤ e → |fl.val (m 2 3) * y - x| ≤ e := by
      intro y x e he
      rw [hv, ← abs_neg] at he
      convert he using 2
      ring
    constructor
    · intro a b
      exact flip (scaled_quotient ((cl a b).neg (hn a _).1) (hn 2 3).1 (fin a _).1 rfl
        (budget (g1 a) (by linarith [g1 a]) (by linarith [g1 a]) hS))
    · intro a
      refine flip (scaled_quotient ((cr a).neg (hn a _).1) (hn 2 3).1 (fin a _).1 rfl ?_)
      have := g1 a
      exact (budget (g := ![F, F, 1] a * (1 + M)) (by nlinarith) (by positivity) (le_of_eq (by ring)) hS).trans_eq
        (by ring)
  · rw [hs] at fin
    simp only [hs, Bool.false_eq_true, if_false] at fin ⊢
    constructor
    · intro a b
      exact scaled_quotient (cl a b (h.kqt_range a _).1) (h.kqt_range 2 3).1 (fin a _).1 rfl
        (budget (g1 a) (by linarith [g1 a]) (by linarith [g1 a]) high)
    · intro a
      refine scaled_quotient (cr a (h.kqt_range a _).1) (h.kqt_range 2 3).1 (fin a _).1 rfl ?_
      have := g1 a
      exact (budget (g := ![F, F, 1] a * (1 + M)) (by nlinarith) (by positivity) (le_of_eq (by ring)) high).trans_eq
        (by ring)

/-- The computed matrix meets the conditions of C80 and C81. -/
theorem matrix_wellConditioned {p : PerspectiveParams (F64 lib)} {q : Quat (F64 lib)} {c : V3 (F64 lib)}
    {A : Mat 3 4 (F64 lib)} {S : ℝ} (hS1 : 1 / 2 ^ 31 ≤ |S|) (hS2 : |S| ≤ 14 * (1 + M))
    (hfin : ∀ a b, (RustFloat.rounding .b64 lib).isFinite (A a b))
    (hn : NearKqt (fun a b => S * (RustFloat.rounding .b64 lib).val (A a b))
        (kqt ((RustFloat.rounding .b64 lib).params p) ((RustFloat.rounding .b64 lib).quat q)
          ((RustFloat.rounding .b64 lib).vec c)) F M)
    (o : Ordinary ((RustFloat.rounding .b64 lib).params p) F) (hF : F ≤ 2 ^ 18)
    (hq : |quatNormSq ((RustFloat.rounding .b64 lib).quat q) - 1| ≤ 1 / 10 ^ 9) (hM : 1 ≤ M) (hM' : M ≤ 1000)
    (hc : ∀ a, |(RustFloat.rounding .b64 lib).val (c a)| ≤ M) :
    ∃ c', WellConditioned (RustFloat.rounding .b64 lib) A c' (2 ^ 200) (1 / 1000) ∧
      len (c' - (RustFloat.rounding .b64 lib).vec c) ≤ 4 / 10 ^ 10 * M ∧
      (∀ i, len ((RustFloat.rounding .b64 lib).leftRow A i) ≤
        1.9 * F * len ((RustFloat.rounding .b64 lib).leftRow A 2)) ∧
      (∀ x a, homImage (fun a b => S * (RustFloat.rounding .b64 lib).val (A a b)) x a =
        S * homImage ((RustFloat.rounding .b64 lib).mat34 A) x a) ∧
      ∀ i, len (leftOf (fun a b => S * (RustFloat.rounding .b64 lib).val (A a b)) i) =
        |S| * len ((RustFloat.rounding .b64 lib).leftRow A i) := by
  set fl := RustFloat.rounding .b64 lib with hfl
  set Y : Mat 3 4 ℝ := fun a b => S * fl.val (A a b) with hY
  have hF1 := o.one_le
  have hSp : 0 < |S| := lt_of_lt_of_le (by positivity) hS1
  have hS0 : S ≠ 0 := abs_pos.1 hSp
  have hom : ∀ x a, homImage Y x a = S * homImage (fl.mat34 A) x a := by
    intro x a
    simp only [homImage, Matrix.mulVec, dotProduct, Fin.sum_univ_four, Matrix.of_apply, Matrix.cons_val, hY,
      Rounding.mat34]
    ring
  have hl : ∀ i, len (leftOf Y i) = |S| * len (fl.leftRow A i) := fun i => by
    rw [← len_smul]
    rfl
  have hdet : (leftBlock Y).det = S ^ 3 * (leftBlock (fl.mat34 A)).det := by
    rw [Matrix.det_fin_three, Matrix.det_fin_three]
    simp only [leftBlock, Matrix.of_apply, hY, Rounding.mat34]
    ring
  obtain ⟨⟨a1, a2⟩, ⟨b1, b2⟩, ⟨c1, c2⟩⟩ := hn.len o hq
  have hD := hn.det o hq
  obtain ⟨c', h0, hcc⟩ := hn.centre o hq hM (fun a => hc a)
  rw [hl] at a1 a2 b1 b2 c1 c2
  have L0 := len_nonneg (fl.leftRow A 0)
  have L1 := len_nonneg (fl.leftRow A 1)
  have L2 := len_nonneg (fl.leftRow A 2)
  have lowS : ∀ {L : ℝ}, 0 ≤ L → 1 / 11 ≤ |S| * L → 1 / 2 ^ 200 ≤ L := by
    intro L hL h
    have h1 : |S| * L ≤ 14 * (1 + 1000) * L := by gcongr; linarith
    have h2 : (1 : ℝ) / 2 ^ 200 ≤ 1 / 2 ^ 40 := by
      rw [div_le_div_iff₀ (by positivity) (by positivity)]
      norm_num
    norm_num at h1 h2 h ⊢
    linarith
  have upS : ∀ {L : ℝ}, 0 ≤ L → |S| * L ≤ 1.8 * F → L ≤ 2 ^ 200 := by
    intro L hL h
    have h1 : 1 / 2 ^ 31 * L ≤ |S| * L := by gcongr
    have h2 : (2 : ℝ) ^ 100 ≤ 2 ^ 200 := by gcongr <;> norm_num
    norm_num at h1 h2 h hF ⊢
    linarith
  have rel : ∀ {L : ℝ}, |S| * L ≤ 1.8 * F → L ≤ 1.9 * F * len (fl.leftRow A 2) := by
    intro L h
    refine le_of_mul_le_mul_left (h.trans ?_) hSp
    have : 1.9 * F * 0.999 ≤ 1.9 * F * (|S| * len (fl.leftRow A 2)) := by gcongr
    norm_num at this ⊢
    linarith
  have c2' : |S| * len (fl.leftRow A 2) ≤ 1.8 * F := c2.trans (by norm_num; linarith)
  refine ⟨c', ⟨hfin, ?_, ?_, ?_, ?_, ?_⟩, hcc, ?_, hom, hl⟩
  · intro i
    fin_cases i
    · exact lowS (L := len (fl.leftRow A 0)) L0 (by linarith)
    · exact lowS (L := len (fl.leftRow A 1)) L1 (by linarith)
    · exact lowS (L := len (fl.leftRow A 2)) L2 (by norm_num at c1 ⊢; linarith)
  · intro i
    fin_cases i
    · exact upS L0 a2
    · exact upS L1 b2
    · exact upS L2 c2'
  · rw [hdet, abs_mul, abs_pow] at hD
    refine le_of_mul_le_mul_left ?_ (pow_pos hSp 3)
    refine le_trans ?_ hD
    have e : |S| ^ 3 * (1 / 1000 * (len (fl.leftRow A 0) * len (fl.leftRow A 1) * len (fl.leftRow A 2))) =
        1 / 1000 * ((|S| * len (fl.leftRow A 0)) * (|S| * len (fl.leftRow A 1)) * (|S| * len (fl.leftRow A 2))) := by ring
    rw [e]
    calc _ ≤ 1 / 1000 * ((1.8 * F) * (1.8 * F) * 1.001) := by gcongr
      _ ≤ F ^ 2 / 101 := by
        have := sq_nonneg F
        norm_num
        nlinarith
  · funext a
    have := congrFun h0 a
    rw [hom, Pi.zero_apply, mul_eq_zero] at this
    exact this.resolve_left hS0
  · have h1 := len_le_entries (v := fl.vec c) (fun a => hc a)
    have h2 := len_add_le (c' - fl.vec c) (fl.vec c)
    rw [sub_add_cancel] at h2
    have h3 : (10000 : ℝ) ≤ 2 ^ 200 := le_trans (by norm_num : (10000 : ℝ) ≤ 2 ^ 20) (by gcongr <;> norm_num)
    refine le_trans ?_ h3
    norm_num at hcc ⊢
    linarith
  · intro i
    fin_cases i
    · exact rel a2
    · exact rel b2
    · exact rel c2'

/-- The coordinates of a point in the camera frame, for a quaternion that is not exactly of unit norm. -/
theorem camera_coords (q : Quat ℝ) (c : V3 ℝ) (w : Points WorldFrame ℝ n) (i : Fin n) (a : Fin 3) :
    ((fromRotationAndCamcenter q c).worldToCamera w).data i a =
      q.toRotationMatrix a ⬝ᵥ (w.data i - c) - (quatNormSq q - 1) * w.data i a := by
  have ev : ((fromRotationAndCamcenter q c).worldToCamera w).data i a =
      Mat.mulVec3 q.toRotationMatrix (w.data i) a - (quatNormSq q - 1) * w.data i a -
        Mat.mulVec3 q.toRotationMatrix c a := by
    rw [worldToCamera_data, toRotationMatrix_defect q (w.data i), Pi.add_apply,
      Pi.smul_apply, smul_eq_mul, add_sub_cancel_right]
    exact (sub_eq_add_neg _ _).symm
  rw [ev]
  simp only [Mat.mulVec3, dotProduct, Fin.sum_univ_three, Pi.sub_apply]
  ring

/-- Projection by the exact matrix is the pinhole formula, up to the error in the norm of the quaternion. -/
theorem kqt_pinhole {p : PerspectiveParams ℝ} {q : Quat ℝ} {c x X : Vec} (o : Ordinary p F)
    (hq : |quatNormSq q - 1| ≤ 1 / 10 ^ 15) (hM : 1 ≤ M) (hM' : M ≤ 1000) (hx : ∀ a, |x a| ≤ M)
    (hX : ∀ a, X a = q.toRotationMatrix a ⬝ᵥ (x - c) - (quatNormSq q - 1) * x a) (hZ : 1 ≤ |X 2|) (a : Fin 2) :
    |homProject (kqt p q c) x a - pinhole p.fx p.fy p.skew p.cx p.cy X a| ≤
      1 / 10 ^ 13 * (M * F * (len X / |X 2|)) := by
  have hF := o.one_le
  have hZp : 0 < |X 2| := by linarith
  have hZ0 : X 2 ≠ 0 := abs_pos.1 hZp
  set P : Vec := fun a => q.toRotationMatrix a ⬝ᵥ (x - c) with hP
  have near : ∀ b, |P b - X b| ≤ 1 / 10 ^ 15 * M := fun b => by
    rw [hX b, hP]
    simp only [sub_sub_cancel, abs_mul]
    exact mul_le_mul hq (hx b) (abs_nonneg _) (by positivity)
  set ρ := len X / |X 2| with hρ
  have hρ1 : 1 ≤ ρ := by
    rw [hρ, le_div_iff₀ hZp, _root_.one_mul]
    exact abs_apply_le_len X 2
  have small : 1 / 10 ^ 15 * M ≤ |X 2| / 2 := by norm_num; linarith
  have slope : ∀ b, |P b / P 2 - X b / X 2| ≤ 4 / 10 ^ 15 * (M * ρ) := by
    intro b
    refine (quotient_near hZ0 (near b) (near 2) small).2.trans ?_
    have hb : |X b / X 2| ≤ ρ := by
      rw [abs_div, hρ]
      gcongr
      exact abs_apply_le_len X b
    rw [div_le_iff₀ hZp]
    calc 2 * (1 / 10 ^ 15 * M + |X b / X 2| * (1 / 10 ^ 15 * M)) ≤ 2 * (1 / 10 ^ 15 * M * ρ + ρ * (1 / 10 ^ 15 * M)) := by
          refine mul_le_mul_of_nonneg_left (add_le_add ?_ ?_) (by norm_num)
          · exact le_mul_of_one_le_right (by positivity) hρ1
          · gcongr
      _ = 4 / 10 ^ 15 * (M * ρ) * 1 := by ring
      _ ≤ _ := by gcongr
  have hP2 : P 2 ≠ 0 := (quotient_near hZ0 (near 2) (near 2) small).1
  have img : ∀ a, homImage (kqt p q c) x a = leftOf (kqt p q c) a ⬝ᵥ (x - c) := fun a =>
    homImage_of_null (kqt_null p q c) x a
  obtain ⟨r0, r1, r2⟩ := kqt_rows p q c
  have i0 : homImage (kqt p q c) x 0 = p.fx * P 0 + p.skew * P 1 + p.cx * P 2 := by
    rw [img, r0, add_dotProduct, add_dotProduct, smul_dotProduct, smul_dotProduct, smul_dotProduct]
    rfl
  have i1 : homImage (kqt p q c) x 1 = p.fy * P 1 + p.cy * P 2 := by
    rw [img, r1, add_dotProduct, smul_dotProduct, smul_dotProduct]
    rfl
  have i2 : homImage (kqt p q c) x 2 = P 2 := by rw [img, r2]
  have W0 : 0 ≤ M * ρ := by positivity
  have t : ∀ (g : ℝ) (b : Fin 3), |g| ≤ F → |g * (P b / P 2 - X b / X 2)| ≤ 4 / 10 ^ 15 * (M * F * ρ) := by
    intro g b hg
    rw [abs_mul]
    calc _ ≤ F * (4 / 10 ^ 15 * (M * ρ)) := mul_le_mul hg (slope b) (abs_nonneg _) (by linarith)
      _ = _ := by ring
  have W1 : 0 ≤ M * F * ρ := by positivity
  fin_cases a
  · have e : homProject (kqt p q c) x 0 - pinhole p.fx p.fy p.skew p.cx p.cy X 0 =
        p.fx * (P 0 / P 2 - X 0 / X 2) + p.skew * (P 1 / P 2 - X 1 / X 2) := by
      simp only [homProject, pinhole, Matrix.cons_val]
      rw [i0, i2]
      field_simp
      ring
    show |homProject (kqt p q c) x 0 - pinhole p.fx p.fy p.skew p.cx p.cy X 0| ≤ _
    rw [e]
    refine (abs_add_le _ _).trans ?_
    have := t p.fx 0 o.fx
    have := t p.skew 1 o.skew
    norm_num at *
    linarith
  · have e : homProject (kqt p q c) x 1 - pinhole p.fx p.fy p.skew p.cx p.cy X 1 =
        p.fy * (P 1 / P 2 - X 1 / X 2) := by
      simp only [homProject, pinhole, Matrix.cons_val]
      rw [i1, i2]
      field_simp
      ring
    show |homProject (kqt p q c) x 1 - pinhole p.fx p.fy p.skew p.cx p.cy X 1| ≤ _
    rw [e]
    refine (t p.fy 1 o.fy).trans ?_
    norm_num at *
    linarith

/-- The pixel that the camera itself computes. -/
theorem pixel_near {p : PerspectiveParams (F64 lib)} {q : Quat (F64 lib)} {c : V3 (F64 lib)} (hM : 1 ≤ M)
    (hM' : M ≤ 1000) (hF1 : 1 ≤ F) (hF : F ≤ 2 ^ 18) (hq : NearUnit lib (1 / 10 ^ 15) q)
    (hc : ∀ a, Flt.Bounded (f := .b64) M (c a))
    (hp : ∀ x ∈ [p.fx, p.fy, p.skew, p.cx, p.cy], Flt.Bounded (f := .b64) F x)
    (w : Points WorldFrame (F64 lib) n) (i : Fin n) (hx : ∀ a, Flt.Bounded (f := .b64) M (w.data i a)) (X : V3 ℝ)
    (hX : X = ((fromRotationAndCamcenter ((RustFloat.rounding .b64 lib).quat q)
        ((RustFloat.rounding .b64 lib).vec c)).worldToCamera
          ⟨fun i => (RustFloat.rounding .b64 lib).vec (w.data i)⟩).data i)
    (hZ : 1 ≤ |X 2|) (a : Fin 2) :
    Flt.isFinite (f := .b64) (((Camera.mk (IntrinsicParametersPerspective.ofParams p)
        (fromRotationAndCamcenter q c)).worldToPixel w).data i a) ∧
    |Flt.val (f := .b64) (((Camera.mk (IntrinsicParametersPerspective.ofParams p)
        (fromRotationAndCamcenter q c)).worldToPixel w).data i a) -
      Spec.pinhole (Flt.val (f := .b64) p.fx) (Flt.val (f := .b64) p.fy) (Flt.val (f := .b64) p.skew)
        (Flt.val (f := .b64) p.cx) (Flt.val (f := .b64) p.cy) X a| ≤ 3 / 10 ^ 13 * (M * F * (len X / |X 2|)) := by
  have hω := Format.ω_b64
  have hω0 := Format.b64.ω_pos
  have hS : |Flt.val (f := .b64) p.skew| ≤ F := (hp _ (by simp)).2
  have h8 : ((1 : ℝ) + 1 / 2 ^ 53) ^ 8 - 1 ≤ 1 / 10 ^ 15 := by norm_num
  have h8' : 0 ≤ ((1 : ℝ) + 1 / 2 ^ 53) ^ 8 - 1 := by norm_num
  have h4 : ((1 : ℝ) + 1 / 2 ^ 53) ^ 4 - 1 ≤ 1 / 10 ^ 15 := by norm_num
  have h4' : 0 ≤ ((1 : ℝ) + 1 / 2 ^ 53) ^ 4 - 1 := by norm_num
  have hZp : 0 < |X 2| := by linarith
  set ρ := len X / |X 2| with hρ
  have hρ1 : 1 ≤ ρ := by
    rw [hρ, le_div_iff₀ hZp, _root_.one_mul]
    exact abs_apply_le_len X 2
  have sl : ∀ b, |X b / X 2| ≤ ρ := fun b => by
    rw [abs_div, hρ]
    gcongr
    exact abs_apply_le_len X b
  have := float_world_to_pixel (k := 10) (m := 18) (δ := 3 / 10 ^ 14 * M) p hq (by norm_num) hc hp w i hx X hX
    hZ (sl 0) (sl 1) (hM'.trans (by norm_num)) hF (by show _ ≤ 1023; norm_num) (by
      rw [Format.u_b64]
      calc _ ≤ 1 / 10 ^ 15 * (97 * 2 ^ 10 + 1 / 10 ^ 100 * (18 * 2 ^ 10 + 36) : ℝ) := by gcongr
        _ ≤ _ := by norm_num) (by
      rw [Format.u_b64]
      calc _ ≤ 1 / 10 ^ 15 * ((24 * (1 + 1 / 10 ^ 15) ^ 2 + 1) * M +
            1 / 10 ^ 100 * (18 * M + 15 * (1 + 1 / 10 ^ 15) + 6) : ℝ) := by gcongr
        _ ≤ _ := by norm_num; linarith) (by norm_num; linarith) hS a
  refine ⟨this.1, this.2.trans ?_⟩
  rw [Format.u_b64]
  have hFρ : F * 1 ≤ F * ρ := by gcongr
  have hW : 1 * (F * ρ) ≤ M * (F * ρ) := by gcongr
  calc _ ≤ 1 / 10 ^ 15 * (2 * F * (ρ + ρ) + 2 * F * (ρ + ρ) + F * ρ + 7 * (1 / 10 ^ 100)) +
        2 * (3 / 10 ^ 14 * M) * (F * (ρ + ρ) + F * (ρ + ρ) : ℝ) := by
        gcongr
        linarith
    _ = 1 / 10 ^ 15 * (9 * (F * ρ) + 7 * (1 / 10 ^ 100)) + 24 / 10 ^ 14 * (M * (F * ρ)) := by ring
    _ ≤ 3 / 10 ^ 13 * (M * (F * ρ)) := by
        norm_num at *
        linarith
    _ = _ := by ring

theorem rotation_len (q : Quat ℝ) (v : Vec) :
    len (fun a => q.toRotationMatrix a ⬝ᵥ v) ^ 2 = quatNormSq q ^ 2 * len v ^ 2 := by
  rw [len_sq, len_sq]
  simp only [dotProduct, Fin.sum_univ_three, Quat.toRotationMatrix, quatNormSq]
  simp
  ring

/-- The distance from the camera, by the coordinates in the camera frame. -/
theorem distance_le {q : Quat ℝ} {c x X : Vec} (hq : |quatNormSq q - 1| ≤ 1 / 10 ^ 15) (hM' : M ≤ 1000)
    (hx : ∀ a, |x a| ≤ M) (hX : ∀ a, X a = q.toRotationMatrix a ⬝ᵥ (x - c) - (quatNormSq q - 1) * x a)
    (hZ : 1 ≤ |X 2|) : len (x - c) ≤ 1.0001 * len X := by
  have hP := rotation_len q (x - c)
  set P : Vec := fun a => q.toRotationMatrix a ⬝ᵥ (x - c) with hPd
  have e : P = X + (quatNormSq q - 1) • x := by
    funext a
    rw [Pi.add_apply, hX a, Pi.smul_apply, smul_eq_mul, sub_add_cancel]
  have h1 : len P ≤ len X + 1 / 10 ^ 15 * (2 * M) := by
    rw [e]
    refine (len_add_le _ _).trans ?_
    rw [len_smul]
    exact add_le_add le_rfl (mul_le_mul hq (len_le_entries hx) (len_nonneg x) (by positivity))
  have hn := abs_le.1 hq
  have n0 : 0 ≤ quatNormSq q := by norm_num at hn; linarith
  have h2 : len P = quatNormSq q * len (x - c) := by
    rw [← mul_pow] at hP
    exact (pow_left_inj₀ (len_nonneg _) (mul_nonneg n0 (len_nonneg _)) (by norm_num)).1 hP
  have h3 : 1 ≤ len X := hZ.trans (abs_apply_le_len X 2)
  have d0 := len_nonneg (x - c)
  have h4 : (1 - 1 / 10 ^ 15) * len (x - c) ≤ quatNormSq q * len (x - c) := by
    gcongr
    linarith
  norm_num at h1 h4 ⊢
  linarith

/-- **C93** in `f64`.  Take a perspective camera with parameters of magnitude at most `F` (at most `2^18`), focal
lengths of at least a tenth of that, a centre with coordinates up to `M` (at most 1000), whose matrix can be divided by
its corner entry.  Then `from_perspective_matrix` accepts the matrix that `as_camera_matrix` returns, and the two cameras
agree: the centres within `5e-10 M`, and the pixel of every point with coordinates up to `M` at depth at least `1.1` in
front of or behind the camera within `6e-8 M F / cos`, with `cos` the cosine of the angle from the optical axis. -/
theorem c93_f64_matrix_trip {p : PerspectiveParams (F64 lib)} {q : Quat (F64 lib)}
    {c : V3 (F64 lib)} (h : MatrixRange p q c F M T) (hF : F ≤ 2 ^ 18) (hM : 1 ≤ M) (hM' : M ≤ 1000)
    (hfx : F / 10 ≤ |Flt.val (f := .b64) p.fx|) (hfy : F / 10 ≤ |Flt.val (f := .b64) p.fy|)
    (cam : Camera (F64 lib) (IntrinsicParametersPerspective (F64 lib)))
    (hcam : cam = ⟨.ofParams p, fromRotationAndCamcenter q c⟩) :
    ∃ cam', Camera.fromPerspectiveMatrix nalgebra cam.asCameraMatrix = .ok cam' ∧
      (∀ a, Flt.isFinite (f := .b64) (cam'.extrinsics.camcenter a) ∧
        |Flt.val (f := .b64) (cam'.extrinsics.camcenter a) - Flt.val (f := .b64) (c a)| ≤ 5 / 10 ^ 10 * M) ∧
      ∀ {n : ℕ} (w : Points WorldFrame (F64 lib) n) (i : Fin n), (∀ a, Flt.Bounded (f := .b64) M (w.data i a)) →
      ∀ X : V3 ℝ, X = ((fromRotationAndCamcenter ((RustFloat.rounding .b64 lib).quat q)
        ((RustFloat.rounding .b64 lib).vec c)).worldToCamera
          ⟨fun i => (RustFloat.rounding .b64 lib).vec (w.data i)⟩).data i → 1.1 ≤ |X 2| → ∀ a,
      Flt.isFinite (f := .b64) ((cam.worldToPixel w).data i a) ∧
      Flt.isFinite (f := .b64) ((cam'.worldToPixel w).data i a) ∧
      |Flt.val (f := .b64) ((cam'.worldToPixel w).data i a) - Flt.val (f := .b64) ((cam.worldToPixel w).data i a)| ≤
        6 / 10 ^ 8 * M * F * (len X / |X 2|) := by
  subst hcam
  set fl := RustFloat.rounding .b64 lib with hfl
  set A := (Camera.mk (IntrinsicParametersPerspective.ofParams p) (fromRotationAndCamcenter q c)).asCameraMatrix with hA
  have hF1 := h.one_le
  have hp := h.params
  have o : Ordinary (fl.params p) F :=
    ⟨hF1, (hp p.fx (by simp)).2, (hp p.fy (by simp)).2, (hp p.skew (by simp)).2, (hp p.cx (by simp)).2,
      (hp p.cy (by simp)).2, hfx, hfy⟩
  have hq15 : |quatNormSq (fl.quat q) - 1| ≤ 1 / 10 ^ 15 := h.rotation.quatNormSq
  have hq9 : |quatNormSq (fl.quat q) - 1| ≤ 1 / 10 ^ 9 := hq15.trans (by norm_num)
  obtain ⟨S, hS1, hS2, hfin, hn⟩ := scaled_matrix h
  rw [← hfl, ← hA] at hfin hn
  have hSp : 0 < |S| := lt_of_lt_of_le (by positivity) hS1
  have hS0 : S ≠ 0 := abs_pos.1 hSp
  obtain ⟨c', hw, hcc, hrow, hom, hlen⟩ := matrix_wellConditioned hS1 hS2 hfin hn o hF hq9 hM hM' fun a => (h.centre a).2
  have hc' : ∀ a, |c' a| ≤ 1.001 * M := by
    intro a
    have h1 : |c' a - fl.vec c a| ≤ 4 / 10 ^ 10 * M := (abs_apply_le_len (c' - fl.vec c) a).trans hcc
    have h2 : |fl.vec c a| ≤ M := (h.centre a).2
    have h3 := abs_add_le (c' a - fl.vec c a) (fl.vec c a)
    rw [sub_add_cancel] at h3
    norm_num at h1 ⊢
    linarith
  obtain ⟨cam', hok, hpix⟩ := c81_f64_world_to_pixel hw (M := 1.001 * M) (F := 1.9 * F) (by norm_num) (by norm_num)
    (by norm_num; linarith) (by norm_num; linarith) hc' (by norm_num; linarith) (by norm_num at hF ⊢; linarith) hrow
  refine ⟨cam', hok, ?_, ?_⟩
  · obtain ⟨p2, rot, cen, hcam2, Q, s, hrep⟩ := c80_f64 hw (by norm_num) (by norm_num)
    rw [hok] at hcam2
    rw [← Except.ok.inj hcam2] at hrep
    intro a
    refine ⟨hrep.center_fin a, ?_⟩
    have h1 := hrep.center_near a
    rw [show (RustFloat.rounding .b64 lib).u = 1 / 2 ^ 53 from Format.u_b64] at h1
    have h2 : |c' a - fl.vec c a| ≤ 4 / 10 ^ 10 * M := (abs_apply_le_len (c' - fl.vec c) a).trans hcc
    have h3 := len_le_entries hc'
    have h4 : |Flt.val (f := .b64) (cam'.extrinsics.camcenter a) - c' a| ≤ 1 / 10 ^ 10 * M := by
      refine h1.trans ?_
      norm_num at h3 ⊢
      linarith
    have h5 := abs_add_le (Flt.val (f := .b64) (cam'.extrinsics.camcenter a) - c' a) (c' a - fl.vec c a)
    rw [sub_add_sub_cancel] at h5
    refine h5.trans ?_
    norm_num at h2 h4 ⊢
    linarith
  intro n w i hx X hX hZ a
  have hZ1 : 1 ≤ |X 2| := le_trans (by norm_num) hZ
  have hZp : 0 < |X 2| := by linarith
  obtain ⟨fin1, E⟩ := pixel_near hM hM' hF1 hF h.rotation h.centre hp w i hx X hX hZ1 a
  set x : Vec := fl.vec (w.data i) with hxd
  have hxM : ∀ a, |x a| ≤ M := fun a => (hx a).2
  have hXa : ∀ a, X a = (fl.quat q).toRotationMatrix a ⬝ᵥ (x - fl.vec c) - (quatNormSq (fl.quat q) - 1) * x a :=
    fun a => by rw [hX, camera_coords]
  have D : |homProject (kqt (fl.params p) (fl.quat q) (fl.vec c)) x a -
      Spec.pinhole (Flt.val (f := .b64) p.fx) (Flt.val (f := .b64) p.fy) (Flt.val (f := .b64) p.skew)
        (Flt.val (f := .b64) p.cx) (Flt.val (f := .b64) p.cy) X a| ≤ 1 / 10 ^ 13 * (M * F * (len X / |X 2|)) :=
    kqt_pinhole o hq15 hM hM' hxM hXa hZ1 a
  set Y : Mat 3 4 ℝ := fun a b => S * fl.val (A a b) with hY
  set Z := homImage (kqt (fl.params p) (fl.quat q) (fl.vec c)) x 2 with hZd
  have hZX : |Z - X 2| ≤ 1 / 10 ^ 15 * M := by
    have e : Z = leftOf (kqt (fl.params p) (fl.quat q) (fl.vec c)) 2 ⬝ᵥ (x - fl.vec c) :=
      homImage_of_null (kqt_null _ _ _) x 2
    rw [e, hXa 2, (kqt_rows _ _ _).2.2, sub_sub_cancel, abs_mul]
    exact mul_le_mul hq15 (hxM 2) (abs_nonneg _) (by positivity)
  have hZlow : |X 2| - 1 / 10 ^ 12 ≤ |Z| := by
    have h1 := abs_sub_abs_le_abs_sub (X 2) Z
    rw [abs_sub_comm] at h1
    norm_num at hZX ⊢
    linarith
  have hZ1' : 1 ≤ |Z| := by norm_num at hZlow hZ ⊢; linarith
  have C := hn.project o hq9 hM hM' hxM hZd hZ1' a
  have dX := distance_le hq15 hM' hxM hXa hZ1
  have hX1 : 1 ≤ len X := hZ1.trans (abs_apply_le_len X 2)
  have img := hn.image hxM 2
  rw [← hZd] at img
  simp only [Matrix.cons_val] at img
  have hYlow : |Z| - 1 / 10 ^ 8 ≤ |homImage Y x 2| := by
    have h1 := abs_sub_abs_le_abs_sub Z (homImage Y x 2)
    rw [abs_sub_comm] at h1
    norm_num at img ⊢
    linarith
  obtain ⟨-, -, ⟨l1, l2⟩⟩ := hn.len o hq9
  set depth := |homImage (fl.mat34 A) x 2| / len (fl.leftRow A 2) with hdep
  have edep : depth = |homImage Y x 2| / len (leftOf Y 2) := by
    rw [hdep, hom, hlen, abs_mul, mul_div_mul_left _ _ hSp.ne']
  have l0 : 0 < len (leftOf Y 2) := lt_of_lt_of_le (by norm_num) l1
  have hdl : 0.998 * |X 2| ≤ depth := by
    rw [edep, le_div_iff₀ l0]
    calc 0.998 * |X 2| * len (leftOf Y 2) ≤ 0.998 * |X 2| * 1.001 := by gcongr
      _ ≤ _ := by
        norm_num at hZlow hYlow hZ ⊢
        linarith
  have hd1 : 1 ≤ depth := by norm_num at hdl hZ ⊢; linarith
  obtain ⟨fin2, B⟩ := hpix w i x hxd (fun a => ⟨(hx a).1, (hx a).2.trans (by norm_num; linarith)⟩) depth hdep hd1 a
  refine ⟨fin1, fin2, ?_⟩
  have ehom : homProject (fl.mat34 A) x a = homProject Y x a := by
    have : ∀ b, homImage Y x b / homImage Y x 2 = homImage (fl.mat34 A) x b / homImage (fl.mat34 A) x 2 := fun b => by
      rw [hom, hom, mul_div_mul_left _ _ hS0]
    fin_cases a
    · exact (this 0).symm
    · exact (this 1).symm
  rw [ehom] at B
  set ρ := len X / |X 2| with hρ
  have hρ1 : 1 ≤ ρ := by
    rw [hρ, le_div_iff₀ hZp, _root_.one_mul]
    exact abs_apply_le_len X 2
  have r1 : len (x - fl.vec c) / |Z| ≤ 1.001 * ρ := by
    rw [div_le_iff₀ (by linarith)]
    have : 1.001 * ρ * (|X 2| - 1 / 10 ^ 12) ≤ 1.001 * ρ * |Z| := by gcongr
    refine le_trans ?_ this
    have e : ρ * |X 2| = len X := by rw [hρ]; field_simp
    have e2 : ρ ≤ len X := by
      rw [hρ]
      exact div_le_self (by linarith) hZ1
    have : 1.001 * ρ * (|X 2| - 1 / 10 ^ 12) = 1.001 * len X - 1.001 / 10 ^ 12 * ρ := by rw [← e]; ring
    rw [this]
    norm_num at dX e2 ⊢
    linarith
  have r2 : len (x - c') / depth ≤ 1.003 * ρ := by
    rw [div_le_iff₀ (by linarith)]
    have : 1.003 * ρ * (0.998 * |X 2|) ≤ 1.003 * ρ * depth := by gcongr
    refine le_trans ?_ this
    have e : ρ * |X 2| = len X := by rw [hρ]; field_simp
    have : 1.003 * ρ * (0.998 * |X 2|) = 1.003 * 0.998 * len X := by rw [← e]; ring
    rw [this]
    have h1 := len_add_le (x - fl.vec c) (fl.vec c - c')
    rw [sub_add_sub_cancel] at h1
    have h2 : len (fl.vec c - c') = len (c' - fl.vec c) := by rw [← len_neg, neg_sub]
    rw [h2] at h1
    norm_num at dX hcc ⊢
    linarith
  have hMF : 0 ≤ M * F := by positivity
  have B' : 3 / 10 ^ 8 * (1.001 * M) * (1.9 * F) * (len (x - c') / depth) ≤
      3 * 1.001 * 1.9 * 1.003 / 10 ^ 8 * (M * F * ρ) := by
    calc _ = 3 / 10 ^ 8 * 1.001 * 1.9 * (M * F) * (len (x - c') / depth) := by ring
      _ ≤ 3 / 10 ^ 8 * 1.001 * 1.9 * (M * F) * (1.003 * ρ) := by gcongr
      _ = _ := by ring
  have C' : 3 / 10 ^ 12 * (M * F * (len (x - fl.vec c) / |Z|)) ≤ 3 * 1.001 / 10 ^ 12 * (M * F * ρ) := by
    calc _ ≤ 3 / 10 ^ 12 * (M * F * (1.001 * ρ)) := by gcongr
      _ = _ := by ring
  have W0 : 0 ≤ M * F * ρ := by positivity
  have eW : 6 / 10 ^ 8 * M * F * ρ = 6 / 10 ^ 8 * (M * F * ρ) := by ring
  rw [eW]
  have B2 := abs_le.1 (B.trans B')
  have C2 := abs_le.1 (C.trans C')
  have D2 := abs_le.1 D
  have E2 := abs_le.1 E
  generalize M * F * ρ = W at *
  rw [abs_le]
  norm_num at B2 C2 D2 E2 ⊢
  constructor <;> linarith [B2.1, B2.2, C2.1, C2.2, D2.1, D2.2, E2.1, E2.2]

/-- The camera `fx = 5`, `fy = 7`, `skew = 1`, principal point `(3, 2)` at `(0, 0, 8)`: the camera made from its matrix
is at `(0, 0, 8)` too. -/
example (cam : Camera (F64 lib) (IntrinsicParametersPerspective (F64 lib)))
    (hcam : cam = ⟨.ofParams ⟨digit lib 5, digit lib 7, digit lib 1, digit lib 3, digit lib 2⟩,
      fromRotationAndCamcenter ⟨digit lib 1, digit lib 0, digit lib 0, digit lib 0⟩
        ![digit lib 0, digit lib 0, digit lib 8]⟩) :
    ∃ cam', Camera.fromPerspectiveMatrix nalgebra cam.asCameraMatrix = .ok cam' ∧
      |Flt.val (f := .b64) (cam'.extrinsics.camcenter 2) - 8| ≤ 1 / 10 ^ 8 := by
  obtain ⟨cam', h1, h2, -⟩ := c93_f64_matrix_trip sample_matrixRange (by norm_num) (by norm_num) (by norm_num)
    (by
      have : Flt.val (f := .b64) (digit lib 5) = 5 := (val_digit lib _).trans (by norm_num)
      rw [this]
      norm_num)
    (by
      have : Flt.val (f := .b64) (digit lib 7) = 7 := (val_digit lib _).trans (by norm_num)
      rw [this]
      norm_num) cam hcam
  refine ⟨cam', h1, ?_⟩
  have h3 := (h2 2).2
  have : Flt.val (f := .b64) (![digit lib 0, digit lib 0, digit lib 8] 2) = 8 := (val_digit lib _).trans (by norm_num)
  rw [this] at h3
  exact h3.trans (by norm_num)

/-- The same camera and the point `(1, 2, 3)`, at depth `-5`: the two pixels are within `1e-5`. -/
example (cam : Camera (F64 lib) (IntrinsicParametersPerspective (F64 lib)))
    (hcam : cam = ⟨.ofParams ⟨digit lib 5, digit lib 7, digit lib 1, digit lib 3, digit lib 2⟩,
      fromRotationAndCamcenter ⟨digit lib 1, digit lib 0, digit lib 0, digit lib 0⟩
        ![digit lib 0, digit lib 0, digit lib 8]⟩) (a : Fin 2) :
    ∃ cam', Camera.fromPerspectiveMatrix nalgebra cam.asCameraMatrix = .ok cam' ∧
      |Flt.val (f := .b64) ((cam'.worldToPixel (n := 1) ⟨fun _ => ![digit lib 1, digit lib 2, digit lib 3]⟩).data 0 a) -
        Flt.val (f := .b64) ((cam.worldToPixel (n := 1) ⟨fun _ => ![digit lib 1, digit lib 2, digit lib 3]⟩).data 0 a)| ≤
        1 / 10 ^ 5 := by
  have v : ∀ k : Fin 10, (RustFloat.rounding .b64 lib).val (digit lib k) = (k : ℕ) := val_digit lib
  obtain ⟨cam', h1, -, h2⟩ := c93_f64_matrix_trip sample_matrixRange (by norm_num) (by norm_num) (by norm_num)
    (by
      have : Flt.val (f := .b64) (digit lib 5) = 5 := (val_digit lib _).trans (by norm_num)
      rw [this]
      norm_num)
    (by
      have : Flt.val (f := .b64) (digit lib 7) = 7 := (val_digit lib _).trans (by norm_num)
      rw [this]
      norm_num) cam hcam
  refine ⟨cam', h1, ?_⟩
  have hX : (![1, 2, -5] : V3 ℝ) = ((fromRotationAndCamcenter
      ((RustFloat.rounding .b64 lib).quat ⟨digit lib 1, digit lib 0, digit lib 0, digit lib 0⟩)
      ((RustFloat.rounding .b64 lib).vec ![digit lib 0, digit lib 0, digit lib 8])).worldToCamera (n := 1)
        ⟨fun i => (RustFloat.rounding .b64 lib).vec
          ((⟨fun _ => ![digit lib 1, digit lib 2, digit lib 3]⟩ : Points WorldFrame (F64 lib) 1).data i)⟩).data 0 := by
    funext b
    rw [camera_coords]
    fin_cases b <;>
      simp [Rounding.quat, Rounding.vec, v, Quat.toRotationMatrix, quatNormSq, dotProduct, Fin.sum_univ_three]
    norm_num
  have bd : ∀ (k : Fin 10), Flt.Bounded (f := .b64) 9 (digit lib k) := fun k =>
    ⟨trivial, by
      rw [val_digit lib, abs_of_nonneg (Nat.cast_nonneg _)]
      exact_mod_cast Nat.le_of_lt_succ k.isLt⟩
  have h5 : |(![1, 2, -5] : Vec) 2| = 5 := by
    show |(-5 : ℝ)| = 5
    norm_num
  have h3 := (h2 (n := 1) ⟨fun _ => ![digit lib 1, digit lib 2, digit lib 3]⟩ 0
    (fun b => by fin_cases b <;> exact bd _) _ hX (le_of_le_of_eq (by norm_num) h5.symm) a).2.2
  refine h3.trans ?_
  have hl2 : len (![1, 2, -5] : Vec) ≤ 10 := le_of_le_of_eq (len_le_entries (v := ![1, 2, -5]) (e := 5) fun b => by
    fin_cases b
    · show |(1 : ℝ)| ≤ 5; norm_num
    · show |(2 : ℝ)| ≤ 5; norm_num
    · show |(-5 : ℝ)| ≤ 5; norm_num) (by norm_num)
  rw [h5]
  norm_num at hl2 ⊢
  linarith

end F64

end CamGeom
