import Verif.Model.Svd3
import Verif.Lemmas.Householder

/-!
# The symmetric eigenvalue iteration used by nalgebra's 3x3 singular value decomposition

Tridiagonalization and QR steps are orthogonal changes of basis; the product of the off-diagonal entries (the
second one squared) shrinks by the factor `√(8/27)` in each QR step with Wilkinson's shift.
-/

namespace CamGeom
namespace Svd3
open Spec Matrix Householder

/-- The bilinear form of a matrix. -/
def bil (S : Matrix (Fin 3) (Fin 3) ℝ) (u v : V3 ℝ) : ℝ := u ⬝ᵥ (S *ᵥ v)

/-- Three orthonormal vectors. -/
structure Frame (u v w : V3 ℝ) : Prop where
  uu : u ⬝ᵥ u = 1
  vv : v ⬝ᵥ v = 1
  ww : w ⬝ᵥ w = 1
  uv : u ⬝ᵥ v = 0
  uw : u ⬝ᵥ w = 0
  vw : v ⬝ᵥ w = 0

/-- Column `c` of the accumulated basis. -/
def col (t : State ℝ) (c : ℕ) : V3 ℝ := fun r => t.q r c

/-- The basis is orthonormal and the matrix is tridiagonal in it, with the stored entries. -/
structure Full (S : Matrix (Fin 3) (Fin 3) ℝ) (t : State ℝ) : Prop where
  frame : Frame (col t 0) (col t 1) (col t 2)
  d0 : bil S (col t 0) (col t 0) = t.diag 0
  d1 : bil S (col t 1) (col t 1) = t.diag 1
  d2 : bil S (col t 2) (col t 2) = t.diag 2
  o0 : bil S (col t 0) (col t 1) = t.off 0
  o1 : bil S (col t 1) (col t 2) = t.off 1
  z : bil S (col t 0) (col t 2) = 0

section bilinear
variable {S : Matrix (Fin 3) (Fin 3) ℝ}

theorem bil_comm (hS : S.transpose = S) (u v : V3 ℝ) : bil S u v = bil S v u := by
  unfold bil
  rw [dotProduct_mulVec, ← mulVec_transpose, hS, dotProduct_comm]

theorem bil_add_left (u v w : V3 ℝ) : bil S (u + v) w = bil S u w + bil S v w := by
  simp [bil, add_dotProduct]

theorem bil_add_right (u v w : V3 ℝ) : bil S u (v + w) = bil S u v + bil S u w := by
  simp [bil, mulVec_add, dotProduct_add]

theorem bil_smul_left (c : ℝ) (u w : V3 ℝ) : bil S (c • u) w = c * bil S u w := by
  simp [bil, smul_dotProduct]

theorem bil_smul_right (c : ℝ) (u w : V3 ℝ) : bil S u (c • w) = c * bil S u w := by
  simp [bil, mulVec_smul, dotProduct_smul]

end bilinear

/-! ### Tridiagonalization -/

theorem dot_eq (u v : V3 ℝ) : Householder.dot u v = u ⬝ᵥ v := by
  simp [Householder.dot, dotProduct, Fin.sum_univ_three]

theorem reflect_adj (i : Fin 3) (a : V3 ℝ) (s : ℝ) (v w : V3 ℝ) :
    reflect i a s v ⬝ᵥ w = v ⬝ᵥ reflect i a s w := by
  rw [← dot_eq, ← dot_eq]
  fin_cases i <;> simp [Householder.dot, reflect, tailDot] <;> ring

theorem reflect_good_dot {i : Fin 3} {a : V3 ℝ} (ha : Good i a) (d : ℝ) (v w : V3 ℝ) :
    reflect i a (signum d) v ⬝ᵥ reflect i a (signum d) w = v ⬝ᵥ w := by
  rw [← dot_eq, reflect_dot ha (signum_mul_self _), dot_eq]

/-- The first step of the tridiagonalization. -/
theorem tridiagStep_zero {m : Mat 3 3 ℝ} (hm : ∀ i j, m i j = m j i) :
    let m' := (tridiagStep 0 1 m).1
    let d := (tridiagStep 0 1 m).2
    let T := reflect 1 (fun k => m' k 0) (signum d)
    Good 1 (fun k => m' k 0) ∧ m' 0 0 = m 0 0 ∧
    T (fun r => m r 0) 1 = |d| ∧ T (fun r => m r 0) 2 = 0 ∧
    bil (Matrix.of m) (T (e 1)) (T (e 1)) = m' 1 1 ∧ bil (Matrix.of m) (T (e 2)) (T (e 1)) = m' 2 1 ∧
    bil (Matrix.of m) (T (e 2)) (T (e 2)) = m' 2 2 := by
  obtain ⟨h1, h2, h3, h4, h5⟩ := reflectionAxis_spec 1 fun r => m r 0
  set a := reflectionAxis 1 fun r => m r 0 with ha
  have hcol : (fun k => (tridiagStep 0 1 m).1 k 0) = a.1 := by
    funext k
    simp only [tridiagStep, ← ha]
    split <;> simp
  have hd : (tridiagStep 0 1 m).2 = a.2.1 := by
    simp only [tridiagStep, ← ha]
    split <;> rfl
  dsimp only
  rw [hcol, hd]
  have m10 := hm 1 0
  have m20 := hm 2 0
  have m21 := hm 2 1
  have hs := signum_mul_self a.2.1
  refine ⟨h2, (congrFun hcol 0).trans (h1 0 (by decide)), ?_, ?_, ?_⟩
  · rw [h4 1 le_rfl, h3]; simp
  · rw [h4 2 (by decide)]; simp
  · cases hb : a.2.2 with
    | true =>
      have hm' : ∀ r c : Fin 3, 1 ≤ c → c ≤ r → (tridiagStep 0 1 m).1 r c =
          tailDot 1 a.1 (fun r => 2 * tailDot 1 (sym m r) a.1) * 2 * a.1 r * a.1 c +
          (-1 * a.1 r * (2 * tailDot 1 (sym m c) a.1) +
            (-1 * (2 * tailDot 1 (sym m r) a.1) * a.1 c + m r c)) := by
        intro r c h h'
        have : c ≠ 0 := by rintro rfl; exact absurd h (by decide)
        simp [tridiagStep, ← ha, hb, h, h', this]
      rw [hm' 1 1 le_rfl le_rfl, hm' 2 1 le_rfl (by decide), hm' 2 2 (by decide) le_rfl]
      have l : ¬ (2 : Fin 3) ≤ 1 := by decide
      have l2 : (1 : Fin 3) ≤ 2 := by decide
      generalize signum a.2.1 = s at hs
      refine ⟨?_, ?_, ?_⟩ <;>
        simp [bil, dotProduct, mulVec, Fin.sum_univ_three, reflect, tailDot, e, sym, l, l2, m21]
      · linear_combination (m 1 1 * (1 - 2 * a.1 1 ^ 2) ^ 2 - 4 * m 1 2 * a.1 1 * a.1 2 * (1 - 2 * a.1 1 ^ 2) +
          4 * m 2 2 * a.1 1 ^ 2 * a.1 2 ^ 2) * hs
      · linear_combination (m 1 2 * (1 - 2 * a.1 1 ^ 2) * (1 - 2 * a.1 2 ^ 2) +
          4 * m 1 2 * a.1 1 ^ 2 * a.1 2 ^ 2 - 2 * a.1 1 * a.1 2 * (m 1 1 * (1 - 2 * a.1 1 ^ 2) +
          m 2 2 * (1 - 2 * a.1 2 ^ 2))) * hs
      · linear_combination (m 2 2 * (1 - 2 * a.1 2 ^ 2) ^ 2 - 4 * m 1 2 * a.1 1 * a.1 2 * (1 - 2 * a.1 2 ^ 2) +
          4 * m 1 1 * a.1 1 ^ 2 * a.1 2 ^ 2) * hs
    | false =>
      obtain ⟨hz, hs1⟩ := h5 hb
      have hm' : ∀ r c : Fin 3, 1 ≤ c → (tridiagStep 0 1 m).1 r c = m r c := by
        intro r c h
        have : c ≠ 0 := by rintro rfl; exact absurd h (by decide)
        simp [tridiagStep, ← ha, hb, this]
      have hT : ∀ v, reflect 1 a.1 (signum a.2.1) v = v := fun v => by
        funext r; rw [reflect_zero_axis hz, hs1]; simp
      rw [hT, hT, hm' 1 1 le_rfl, hm' 2 1 le_rfl, hm' 2 2 (by decide)]
      refine ⟨?_, ?_, ?_⟩ <;>
        simp [bil, dotProduct, mulVec, e]

/-- The second step of the tridiagonalization only changes a sign. -/
theorem tridiagStep_one (m : Mat 3 3 ℝ) :
    let m' := (tridiagStep 1 2 m).1
    let d := (tridiagStep 1 2 m).2
    let T := reflect 2 (fun k => m' k 1) (signum d)
    Good 2 (fun k => m' k 1) ∧ (∀ r, m' r 0 = m r 0) ∧ m' 1 1 = m 1 1 ∧ m' 2 2 = m 2 2 ∧
    ∃ ε, ε * ε = 1 ∧ ε * m 2 1 = |d| ∧ T (e 2) = ε • e 2 := by
  obtain ⟨h1, h2, h3, h4, h5⟩ := reflectionAxis_spec 2 fun r => m r 1
  set a := reflectionAxis 2 fun r => m r 1 with ha
  have hcol : (fun k => (tridiagStep 1 2 m).1 k 1) = a.1 := by
    funext k
    simp only [tridiagStep, ← ha]
    split <;> simp
  have hd : (tridiagStep 1 2 m).2 = a.2.1 := by
    simp only [tridiagStep, ← ha]
    split <;> rfl
  have hcol0 : ∀ r, (tridiagStep 1 2 m).1 r 0 = m r 0 := by
    intro r
    simp only [tridiagStep, ← ha]
    split <;> simp
  dsimp only
  rw [hcol, hd]
  have hs := signum_mul_self a.2.1
  have l : ¬ (2 : Fin 3) ≤ 1 := by decide
  refine ⟨h2, hcol0, (congrFun hcol 1).trans (h1 1 (by decide)), ?_, ?_⟩
  · cases hb : a.2.2 with
    | false => simp [tridiagStep, ← ha, hb]
    | true =>
      have : (tridiagStep 1 2 m).1 2 2 = tailDot 2 a.1 (fun r => 2 * tailDot 2 (sym m r) a.1) * 2 * a.1 2 * a.1 2 +
          (-1 * a.1 2 * (2 * tailDot 2 (sym m 2) a.1) +
            (-1 * (2 * tailDot 2 (sym m 2) a.1) * a.1 2 + m 2 2)) := by
        simp [tridiagStep, ← ha, hb]
      rw [this]
      rcases h2 with h | h
      · simp [tailDot, sym] at h ⊢
        linear_combination (4 * m 2 2 * a.1 2 ^ 2) * h
      · rw [h 2 le_rfl]; simp
  · have h42 := h4 2 le_rfl
    rw [if_pos rfl, ← h3] at h42
    rcases h2 with h | h
    · simp [tailDot] at h
      refine ⟨-signum a.2.1, by rw [neg_mul_neg, hs], ?_, ?_⟩
      · rw [← h42]
        simp [reflect, tailDot]
        linear_combination (2 * signum a.2.1 * m 2 1) * h
      · funext r
        fin_cases r <;> simp [reflect, tailDot, e, l]
        linear_combination (-2 * signum a.2.1) * h
    · refine ⟨signum a.2.1, hs, ?_, ?_⟩
      · rw [← h42, reflect_zero_axis h, if_pos le_rfl]
      · funext r
        rw [reflect_zero_axis h]
        fin_cases r <;> simp [e, l]

/-- `SymmetricTridiagonal` is an orthogonal change of basis. -/
theorem tridiag_full {m : Mat 3 3 ℝ} (hm : ∀ i j, m i j = m j i) : Full (Matrix.of m) (tridiag m) := by
  obtain ⟨g0, a0, a1, a2, b1, b2, b3⟩ := tridiagStep_zero hm
  obtain ⟨g1, p0, p1, p2, ε, hε, q1, q2⟩ := tridiagStep_one (tridiagStep 0 1 m).1
  have hS : (Matrix.of m).transpose = Matrix.of m := by ext i j; exact hm j i
  set m1 := (tridiagStep 0 1 m).1 with hm1
  set d0 := (tridiagStep 0 1 m).2 with hd0
  set m2 := (tridiagStep 1 2 m1).1 with hm2
  set d1 := (tridiagStep 1 2 m1).2 with hd1
  set T0 := reflect 1 (fun k => m1 k 0) (signum d0) with hT0
  set T1 := reflect 2 (fun k => m2 k 1) (signum d1) with hT1
  have hax : (fun k => m2 k 0) = fun k => m1 k 0 := funext p0
  have hc : ∀ c : Fin 3, col (tridiag m) c = T0 (T1 (e c)) := by
    intro c
    have h1 : (fun k => if (1 : Fin 3) ≤ c then
        reflect 2 (fun k => m2 k 1) (signum d1) (fun k => if k = c then 1 else 0) k
        else if k = c then (1 : ℝ) else 0) = T1 (e c) := by
      funext k
      split
      · rfl
      · rename_i h
        rw [hT1, reflect_fixed]
        · rfl
        · intro r hr
          have : c = 0 := by omega
          subst this
          have : r ≠ 0 := by rintro rfl; exact absurd hr (by decide)
          simp [e, this]
    funext r
    rw [← h1, hT0, ← hax]
    simp [col, tridiag, ← hm1, ← hm2, ← hd0, ← hd1]
  have f0 : T0 (T1 (e 0)) = e 0 := by
    rw [hT1, reflect_fixed, hT0, reflect_fixed]
    · intro r hr; fin_cases r <;> simp [e] at hr ⊢
    · intro r hr; fin_cases r <;> simp [e] at hr ⊢
  have f1 : T1 (e 1) = e 1 := by
    rw [hT1, reflect_fixed]
    intro r hr; fin_cases r <;> simp [e] at hr ⊢
  have f2 : T0 (T1 (e 2)) = ε • T0 (e 2) := by rw [q2, hT0, reflect_smul]
  have c0 : col (tridiag m) 0 = e 0 := (hc 0).trans f0
  have c1 : col (tridiag m) 1 = T0 (e 1) := (hc 1).trans (by rw [f1])
  have c2 : col (tridiag m) 2 = ε • T0 (e 2) := (hc 2).trans f2
  have k0 : col (tridiag m) 0 = T0 (T1 (e 0)) := hc 0
  have k1 : col (tridiag m) 1 = T0 (T1 (e 1)) := hc 1
  have k2 : col (tridiag m) 2 = T0 (T1 (e 2)) := hc 2
  have hdot : ∀ a b : Fin 3, T0 (T1 (e a)) ⬝ᵥ T0 (T1 (e b)) = if a = b then 1 else 0 := by
    intro a b
    rw [hT0, reflect_good_dot g0, hT1, reflect_good_dot g1, ← dot_eq, dot_e]
  have hSe : Matrix.of m *ᵥ e 0 = fun r => m r 0 := by
    funext r; simp [mulVec, dotProduct, e]
  have he : ∀ (v : V3 ℝ) c, v ⬝ᵥ e c = v c := by
    intro v c
    fin_cases c <;> simp [dotProduct, e]
  have hrow : ∀ v, bil (Matrix.of m) (e 0) (T0 v) = T0 (fun r => m r 0) ⬝ᵥ v := by
    intro v
    rw [bil_comm hS, bil, hSe, dotProduct_comm, hT0, reflect_adj, ← reflect_adj]
  refine ⟨⟨?_, ?_, ?_, ?_, ?_, ?_⟩, ?_, ?_, ?_, ?_, ?_, ?_⟩
  · rw [k0, hdot]; simp
  · rw [k1, hdot]; simp
  · rw [k2, hdot]; simp
  · rw [k0, k1, hdot]; simp
  · rw [k0, k2, hdot]; simp
  · rw [k1, k2, hdot]; simp
  · have : (tridiag m).diag 0 = m2 0 0 := by simp [tridiag, ← hm1, ← hm2]
    rw [c0, this, p0, a0, bil, hSe, dotProduct_comm, he]
  · have : (tridiag m).diag 1 = m2 1 1 := by simp [tridiag, ← hm1, ← hm2]
    rw [c1, this, p1, b1]
  · have : (tridiag m).diag 2 = m2 2 2 := by simp [tridiag, ← hm1, ← hm2]
    rw [c2, this, p2, bil_smul_left, bil_smul_right, b3, ← mul_assoc, hε, one_mul]
  · have : (tridiag m).off 0 = |d0| := by simp [tridiag, ← hd0]
    rw [c0, c1, this, hrow, he, a1]
  · have : (tridiag m).off 1 = |d1| := by simp [tridiag, ← hm1, ← hd1]
    rw [c1, c2, this, bil_smul_right, bil_comm hS, b2, q1]
  · rw [c0, c2, bil_smul_right, hrow, he, a2, mul_zero]

/-! ### Rotations -/

theorem toExp_spec (x : ℝ) : (toExp x).2 * (toExp x).2 = 1 ∧ (toExp x).1 = (toExp x).2 * x := by
  unfold toExp
  rw [le_real]
  split <;> simp

theorem cancelY_spec (x : ℝ) {y : ℝ} (hy : y ≠ 0) :
    ∃ c s n, cancelY x y = some (⟨c, s⟩, n) ∧ c * c + s * s = 1 ∧ c * n = x ∧ s * n = -y ∧
      n * n = x * x + y * y := by
  obtain ⟨h1, h2⟩ := toExp_spec x
  set ε := (toExp x).2 with hε
  have hxx : ε * x * (ε * x) = x * x := by linear_combination (x * x) * h1
  set d := Real.sqrt (x * x + y * y) with hd
  have hpos : 0 < x * x + y * y := by
    have := mul_self_pos.2 hy
    nlinarith [mul_self_nonneg x]
  have hd0 : 0 < d := Real.sqrt_pos.2 hpos
  have hdd : d * d = x * x + y * y := Real.mul_self_sqrt hpos.le
  have hε0 : ε ≠ 0 := fun h => by rw [h] at h1; simp at h1
  refine ⟨ε * x / d, -y / (ε * d), ε * d, ?_, ?_, ?_, ?_, ?_⟩
  · simp only [cancelY, beq_real, decide_eq_true_eq, if_neg hy, sqrt_real, ← hε, h2, hxx, ← hd]
  · have : d ^ 2 * ε ^ 2 ≠ 0 := by positivity
    field_simp
    linear_combination (ε ^ 2 * x ^ 2 - d * d + x ^ 2) * h1 - hdd
  · field_simp; linear_combination x * h1
  · field_simp
  · linear_combination (d * d) * h1 + hdd

theorem tryNew_spec (x y eps : ℝ) (h0 : 0 ≤ eps) :
    (∃ c s n, Givens.tryNew x y eps = some ⟨c, s⟩ ∧ c * c + s * s = 1 ∧ c * n = x ∧ s * n = y ∧ n ≠ 0) ∨
      (Givens.tryNew x y eps = none ∧ |y| ≤ eps) := by
  obtain ⟨h1, h2⟩ := toExp_spec x
  set ε := (toExp x).2 with hε
  have hxx : ε * x * (ε * x) = x * x := by linear_combination (x * x) * h1
  set d := Real.sqrt (x * x + y * y) with hd
  have hpos : 0 ≤ x * x + y * y := by nlinarith [mul_self_nonneg x, mul_self_nonneg y]
  have hdd : d * d = x * x + y * y := Real.mul_self_sqrt hpos
  have hε0 : ε ≠ 0 := fun h => by rw [h] at h1; simp at h1
  by_cases h : eps < d
  · left
    have hd0 : 0 < d := by linarith
    refine ⟨ε * x / d, y / (ε * d), ε * d, ?_, ?_, ?_, ?_, by positivity⟩
    · simp only [Givens.tryNew, lt_real, decide_eq_true_eq, sqrt_real, ← hε, h2, hxx, ← hd, if_pos h]
    · have : d ^ 2 * ε ^ 2 ≠ 0 := by positivity
      field_simp
      linear_combination (ε ^ 2 * x ^ 2 - d * d + x ^ 2) * h1 - hdd
    · field_simp; linear_combination x * h1
    · field_simp
  · right
    refine ⟨by simp only [Givens.tryNew, lt_real, decide_eq_true_eq, sqrt_real, ← hε, h2, hxx, ← hd, if_neg h], ?_⟩
    refine le_trans ?_ (not_lt.1 h)
    rw [hd, ← Real.sqrt_mul_self_eq_abs]
    exact Real.sqrt_le_sqrt (by nlinarith [mul_self_nonneg x])

theorem Frame.rot01 {u v w : V3 ℝ} (h : Frame u v w) {c s : ℝ} (hc : c * c + s * s = 1) :
    Frame (c • u + (-s) • v) (s • u + c • v) w := by
  have vu : v ⬝ᵥ u = 0 := by rw [dotProduct_comm]; exact h.uv
  constructor <;>
    simp only [add_dotProduct, dotProduct_add, smul_dotProduct, dotProduct_smul, smul_eq_mul, h.uu, h.vv, h.ww,
      h.uv, h.uw, h.vw, vu] <;> linarith

theorem Frame.rot12 {u v w : V3 ℝ} (h : Frame u v w) {c s : ℝ} (hc : c * c + s * s = 1) :
    Frame u (c • v + (-s) • w) (s • v + c • w) := by
  have wv : w ⬝ᵥ v = 0 := by rw [dotProduct_comm]; exact h.vw
  constructor <;>
    simp only [add_dotProduct, dotProduct_add, smul_dotProduct, dotProduct_smul, smul_eq_mul, h.uu, h.vv, h.ww,
      h.uv, h.uw, h.vw, wv] <;> linarith

theorem Frame.rotate {u v w : V3 ℝ} (h : Frame u v w) : Frame v w u :=
  ⟨h.vv, h.ww, h.uu, h.vw, by rw [dotProduct_comm]; exact h.uv, by rw [dotProduct_comm]; exact h.uw⟩

/-! ### One QR step -/

/-- A QR step with an arbitrary shift `σ` changes the basis orthogonally, restores the tridiagonal form, and
changes the off-diagonal entries in a way that depends on the determinant of `S - σ`. -/
theorem sweep_full {S : Matrix (Fin 3) (Fin 3) ℝ} (hS : S.transpose = S) {t : State ℝ} (h : Full S t) (σ : ℝ)
    (h0 : t.off 0 ≠ 0) (h1 : t.off 1 ≠ 0) :
    let t' := sweep 0 2 2 0 (t.diag 0 - σ) (t.off 0) t
    let z := t.diag 0 - σ
    let x := t.diag 1 - σ
    let y := t.diag 2 - σ
    let f := (z * x - t.off 0 ^ 2) ^ 2 + t.off 1 ^ 2 * (z ^ 2 + t.off 0 ^ 2)
    let det := z * (x * y - t.off 1 ^ 2) - t.off 0 ^ 2 * y
    Full S t' ∧ t'.off 0 ^ 2 * (z ^ 2 + t.off 0 ^ 2) ^ 2 = t.off 0 ^ 2 * f ∧
      t'.off 1 ^ 2 * f ^ 2 = (z ^ 2 + t.off 0 ^ 2) * t.off 1 ^ 2 * det ^ 2 := by
  intro t' z x y f det
  obtain ⟨c, s, n, e1, hc, hcn, hsn, hn⟩ := cancelY_spec z h0
  have hs0 : s ≠ 0 := fun hs => h0 (by rw [hs] at hsn; linarith)
  set b₁ := t.off 0 with hb₁
  set b₂ := t.off 1 with hb₂
  set x₁ := c * s * (t.diag 0 - t.diag 1) + b₁ * (c * c - s * s) with hx₁
  set y₁ := -s * b₂ with hy₁
  have hy0 : y₁ ≠ 0 := mul_ne_zero (neg_ne_zero.2 hs0) h1
  obtain ⟨c', s', n', e2, hc', hcn', hsn', hn'⟩ := cancelY_spec x₁ hy0
  set q₁ := (Givens.inverse ⟨c, s⟩).rotateRows 0 t.q with hq₁
  set b := c * s * 2 * b₁ with hb
  set D₁ := s * s * t.diag 0 + c * c * t.diag 1 + b with hD₁
  set b' := c' * s' * 2 * (b₂ * c) with hb'
  have ht : t' = ⟨(Givens.inverse ⟨c', s'⟩).rotateRows 1 q₁,
      Function.update (Function.update (Function.update (Function.update t.diag 0
        (c * c * t.diag 0 + s * s * t.diag 1 - b)) 1 D₁) 1 (c' * c' * D₁ + s' * s' * t.diag 2 - b')) 2
        (s' * s' * D₁ + c' * c' * t.diag 2 + b'),
      Function.update (Function.update (Function.update (Function.update t.off 0 x₁) 1 (b₂ * c)) 0 n') 1
        (c' * s' * (D₁ - t.diag 2) + b₂ * c * (c' * c' - s' * s'))⟩ := by
    simp only [t', sweep, ← hb₁]
    rw [show t.diag 0 - σ = z from rfl, e1]
    simp [← hb₁, ← hx₁, ← hb₂, ← hy₁, e2, ← hb, ← hD₁, ← hb', ← hq₁]
  have e0 := h.d0
  have e1 := h.d1
  have e2 := h.d2
  have ez := h.z
  have o0 := h.o0
  have o1 := h.o1
  rw [← hb₁] at o0
  rw [← hb₂] at o1
  have o0' := (bil_comm hS _ _).trans o0
  have o1' := (bil_comm hS _ _).trans o1
  have oz' := (bil_comm hS _ _).trans ez
  have fr := (h.frame.rot01 hc).rot12 hc'
  set u := col t 0 with hu
  set v := col t 1 with hv
  set w := col t 2 with hw
  set u' := c • u + (-s) • v with hu'
  set v' := s • u + c • v with hv'
  have k0 : col t' 0 = u' := by
    rw [ht]; funext r
    simp [col, Givens.rotateRows, Givens.inverse, hq₁, hu', hu, hv]; ring
  have k1 : col t' 1 = c' • v' + (-s') • w := by
    rw [ht]; funext r
    simp [col, Givens.rotateRows, Givens.inverse, hq₁, hv', hu, hv, hw]; ring
  have k2 : col t' 2 = s' • v' + c' • w := by
    rw [ht]; funext r
    simp [col, Givens.rotateRows, Givens.inverse, hq₁, hv', hu, hv, hw]; ring
  have uu : bil S u' u' = c * c * t.diag 0 + s * s * t.diag 1 - b := by
    simp only [hu', bil_add_left, bil_add_right, bil_smul_left, bil_smul_right, o0, o0', e0, e1, hb]; ring
  have vv : bil S v' v' = D₁ := by
    simp only [hv', bil_add_left, bil_add_right, bil_smul_left, bil_smul_right, o0, o0', e0, e1, hD₁, hb]
    ring
  have uv : bil S u' v' = x₁ := by
    simp only [hu', hv', bil_add_left, bil_add_right, bil_smul_left, bil_smul_right, o0, o0', e0, e1, hx₁]
    ring
  have uw : bil S u' w = y₁ := by
    simp only [hu', bil_add_left, bil_smul_left, o1, ez, hy₁]; ring
  have vw : bil S v' w = b₂ * c := by
    simp only [hv', bil_add_left, bil_smul_left, o1, ez]; ring
  have wv : bil S w v' = b₂ * c := (bil_comm hS _ _).trans vw
  have p0 : t'.off 0 = n' := by rw [ht]; simp
  have p1 : t'.off 1 = c' * s' * (D₁ - t.diag 2) + b₂ * c * (c' * c' - s' * s') := by rw [ht]; simp
  refine ⟨⟨?_, ?_, ?_, ?_, ?_, ?_, ?_⟩, ?_, ?_⟩
  · rw [k0, k1, k2]; exact fr
  · rw [k0, uu, ht]; simp
  · rw [k1, ht]
    simp only [bil_add_left, bil_add_right, bil_smul_left, bil_smul_right, vv, vw, wv, e2, hb']
    simp; ring
  · rw [k2, ht]
    simp only [bil_add_left, bil_add_right, bil_smul_left, bil_smul_right, vv, vw, wv, e2, hb']
    simp; ring
  · rw [k0, k1, p0, bil_add_right, bil_smul_right, bil_smul_right, uv, uw]
    linear_combination (-c') * hcn' - s' * hsn' + n' * hc'
  · rw [k1, k2, p1]
    simp only [bil_add_left, bil_add_right, bil_smul_left, bil_smul_right, vv, vw, wv, e2]
    ring
  · rw [k0, k2, bil_add_right, bil_smul_right, bil_smul_right, uv, uw]
    linear_combination (-s') * hcn' + c' * hsn'
  all_goals
    have X : x₁ * (n * n) = b₁ * (z * x - b₁ ^ 2) := by
      have : x₁ * (n * n) = (c * n) * (s * n) * (z - x) + b₁ * ((c * n) * (c * n) - (s * n) * (s * n)) := by
        simp only [z, x, hx₁]; ring
      rw [this, hcn, hsn]; ring
    have Y : y₁ * n = b₁ * b₂ := by linear_combination (-b₂) * hsn
    have N : z ^ 2 + b₁ ^ 2 = n * n := by rw [hn]; ring
    have F : n' * n' * (n * n) ^ 2 = b₁ ^ 2 * f := by
      have : n' * n' * (n * n) ^ 2 = (x₁ * (n * n)) ^ 2 + (y₁ * n) ^ 2 * (n * n) := by rw [hn']; ring
      rw [this, X, Y, hn]
      simp only [f, ← hb₁, ← hb₂]; ring
  · rw [p0, N, pow_two, F]
  · rw [p1]
    set B := c' * s' * (D₁ - t.diag 2) + b₂ * c * (c' * c' - s' * s') with hB
    have E : (D₁ - σ) * (n * n) = z * (z * x - b₁ ^ 2) := by
      have : (D₁ - σ) * (n * n) = (s * n) * (s * n) * z + (c * n) * (c * n) * x +
          2 * ((c * n) * (s * n)) * b₁ := by
        simp only [hD₁, hb, z, x]
        linear_combination (σ * n * n) * hc
      rw [this, hcn, hsn]; ring
    have hn0 : n ≠ 0 := fun h => h0 (by rw [h] at hsn; linarith)
    have B1 : B * (n' * n') * n ^ 5 = b₁ ^ 2 * b₂ * (n * n) * det := by
      have : B * (n' * n') * n ^ 5 = (c' * n') * (s' * n') * ((D₁ - σ) * (n * n) - y * (n * n)) * (n * n * n) +
          b₂ * (c * n) * ((c' * n') * (c' * n') - (s' * n') * (s' * n')) * (n * n) ^ 2 := by
        simp only [hB, y]; ring
      rw [this, hcn', hsn', hcn, E]
      have : x₁ * -y₁ * (z * (z * x - b₁ ^ 2) - y * (n * n)) * (n * n * n) +
          b₂ * z * (x₁ * x₁ - -y₁ * -y₁) * (n * n) ^ 2 =
          -((x₁ * (n * n)) * (y₁ * n)) * (z * (z * x - b₁ ^ 2) - y * (n * n)) +
          b₂ * z * ((x₁ * (n * n)) ^ 2 - (y₁ * n) ^ 2 * (n * n)) := by ring
      rw [this, X, Y]
      simp only [det, ← hb₁, ← hb₂]; ring
    have B2 : B * f = n * b₂ * det := by
      have : b₁ ^ 2 * n * (B * f) = b₁ ^ 2 * n * (n * b₂ * det) := by
        calc b₁ ^ 2 * n * (B * f) = B * n * (b₁ ^ 2 * f) := by ring
          _ = B * (n' * n') * n ^ 5 := by rw [← F]; ring
          _ = _ := by rw [B1]; ring
      exact mul_left_cancel₀ (by positivity) this
    rw [← mul_pow, B2, N]; ring

/-! ### Convergence -/

theorem wilkinson_spec (a b : ℝ) {o : ℝ} (ho : o ≠ 0) :
    let σ := wilkinsonShift a b o
    (a - σ) * (b - σ) = o ^ 2 ∧ o ^ 2 ≤ (a - σ) ^ 2 := by
  intro σ
  have hoo : o * o ≠ 0 := mul_ne_zero ho ho
  set d := (a - b) * (1 / 2) with hd
  set e := Real.sqrt (d * d + o * o) with he
  have hpos : 0 < d * d + o * o := by nlinarith [mul_self_nonneg d, mul_self_pos.2 ho]
  have hee : e * e = d * d + o * o := Real.mul_self_sqrt hpos.le
  have he0 : 0 < e := Real.sqrt_pos.2 hpos
  have hs := signum_mul_self d
  set s : ℝ := signum d with hs'
  have hsd : 0 ≤ s * d := by
    rw [hs']; unfold signum; rw [lt_real]
    split
    · rename_i h; rw [decide_eq_true_eq] at h; linarith
    · rename_i h; rw [decide_eq_true_eq] at h; linarith
  have hden : d + s * e ≠ 0 := by
    intro h
    have : s * (d + s * e) = 0 := by rw [h, mul_zero]
    nlinarith
  have hσ : σ = b - (o * o) / (d + s * e) := by
    simp only [σ, wilkinsonShift, beq_real, decide_eq_true_eq, if_neg hoo, sqrt_real, lit_real]
    push_cast
    rw [← hd, ← hs', ← he]
  have hq : (o * o) / (d + s * e) = s * e - d := by
    rw [div_eq_iff hden]; linear_combination (-1 : ℝ) * hee - (e * e) * hs
  have hb : b - σ = s * e - d := by rw [hσ, ← hq]; ring
  have ha : a - σ = s * e + d := by
    have : a = b + 2 * d := by rw [hd]; ring
    linarith
  rw [ha, hb]
  refine ⟨by linear_combination (e * e) * hs + hee, ?_⟩
  nlinarith [mul_nonneg hsd he0.le]

/-- The estimate behind convergence. -/
theorem contraction {a b x y z : ℝ} (hxy : x * y = b) (hbx : b ≤ x ^ 2) (ha : 0 < a) (hb : 0 < b) :
    27 * (a * y) ^ 4 ≤ 8 * ((z * x - a) ^ 2 + b * (z ^ 2 + a)) ^ 3 := by
  set f := (z * x - a) ^ 2 + b * (z ^ 2 + a) with hf
  set c := b + x ^ 2 with hc
  have hx : 0 < x ^ 2 := lt_of_lt_of_le hb hbx
  have hc0 : 0 < c := by rw [hc]; positivity
  have h1 : a * b * (a + c) ≤ f * c := by
    have : f * c = (c * z - x * a) ^ 2 + a * b * (a + c) := by rw [hf, hc]; ring
    rw [this]; nlinarith [sq_nonneg (c * z - x * a)]
  have h2 : 27 * (a * c ^ 2) ≤ 4 * (a + c) ^ 3 := by
    nlinarith [mul_nonneg (add_pos ha hc0).le (sq_nonneg (2 * a - c)), mul_nonneg ha.le (sq_nonneg (2 * a - c)),
      mul_nonneg hc0.le (sq_nonneg (2 * a - c))]
  have h3 : (a * b * (a + c)) ^ 3 ≤ (f * c) ^ 3 := pow_le_pow_left₀ (by positivity) h1 3
  have h4 : b * c ≤ 2 * x ^ 4 := by
    have : c ≤ 2 * x ^ 2 := by rw [hc]; linarith
    calc b * c ≤ x ^ 2 * (2 * x ^ 2) := mul_le_mul hbx this hc0.le hx.le
      _ = 2 * x ^ 4 := by ring
  have h5 : (x * y) ^ 4 = b ^ 4 := by rw [hxy]
  have key : (c ^ 3 * x ^ 4) * (27 * (a * y) ^ 4) ≤ (c ^ 3 * x ^ 4) * (8 * f ^ 3) := by
    calc (c ^ 3 * x ^ 4) * (27 * (a * y) ^ 4) = 27 * a ^ 4 * c ^ 3 * (x * y) ^ 4 := by ring
      _ = 27 * a ^ 4 * b ^ 3 * c ^ 2 * (b * c) := by rw [h5]; ring
      _ ≤ 27 * a ^ 4 * b ^ 3 * c ^ 2 * (2 * x ^ 4) := mul_le_mul_of_nonneg_left h4 (by positivity)
      _ = 2 * x ^ 4 * (a * b) ^ 3 * (27 * (a * c ^ 2)) := by ring
      _ ≤ 2 * x ^ 4 * (a * b) ^ 3 * (4 * (a + c) ^ 3) := mul_le_mul_of_nonneg_left h2 (by positivity)
      _ = 8 * x ^ 4 * (a * b * (a + c)) ^ 3 := by ring
      _ ≤ 8 * x ^ 4 * (f * c) ^ 3 := mul_le_mul_of_nonneg_left h3 (by positivity)
      _ = _ := by ring
  have hx4 : 0 < x ^ 4 := by
    have : x ^ 4 = x ^ 2 * x ^ 2 := by ring
    rw [this]; positivity
  exact le_of_mul_le_mul_left key (by positivity)

/-- The quantity that measures convergence. -/
def size (t : State ℝ) : ℝ := t.off 0 ^ 2 * t.off 1 ^ 4

theorem size_le {o₀ o₁ p₀ p₁ x y z : ℝ} (h0 : o₀ ≠ 0) (h1 : o₁ ≠ 0) (hxy : x * y = o₁ ^ 2)
    (hbx : o₁ ^ 2 ≤ x ^ 2)
    (e0 : p₀ ^ 2 * (z ^ 2 + o₀ ^ 2) ^ 2 = o₀ ^ 2 * ((z * x - o₀ ^ 2) ^ 2 + o₁ ^ 2 * (z ^ 2 + o₀ ^ 2)))
    (e1 : p₁ ^ 2 * ((z * x - o₀ ^ 2) ^ 2 + o₁ ^ 2 * (z ^ 2 + o₀ ^ 2)) ^ 2 =
      (z ^ 2 + o₀ ^ 2) * o₁ ^ 2 * (z * (x * y - o₁ ^ 2) - o₀ ^ 2 * y) ^ 2) :
    p₀ ^ 2 * p₁ ^ 4 ≤ 8 / 27 * (o₀ ^ 2 * o₁ ^ 4) := by
  have ha : 0 < o₀ ^ 2 := by positivity
  have hb : 0 < o₁ ^ 2 := by positivity
  have hc := contraction (z := z) hxy hbx ha hb
  rw [hxy, sub_self, mul_zero, zero_sub] at e1
  have hb2 : o₁ ^ 4 = (o₁ ^ 2) ^ 2 := by ring
  rw [hb2]
  generalize o₀ ^ 2 = a at *
  generalize o₁ ^ 2 = b at *
  have hr : 0 < z ^ 2 + a := by positivity
  have hf0 : 0 < (z * x - a) ^ 2 + b * (z ^ 2 + a) := by positivity
  generalize (z * x - a) ^ 2 + b * (z ^ 2 + a) = f at *
  generalize z ^ 2 + a = r at *
  have k : p₀ ^ 2 * p₁ ^ 4 * (r ^ 2 * f ^ 4) = a * b ^ 2 * (a * y) ^ 4 * (r ^ 2 * f) := by
    calc p₀ ^ 2 * p₁ ^ 4 * (r ^ 2 * f ^ 4) = (p₀ ^ 2 * r ^ 2) * (p₁ ^ 2 * f ^ 2) ^ 2 := by ring
      _ = _ := by rw [e0, e1]; ring
  refine le_of_mul_le_mul_right ?_ (by positivity : 0 < r ^ 2 * f ^ 4)
  rw [k]
  have : a * b ^ 2 * (r ^ 2 * f) * (27 * (a * y) ^ 4) ≤ a * b ^ 2 * (r ^ 2 * f) * (8 * f ^ 3) :=
    mul_le_mul_of_nonneg_left hc (by positivity)
  linarith

/-- A QR step with Wilkinson's shift shrinks `off₀² off₁⁴` by the factor `8/27`. -/
theorem sweep_size {S : Matrix (Fin 3) (Fin 3) ℝ} (hS : S.transpose = S) {t : State ℝ} (h : Full S t)
    (h0 : t.off 0 ≠ 0) (h1 : t.off 1 ≠ 0) {σ : ℝ} (hσ : σ = wilkinsonShift (t.diag 1) (t.diag 2) (t.off 1)) :
    Full S (sweep 0 2 2 0 (t.diag 0 - σ) (t.off 0) t) ∧
      size (sweep 0 2 2 0 (t.diag 0 - σ) (t.off 0) t) ≤ 8 / 27 * size t := by
  obtain ⟨hfull, e0, e1⟩ := sweep_full hS h σ h0 h1
  obtain ⟨hxy, hbx⟩ := wilkinson_spec (t.diag 1) (t.diag 2) h1
  rw [← hσ] at hxy hbx
  exact ⟨hfull, size_le h0 h1 hxy hbx e0 e1⟩

/-! ### The loop -/

/-- The basis is orthonormal and nearly diagonalizes the matrix. -/
structure Near (S : Matrix (Fin 3) (Fin 3) ℝ) (δ : ℝ) (u v w : V3 ℝ) : Prop where
  frame : Frame u v w
  uv : |bil S u v| ≤ δ
  uw : |bil S u w| ≤ δ
  vw : |bil S v w| ≤ δ

/-- The matrices considered: symmetric, nonnegative, with trace at least one. -/
structure Gram (S : Matrix (Fin 3) (Fin 3) ℝ) (T : ℝ) : Prop where
  symm : S.transpose = S
  nonneg : ∀ u, 0 ≤ bil S u u
  trace : ∀ u v w, Frame u v w → bil S u u + bil S v v + bil S w w = T
  one_le : 1 ≤ T

variable {S : Matrix (Fin 3) (Fin 3) ℝ} {T eps : ℝ}

/-- The three possibilities after the subproblem is delimited. -/
theorem delimit_cases (t : State ℝ) (he : 0 < eps) :
    (delimit eps t 2 = (t, 0, 2) ∧ eps * (|t.diag 2| + |t.diag 1|) < |t.off 1| ∧
      eps * (|t.diag 1| + |t.diag 0|) < |t.off 0|) ∨
    (delimit eps t 2 = (t, 0, 1) ∧ |t.off 1| ≤ eps * (|t.diag 2| + |t.diag 1|)) ∨
    (delimit eps t 2 = ({ t with off := Function.update t.off 0 0 }, 1, 2) ∧
      |t.off 0| ≤ eps * (|t.diag 1| + |t.diag 0|)) ∨
    (delimit eps t 2 = (t, 0, 0) ∧ |t.off 1| ≤ eps * (|t.diag 2| + |t.diag 1|) ∧
      |t.off 0| ≤ eps * (|t.diag 1| + |t.diag 0|)) := by
  by_cases h1 : eps * (|t.diag 2| + |t.diag 1|) < |t.off 1|
  · by_cases h0 : eps * (|t.diag 1| + |t.diag 0|) < |t.off 0|
    · left
      have : t.off 0 ≠ 0 := by
        intro h
        rw [h, abs_zero] at h0
        exact absurd h0 (not_lt.2 (by positivity))
      refine ⟨?_, h1, h0⟩
      simp [delimit, delimitEnd, delimitStart, small, h1, not_le.2 h0, this]
    · right; right; left
      refine ⟨?_, not_lt.1 h0⟩
      simp [delimit, delimitEnd, delimitStart, small, h1, not_lt.1 h0]
  · right
    by_cases h0 : eps * (|t.diag 1| + |t.diag 0|) < |t.off 0|
    · left
      refine ⟨?_, not_lt.1 h1⟩
      simp [delimit, delimitEnd, delimitStart, h1, h0]
    · right; right
      refine ⟨?_, not_lt.1 h1, not_lt.1 h0⟩
      simp [delimit, delimitEnd, h1, h0]

/-- After a QR step the subproblem is delimited as if the last entry had not been tested before. -/
theorem delimit_body (t : State ℝ) :
    delimit eps (body eps t 0 2).1 (body eps t 0 2).2 =
      delimit eps (sweep 0 2 2 0 (t.diag 0 - wilkinsonShift (t.diag 1) (t.diag 2) (t.off 1)) (t.off 0) t) 2 := by
  simp only [body]
  norm_num
  generalize sweep 0 2 2 0 (t.diag 0 - wilkinsonShift (t.diag 1) (t.diag 2) (t.off 1)) (t.off 0) t = t'
  split
  · rename_i h
    have h' : ¬ eps * (|t'.diag 2| + |t'.diag 1|) < |t'.off 1| := by rw [not_lt, add_comm]; exact h
    simp [delimit, delimitEnd, h']
  · rfl

theorem loop_done (k : ℕ) (t : State ℝ) (n : ℕ) : loop eps k (t, n, n) = some t := by
  unfold loop; simp

theorem Full.small0 (g : Gram S T) {t : State ℝ} (h : Full S t) (he : 0 < eps)
    (ho : |t.off 0| ≤ eps * (|t.diag 1| + |t.diag 0|)) : |t.off 0| ≤ eps * T := by
  have n0 := g.nonneg (col t 0)
  have n1 := g.nonneg (col t 1)
  have n2 := g.nonneg (col t 2)
  have tr := g.trace _ _ _ h.frame
  rw [h.d0] at n0 tr
  rw [h.d1] at n1 tr
  rw [abs_of_nonneg n0, abs_of_nonneg n1] at ho
  exact ho.trans (mul_le_mul_of_nonneg_left (by linarith) he.le)

theorem Full.small1 (g : Gram S T) {t : State ℝ} (h : Full S t) (he : 0 < eps)
    (ho : |t.off 1| ≤ eps * (|t.diag 2| + |t.diag 1|)) : |t.off 1| ≤ eps * T := by
  have n0 := g.nonneg (col t 0)
  have n1 := g.nonneg (col t 1)
  have n2 := g.nonneg (col t 2)
  have tr := g.trace _ _ _ h.frame
  rw [h.d1] at n1 tr
  rw [h.d2] at n2 tr
  rw [abs_of_nonneg n1, abs_of_nonneg n2] at ho
  exact ho.trans (mul_le_mul_of_nonneg_left (by linarith) he.le)

/-- The rotation by the computed eigenvector of a 2x2 block diagonalizes the block. -/
theorem eigenvalues2_spec (a b c : ℝ) :
    ((eigenvalues2 a b c).1 - c) ^ 2 - (a - c) * ((eigenvalues2 a b c).1 - c) - b ^ 2 = 0 := by
  have hpos : 0 ≤ b * b + ((a - c) * (1 / 2)) * ((a - c) * (1 / 2)) :=
    add_nonneg (mul_self_nonneg _) (mul_self_nonneg _)
  have h := Real.mul_self_sqrt hpos
  have : (eigenvalues2 a b c).1 = (a + c) * (1 / 2) + Real.sqrt (b * b + ((a - c) * (1 / 2)) * ((a - c) * (1 / 2))) := by
    simp [eigenvalues2]
  rw [this]
  generalize Real.sqrt (b * b + ((a - c) * (1 / 2)) * ((a - c) * (1 / 2))) = r at h
  linear_combination h

/-- Two columns rotated by the eigenvector of their 2x2 block. -/
theorem block_zero {a b d x c s n : ℝ} (hx : x ^ 2 - (a - d) * x - b ^ 2 = 0) (hc : c * n = x) (hs : s * n = b)
    (hn : n ≠ 0) : c * s * (d - a) + (c * c - s * s) * b = 0 := by
  have : (c * s * (d - a) + (c * c - s * s) * b) * n ^ 2 = 0 := by
    have : (c * s * (d - a) + (c * c - s * s) * b) * n ^ 2 =
        (c * n) * (s * n) * (d - a) + ((c * n) * (c * n) - (s * n) * (s * n)) * b := by ring
    rw [this, hc, hs]; linear_combination b * hx
  exact (mul_eq_zero.1 this).resolve_right (pow_ne_zero 2 hn)

theorem abs_le_of_sq_one {c s x δ : ℝ} (hc : c * c + s * s = 1) (hx : |x| ≤ δ) : |c * x| ≤ δ ∧ |s * x| ≤ δ := by
  have hc1 : |c| ≤ 1 := abs_le_one_iff_mul_self_le_one.2 (by nlinarith [mul_self_nonneg s])
  have hs1 : |s| ≤ 1 := abs_le_one_iff_mul_self_le_one.2 (by nlinarith [mul_self_nonneg c])
  have h0 := abs_nonneg x
  rw [abs_mul, abs_mul]
  constructor <;> nlinarith [abs_nonneg c, abs_nonneg s]

theorem loop_01 (g : Gram S T) {t : State ℝ} (h : Full S t) (he : 0 < eps)
    (ho : |t.off 1| ≤ eps * (|t.diag 2| + |t.diag 1|)) :
    ∃ t', Near S (eps * T) (col t' 0) (col t' 1) (col t' 2) ∧
      ∀ k, loop eps k (t, 0, 1) = if 2 ≤ k then some t' else none := by
  refine ⟨(body eps t 0 1).1, ?_, ?_⟩
  · have h1 := h.small1 g he ho
    have heT : eps ≤ eps * T := le_mul_of_one_le_right he.le g.one_le
    have hx := eigenvalues2_spec (t.diag 0) (t.off 0) (t.diag 1)
    have o0' := (bil_comm g.symm _ _).trans h.o0
    rcases tryNew_spec ((eigenvalues2 (t.diag 0) (t.off 0) (t.diag 1)).1 - t.diag 1) (t.off 0) eps he.le with
      ⟨c, s, n, e1, hc, hcn, hsn, hn⟩ | ⟨e1, hy⟩
    · have hq : (body eps t 0 1).1.q = (⟨c, s⟩ : Givens ℝ).rotateRows 0 t.q := by simp [body, e1]
      have hc' : c * c + (-s) * (-s) = 1 := by linarith
      have fr := h.frame.rot01 hc'
      have k0 : col (body eps t 0 1).1 0 = c • col t 0 + (- -s) • col t 1 := by
        funext r; simp [col, hq, Givens.rotateRows]; ring
      have k1 : col (body eps t 0 1).1 1 = (-s) • col t 0 + c • col t 1 := by
        funext r; simp [col, hq, Givens.rotateRows]; ring
      have k2 : col (body eps t 0 1).1 2 = col t 2 := by
        funext r; simp [col, hq, Givens.rotateRows]
      rw [k0, k1, k2]
      obtain ⟨b1, b2⟩ := abs_le_of_sq_one hc h1
      refine ⟨fr, ?_, ?_, ?_⟩
      · have := block_zero hx hcn hsn hn
        simp only [bil_add_left, bil_add_right, bil_smul_left, bil_smul_right, h.o0, o0', h.d0, h.d1]
        rw [show -s * (c * t.diag 0 + - -s * t.off 0) + c * (c * t.off 0 + - -s * t.diag 1) = 0 by
          linear_combination this, abs_zero]
        have := g.one_le; positivity
      · simp only [bil_add_left, bil_smul_left, h.z, h.o1, neg_neg, mul_zero, zero_add]; exact b2
      · simp only [bil_add_left, bil_smul_left, h.z, h.o1, mul_zero, zero_add]; exact b1
    · have hq : (body eps t 0 1).1.q = t.q := by simp [body, e1]
      have k : ∀ c, col (body eps t 0 1).1 c = col t c := fun c => by funext r; simp [col, hq]
      rw [k, k, k]
      refine ⟨h.frame, ?_, ?_, ?_⟩
      · rw [h.o0]; exact hy.trans heT
      · rw [h.z, abs_zero]; have := g.one_le; positivity
      · rw [h.o1]; exact h1
  · intro k
    have hb : (body eps t 0 1).2 = 0 := by simp [body]
    match k with
    | 0 => simp [loop]
    | 1 => simp [loop]
    | k + 2 =>
      unfold loop
      simp [hb, delimit, delimitEnd, loop_done]

theorem loop_12 (g : Gram S T) {t : State ℝ} (h : Full S t) (he : 0 < eps)
    (ho : |t.off 0| ≤ eps * (|t.diag 1| + |t.diag 0|)) :
    ∃ t', Near S (eps * T) (col t' 0) (col t' 1) (col t' 2) ∧
      ∀ k, loop eps k ({ t with off := Function.update t.off 0 0 }, 1, 2) = if 2 ≤ k then some t' else none := by
  set t₀ : State ℝ := { t with off := Function.update t.off 0 0 } with ht₀
  have hoff : t₀.off 1 = t.off 1 := by simp [ht₀]
  refine ⟨(body eps t₀ 1 2).1, ?_, ?_⟩
  · have h1 := h.small0 g he ho
    have heT : eps ≤ eps * T := le_mul_of_one_le_right he.le g.one_le
    have hx := eigenvalues2_spec (t.diag 1) (t.off 1) (t.diag 2)
    have o1' := (bil_comm g.symm _ _).trans h.o1
    rcases tryNew_spec ((eigenvalues2 (t.diag 1) (t.off 1) (t.diag 2)).1 - t.diag 2) (t.off 1) eps he.le with
      ⟨c, s, n, e1, hc, hcn, hsn, hn⟩ | ⟨e1, hy⟩
    · have hq : (body eps t₀ 1 2).1.q = (⟨c, s⟩ : Givens ℝ).rotateRows 1 t.q := by
        simp [body, ht₀, e1]
      have hc' : c * c + (-s) * (-s) = 1 := by linarith
      have fr := h.frame.rot12 hc'
      have k0 : col (body eps t₀ 1 2).1 0 = col t 0 := by
        funext r; simp [col, hq, Givens.rotateRows]
      have k1 : col (body eps t₀ 1 2).1 1 = c • col t 1 + (- -s) • col t 2 := by
        funext r; simp [col, hq, Givens.rotateRows]; ring
      have k2 : col (body eps t₀ 1 2).1 2 = (-s) • col t 1 + c • col t 2 := by
        funext r; simp [col, hq, Givens.rotateRows]; ring
      rw [k0, k1, k2]
      obtain ⟨b1, b2⟩ := abs_le_of_sq_one hc h1
      refine ⟨fr, ?_, ?_, ?_⟩
      · simp only [bil_add_right, bil_smul_right, h.z, h.o0, mul_zero, add_zero]; exact b1
      · simp only [bil_add_right, bil_smul_right, h.z, h.o0, mul_zero, add_zero, neg_mul, abs_neg]; exact b2
      · have := block_zero hx hcn hsn hn
        simp only [bil_add_left, bil_add_right, bil_smul_left, bil_smul_right, h.o1, o1', h.d1, h.d2]
        rw [show -s * (c * t.diag 1 + - -s * t.off 1) + c * (c * t.off 1 + - -s * t.diag 2) = 0 by
          linear_combination this, abs_zero]
        have := g.one_le; positivity
    · have hq : (body eps t₀ 1 2).1.q = t.q := by simp [body, ht₀, e1]
      have k : ∀ c, col (body eps t₀ 1 2).1 c = col t c := fun c => by funext r; simp [col, hq]
      rw [k, k, k]
      refine ⟨h.frame, ?_, ?_, ?_⟩
      · rw [h.o0]; exact h1
      · rw [h.z, abs_zero]; have := g.one_le; positivity
      · rw [h.o1]; exact hy.trans heT
  · intro k
    have hb : (body eps t₀ 1 2).2 = 1 := by simp [body]
    have hb0 : (body eps t₀ 1 2).1.off 0 = 0 := by simp [body, ht₀]
    have hd : delimit eps (body eps t₀ 1 2).1 1 = ((body eps t₀ 1 2).1, 0, 0) := by
      have : ¬ eps * (|(body eps t₀ 1 2).1.diag 1| + |(body eps t₀ 1 2).1.diag 0|) < 0 :=
        not_lt.2 (by positivity)
      simp [delimit, delimitEnd, hb0, this]
    match k with
    | 0 => simp [loop]
    | 1 => simp [loop]
    | k + 2 =>
      unfold loop
      simp [hb, hd, loop_done]

/-- Whatever the loop returns nearly diagonalizes the matrix. -/
theorem loop_near (g : Gram S T) (he : 0 < eps) (k : ℕ) {t t' : State ℝ} (h : Full S t)
    (hl : loop eps k (delimit eps t 2) = some t') :
    Near S (eps * T) (col t' 0) (col t' 1) (col t' 2) := by
  induction k generalizing t with
  | zero =>
    rcases delimit_cases t he with ⟨hd, h1, h0⟩ | ⟨hd, h1⟩ | ⟨hd, h0⟩ | ⟨hd, h1, h0⟩
    · rw [hd] at hl; simp [loop] at hl
    · rw [hd] at hl; simp [loop] at hl
    · rw [hd] at hl; simp [loop] at hl
    · rw [hd, loop_done] at hl
      injection hl with hl
      subst hl
      refine ⟨h.frame, ?_, ?_, ?_⟩
      · rw [h.o0]; exact h.small0 g he h0
      · rw [h.z, abs_zero]; have := g.one_le; positivity
      · rw [h.o1]; exact h.small1 g he h1
  | succ k ih =>
    rcases delimit_cases t he with ⟨hd, h1, h0⟩ | ⟨hd, h1⟩ | ⟨hd, h0⟩ | ⟨hd, h1, h0⟩
    · rw [hd] at hl
      have o0 : t.off 0 ≠ 0 := by
        rintro h; rw [h, abs_zero] at h0; exact absurd h0 (not_lt.2 (by positivity))
      have o1 : t.off 1 ≠ 0 := by
        rintro h; rw [h, abs_zero] at h1; exact absurd h1 (not_lt.2 (by positivity))
      unfold loop at hl
      simp only [delimit_body] at hl
      norm_num at hl
      exact ih (sweep_size g.symm h o0 o1 rfl).1 hl.2
    · rw [hd] at hl
      obtain ⟨t₁, hn, hk⟩ := loop_01 g h he h1
      rw [hk] at hl
      split at hl
      · injection hl with hl; subst hl; exact hn
      · cases hl
    · rw [hd] at hl
      obtain ⟨t₁, hn, hk⟩ := loop_12 g h he h0
      rw [hk] at hl
      split at hl
      · injection hl with hl; subst hl; exact hn
      · cases hl
    · rw [hd, loop_done] at hl
      injection hl with hl
      subst hl
      refine ⟨h.frame, ?_, ?_, ?_⟩
      · rw [h.o0]; exact h.small0 g he h0
      · rw [h.z, abs_zero]; have := g.one_le; positivity
      · rw [h.o1]; exact h.small1 g he h1

/-- If no two of the diagonal entries can be small at the same time, the loop converges. -/
theorem loop_converges (g : Gram S T) (he : 0 < eps) {s : ℝ} (hs : 0 < s)
    (hsum : ∀ u v w, Frame u v w → s ≤ bil S u u + bil S v v) (k : ℕ) {t : State ℝ} (h : Full S t)
    (hk : size t * (8 / 27) ^ k ≤ (eps * s) ^ 6) :
    ∃ t', loop eps (k + 2) (delimit eps t 2) = some t' := by
  induction k generalizing t with
  | zero =>
    rcases delimit_cases t he with ⟨hd, h1, h0⟩ | ⟨hd, h1⟩ | ⟨hd, h0⟩ | ⟨hd, h1, h0⟩
    · exfalso
      have n0 := g.nonneg (col t 0)
      have n1 := g.nonneg (col t 1)
      have n2 := g.nonneg (col t 2)
      have s0 := hsum _ _ _ h.frame
      have s1 := hsum _ _ _ h.frame.rotate
      rw [h.d0] at n0 s0
      rw [h.d1] at n1 s0 s1
      rw [h.d2] at n2 s1
      rw [abs_of_nonneg n1, abs_of_nonneg n2] at h1
      rw [abs_of_nonneg n0, abs_of_nonneg n1] at h0
      have b0 : eps * s < |t.off 0| := lt_of_le_of_lt (mul_le_mul_of_nonneg_left (by linarith) he.le) h0
      have b1 : eps * s < |t.off 1| := lt_of_le_of_lt (mul_le_mul_of_nonneg_left (by linarith) he.le) h1
      have hp : 0 < eps * s := mul_pos he hs
      have c0 : (eps * s) ^ 2 < t.off 0 ^ 2 := by
        rw [← sq_abs (t.off 0)]; exact pow_lt_pow_left₀ b0 hp.le two_ne_zero
      have c1 : (eps * s) ^ 4 < t.off 1 ^ 4 := by
        have : t.off 1 ^ 4 = |t.off 1| ^ 4 := by rw [← abs_pow, abs_of_nonneg (by positivity)]
        rw [this]; exact pow_lt_pow_left₀ b1 hp.le (by norm_num)
      have : (eps * s) ^ 6 < size t := by
        calc (eps * s) ^ 6 = (eps * s) ^ 2 * (eps * s) ^ 4 := by ring
          _ < t.off 0 ^ 2 * t.off 1 ^ 4 := mul_lt_mul'' c0 c1 (by positivity) (by positivity)
      rw [pow_zero, mul_one] at hk
      linarith
    · obtain ⟨t₁, hn, hk⟩ := loop_01 g h he h1
      exact ⟨t₁, by rw [hd, hk]; simp⟩
    · obtain ⟨t₁, hn, hk⟩ := loop_12 g h he h0
      exact ⟨t₁, by rw [hd, hk]; simp⟩
    · exact ⟨t, by rw [hd, loop_done]⟩
  | succ k ih =>
    rcases delimit_cases t he with ⟨hd, h1, h0⟩ | ⟨hd, h1⟩ | ⟨hd, h0⟩ | ⟨hd, h1, h0⟩
    · have o0 : t.off 0 ≠ 0 := by
        rintro h; rw [h, abs_zero] at h0; exact absurd h0 (not_lt.2 (by positivity))
      have o1 : t.off 1 ≠ 0 := by
        rintro h; rw [h, abs_zero] at h1; exact absurd h1 (not_lt.2 (by positivity))
      obtain ⟨hf, hsz⟩ := sweep_size g.symm h o0 o1 rfl
      obtain ⟨t', ht'⟩ := ih hf (by
        refine le_trans ?_ hk
        rw [pow_succ']
        have : (0 : ℝ) ≤ (8 / 27) ^ k := by positivity
        nlinarith)
      refine ⟨t', ?_⟩
      rw [hd]
      unfold loop
      simp only [delimit_body]
      norm_num
      exact ht'
    · obtain ⟨t₁, hn, hk⟩ := loop_01 g h he h1
      exact ⟨t₁, by rw [hd, hk]; simp⟩
    · obtain ⟨t₁, hn, hk⟩ := loop_12 g h he h0
      exact ⟨t₁, by rw [hd, hk]; simp⟩
    · exact ⟨t, by rw [hd, loop_done]⟩

end Svd3
end CamGeom
