import Verif.Lemmas.Svd3
import Verif.Props.RayGeometry

/-!
# nalgebra's 3x3 singular value decomposition is accurate to its tolerance and converges

for matrices that do not shrink two orthogonal directions at the same time.
-/

namespace CamGeom
namespace Svd3
open Spec Matrix Householder

/-- `M` stretches no vector by more than `N`, and no two orthonormal vectors are both shortened to much less
than `N / 2`. -/
structure TwoBig (M : Matrix (Fin 3) (Fin 3) ℝ) (N : ℝ) : Prop where
  pos : 0 < N
  le : ∀ w, (M *ᵥ w) ⬝ᵥ (M *ᵥ w) ≤ N ^ 2 * (w ⬝ᵥ w)
  two : ∀ u v w, Frame u v w → N ^ 2 / 2 ≤ (M *ᵥ u) ⬝ᵥ (M *ᵥ u) + (M *ᵥ v) ⬝ᵥ (M *ᵥ v)

theorem camax_real (m : Mat 3 3 ℝ) (B : ℝ) : camax m ≤ B ↔ ∀ i j, |m i j| ≤ B := by
  have hmx : ∀ a b : ℝ, (if Scalar.lt a b = true then b else a) ≤ B ↔ a ≤ B ∧ b ≤ B := by
    intro a b
    by_cases h : a < b
    · rw [if_pos (by simpa using h)]; exact ⟨fun h' => ⟨by linarith, h'⟩, fun h' => h'.2⟩
    · rw [if_neg (by simpa using h)]; exact ⟨fun h' => ⟨h', by linarith⟩, fun h' => h'.1⟩
  simp only [camax, hmx, abs_real]
  constructor
  · rintro ⟨⟨⟨⟨⟨⟨⟨⟨h1, h2⟩, h3⟩, h4⟩, h5⟩, h6⟩, h7⟩, h8⟩, h9⟩ i j
    fin_cases i <;> fin_cases j <;> assumption
  · intro h
    exact ⟨⟨⟨⟨⟨⟨⟨⟨h 0 0, h 1 0⟩, h 2 0⟩, h 0 1⟩, h 1 1⟩, h 2 1⟩, h 0 2⟩, h 1 2⟩, h 2 2⟩

/-- The rows of an orthogonal matrix. -/
theorem Frame.columns {u v w : V3 ℝ} (h : Frame u v w) (i j : Fin 3) :
    u i * u j + v i * v j + w i * w j = if i = j then 1 else 0 := by
  have h1 : (Matrix.of ![u, v, w]) * (Matrix.of ![u, v, w]).transpose = 1 := by
    have vu := (dotProduct_comm v u).trans h.uv
    have wu := (dotProduct_comm w u).trans h.uw
    have wv := (dotProduct_comm w v).trans h.vw
    ext a b
    rw [mul_apply]
    change (![u, v, w] a) ⬝ᵥ (![u, v, w] b) = _
    fin_cases a <;> fin_cases b <;> simp [h.uu, h.vv, h.ww, h.uv, h.uw, h.vw, vu, wu, wv]
  have h2 := mul_eq_one_comm.1 h1
  have h3 := congrFun (congrFun h2 i) j
  rw [mul_apply, Fin.sum_univ_three, one_apply] at h3
  simpa using h3

theorem Frame.trace {u v w : V3 ℝ} (h : Frame u v w) (S : Matrix (Fin 3) (Fin 3) ℝ) :
    bil S u u + bil S v v + bil S w w = S 0 0 + S 1 1 + S 2 2 := by
  have c := h.columns
  have e : bil S u u + bil S v v + bil S w w =
      ∑ i, ∑ j, S i j * (u i * u j + v i * v j + w i * w j) := by
    simp only [bil, dotProduct, mulVec, Fin.sum_univ_three]; ring
  rw [e]
  simp [c, Fin.sum_univ_three]

variable {M : Matrix (Fin 3) (Fin 3) ℝ} {N : ℝ}

/-- The matrix `MᵀM`, as computed. -/
noncomputable def gram (M : Mat 3 3 ℝ) : Mat 3 3 ℝ := fun i j => tailDot 0 (fun k => M k i) fun k => M k j

theorem bil_gram (M : Matrix (Fin 3) (Fin 3) ℝ) (u v : V3 ℝ) :
    bil (Matrix.of (gram (Matrix.of.symm M))) u v = (M *ᵥ u) ⬝ᵥ (M *ᵥ v) := by
  simp [bil, gram, tailDot, dotProduct, mulVec, Fin.sum_univ_three]; ring

theorem bil_div (S : Mat 3 3 ℝ) (a : ℝ) (u v : V3 ℝ) :
    bil (Matrix.of fun r c => S r c / a) u v = bil (Matrix.of S) u v / a := by
  simp [bil, dotProduct, mulVec, Fin.sum_univ_three]; ring

theorem gram_e (M : Matrix (Fin 3) (Fin 3) ℝ) (i j : Fin 3) :
    gram (Matrix.of.symm M) i j = (M *ᵥ e i) ⬝ᵥ (M *ᵥ e j) := by
  rw [← bil_gram]
  fin_cases i <;> fin_cases j <;> simp [bil, dotProduct, mulVec, e]

theorem frame_e : Frame (e 0) (e 1) (e 2) := by
  constructor <;> simp [dotProduct, e]

theorem dot_self_nonneg (v : V3 ℝ) : 0 ≤ v ⬝ᵥ v := by
  simp only [dotProduct, Fin.sum_univ_three]
  nlinarith [mul_self_nonneg (v 0), mul_self_nonneg (v 1), mul_self_nonneg (v 2)]

theorem abs_dot_le_add (v w : V3 ℝ) : 2 * |v ⬝ᵥ w| ≤ v ⬝ᵥ v + w ⬝ᵥ w := by
  have h1 := dot_self_nonneg (v - w)
  have h2 := dot_self_nonneg (v + w)
  simp only [sub_dotProduct, dotProduct_sub, add_dotProduct, dotProduct_add, dotProduct_comm w v] at h1 h2
  rcases abs_cases (v ⬝ᵥ w) with h | h <;> rw [h.1] <;> linarith

/-- The eigenvector iteration on `MᵀM`: it converges, and the columns of `M V` are nearly orthogonal. -/
theorem eigenvectors_spec (h : TwoBig M N) :
    ∃ V, eigenvectors (gram (Matrix.of.symm M)) cutoff 100 = some V ∧
      Frame (fun r => V r 0) (fun r => V r 1) (fun r => V r 2) ∧
      ∀ i j, i ≠ j → |(M *ᵥ fun r => V r i) ⬝ᵥ (M *ᵥ fun r => V r j)| ≤ 3 * cutoff * N ^ 2 := by
  have hN := h.pos
  set G := gram (Matrix.of.symm M) with hG
  set A := camax G with hA
  have hle : ∀ i j, |G i j| ≤ A := (camax_real G A).1 le_rfl
  have he : ∀ i, e i ⬝ᵥ e i = 1 := fun i => by fin_cases i <;> simp [dotProduct, e]
  have hself : ∀ i, G i i ≤ N ^ 2 := fun i => by
    have := h.le (e i)
    rw [he, mul_one, ← gram_e] at this
    exact this
  have hnn : ∀ i, 0 ≤ G i i := fun i => by rw [hG, gram_e]; exact dot_self_nonneg _
  have hij : ∀ i j, 2 * |G i j| ≤ G i i + G j j := fun i j => by
    rw [hG, gram_e, gram_e, gram_e]; exact abs_dot_le_add _ _
  have hAN : A ≤ N ^ 2 := (camax_real G _).2 fun i j => by
    have := hij i j
    have := hself i
    have := hself j
    linarith
  have htr : N ^ 2 / 2 ≤ G 0 0 + G 1 1 := by
    have := h.two _ _ _ frame_e
    rw [← gram_e, ← gram_e] at this
    exact this
  have hAtr : A ≤ G 0 0 + G 1 1 + G 2 2 := (camax_real G _).2 fun i j => by
    have h1 := hij i j
    have h0 := hnn 0
    have h1' := hnn 1
    have h2' := hnn 2
    fin_cases i <;> fin_cases j <;> simp only [Fin.zero_eta, Fin.mk_one, Fin.reduceFinMk] at h1 ⊢ <;> linarith
  have hA0 : 0 < A := by
    have h1 := (le_abs_self _).trans (hle 0 0)
    have h2 := (le_abs_self _).trans (hle 1 1)
    have : 0 < N ^ 2 := by positivity
    linarith
  set S' : Mat 3 3 ℝ := fun r c => G r c / A with hS'
  have hsym : ∀ i j, S' i j = S' j i := fun i j => by
    simp only [hS', hG, gram]; rw [tailDot_comm]
  set T := (G 0 0 + G 1 1 + G 2 2) / A with hT
  have hbil : ∀ u v, bil (Matrix.of S') u v = (M *ᵥ u) ⬝ᵥ (M *ᵥ v) / A := fun u v => by
    rw [hS', bil_div, hG, bil_gram]
  have g : Gram (Matrix.of S') T := by
    refine ⟨?_, ?_, ?_, ?_⟩
    · ext i j; exact hsym j i
    · intro u; rw [hbil]; exact div_nonneg (dot_self_nonneg _) hA0.le
    · intro u v w hf
      rw [hf.trace]
      simp only [Matrix.of_apply, hS', hT]; ring
    · rw [hT, le_div_iff₀ hA0, one_mul]; exact hAtr
  have hT3 : T ≤ 3 := by
    rw [hT, div_le_iff₀ hA0]
    have h0 := (le_abs_self _).trans (hle 0 0)
    have h1 := (le_abs_self _).trans (hle 1 1)
    have h2 := (le_abs_self _).trans (hle 2 2)
    linarith
  have hfull : Full (Matrix.of S') (tridiag S') := tridiag_full hsym
  have hoff : ∀ u v w, Frame u v w → |bil (Matrix.of S') u v| ≤ 3 / 2 := by
    intro u v w hf
    have h1 := abs_dot_le_add (M *ᵥ u) (M *ᵥ v)
    have h2 := g.trace u v w hf
    have h3 := g.nonneg w
    rw [hbil, abs_div, abs_of_pos hA0]
    rw [hbil, hbil] at h2
    have h4 : 2 * (|M *ᵥ u ⬝ᵥ M *ᵥ v| / A) ≤ (M *ᵥ u) ⬝ᵥ (M *ᵥ u) / A + (M *ᵥ v) ⬝ᵥ (M *ᵥ v) / A := by
      rw [← add_div, ← mul_div_assoc]; exact div_le_div_of_nonneg_right h1 hA0.le
    linarith
  have hsize : size (tridiag S') ≤ 729 / 64 := by
    have h0 := hoff _ _ _ hfull.frame
    have h1 := hoff _ _ _ hfull.frame.rotate
    rw [hfull.o0] at h0
    rw [hfull.o1] at h1
    have a0 : (tridiag S').off 0 ^ 2 ≤ (3 / 2) ^ 2 := by
      rw [← sq_abs]; exact pow_le_pow_left₀ (abs_nonneg _) h0 2
    have a1 : (tridiag S').off 1 ^ 4 ≤ (3 / 2) ^ 4 := by
      have : (tridiag S').off 1 ^ 4 = |(tridiag S').off 1| ^ 4 := by rw [← abs_pow, abs_of_nonneg (by positivity)]
      rw [this]; exact pow_le_pow_left₀ (abs_nonneg _) h1 4
    calc size (tridiag S') ≤ (3 / 2) ^ 2 * (3 / 2) ^ 4 := mul_le_mul a0 a1 (by positivity) (by positivity)
      _ = 729 / 64 := by norm_num
  obtain ⟨t, ht⟩ := loop_converges g cutoff_pos (s := 1 / 2) (by norm_num) (fun u v w hf => by
      rw [hbil, hbil, ← add_div, le_div_iff₀ hA0]
      have := h.two u v w hf
      linarith) 98 hfull (by
      refine (mul_le_mul_of_nonneg_right hsize (by positivity)).trans ?_
      rw [cutoff]; norm_num)
  have hnear := loop_near g cutoff_pos _ hfull ht
  refine ⟨fun r c => t.q r c, ?_, hnear.frame, ?_⟩
  · have hA' : (decide (A = 0)) = false := decide_eq_false hA0.ne'
    simp only [eigenvectors, beq_real, ← hA, hA', ← hS']
    rw [if_neg (by decide), ht]; rfl
  · have hb : ∀ u v, |bil (Matrix.of S') u v| ≤ cutoff * T → |(M *ᵥ u) ⬝ᵥ (M *ᵥ v)| ≤ 3 * cutoff * N ^ 2 := by
      intro u v huv
      rw [hbil, abs_div, abs_of_pos hA0, div_le_iff₀ hA0] at huv
      have : cutoff * T * A = cutoff * (G 0 0 + G 1 1 + G 2 2) := by rw [hT]; field_simp
      rw [this] at huv
      refine huv.trans ?_
      have h0 := hself 0
      have h1 := hself 1
      have h2 := hself 2
      have := cutoff_pos
      nlinarith
    have huv := hb _ _ hnear.uv
    have huw := hb _ _ hnear.uw
    have hvw := hb _ _ hnear.vw
    have hvu := huv
    have hwu := huw
    have hwv := hvw
    rw [dotProduct_comm] at hvu hwu hwv
    intro i j hne
    fin_cases i <;> fin_cases j <;> first | exact absurd rfl hne | assumption

/-! ### Ordering the columns -/

/-- The relation of `b` and `v` during the ordering: `b = M v`, the columns of `v` are orthonormal, those of `b`
nearly orthogonal. -/
structure Pair (M : Matrix (Fin 3) (Fin 3) ℝ) (δ : ℝ) (bv : Mat 3 3 ℝ × Mat 3 3 ℝ) : Prop where
  eq : ∀ c, (fun r => bv.1 r c) = M *ᵥ fun r => bv.2 r c
  frame : ∀ i j, (fun r => bv.2 r i) ⬝ᵥ (fun r => bv.2 r j) = if i = j then 1 else 0
  near : ∀ i j, i ≠ j → |(fun r => bv.1 r i) ⬝ᵥ fun r => bv.1 r j| ≤ δ

theorem colSq_eq (m : Mat 3 3 ℝ) (c : Fin 3) : colSq m c = (fun r => m r c) ⬝ᵥ fun r => m r c := by
  simp [colSq, tailDot, dotProduct, Fin.sum_univ_three]

theorem Pair.swap {δ : ℝ} {bv : Mat 3 3 ℝ × Mat 3 3 ℝ} (h : Pair M δ bv) {i j : Fin 3} (hij : i ≠ j) :
    Pair M δ (swapNeg i j bv.1, swapNeg i j bv.2) := by
  have col : ∀ (m : Mat 3 3 ℝ) c, (fun r => swapNeg i j m r c) =
      if c = i then (fun r => m r j) else if c = j then -(fun r => m r i) else fun r => m r c := by
    intro m c
    funext r
    simp only [swapNeg]
    split
    · rfl
    · split <;> rfl
  refine ⟨fun c => ?_, fun a b => ?_, fun a b hab => ?_⟩
  · simp only [col]
    split
    · exact h.eq j
    · split
      · rw [mulVec_neg, h.eq i]
      · exact h.eq c
  · simp only [col]
    by_cases ha : a = i <;> by_cases hb : b = i <;> by_cases ha' : a = j <;> by_cases hb' : b = j <;>
      simp_all [h.frame, eq_comm]
  · simp only [col]
    have hn := h.near
    by_cases ha : a = i <;> by_cases hb : b = i <;> by_cases ha' : a = j <;> by_cases hb' : b = j <;>
      simp_all [eq_comm]

theorem Pair.order {δ : ℝ} {bv : Mat 3 3 ℝ × Mat 3 3 ℝ} (h : Pair M δ bv) {i j : Fin 3} (hij : i ≠ j) :
    Pair M δ (order i j bv) := by
  unfold Svd3.order
  split
  · exact h.swap hij
  · exact h

theorem colSq_swap (m : Mat 3 3 ℝ) (i j c : Fin 3) :
    colSq (swapNeg i j m) c = if c = i then colSq m j else if c = j then colSq m i else colSq m c := by
  simp only [colSq, tailDot, swapNeg, if_true]
  split
  · rfl
  · split
    · ring
    · rfl

theorem colSq_order (bv : Mat 3 3 ℝ × Mat 3 3 ℝ) {i j : Fin 3} (hij : i ≠ j) :
    colSq (order i j bv).1 i = max (colSq bv.1 i) (colSq bv.1 j) ∧
    colSq (order i j bv).1 j = min (colSq bv.1 i) (colSq bv.1 j) ∧
    ∀ c, c ≠ i → c ≠ j → colSq (order i j bv).1 c = colSq bv.1 c := by
  unfold Svd3.order
  rw [lt_real]
  by_cases h : colSq bv.1 i < colSq bv.1 j
  · rw [if_pos (decide_eq_true h)]
    simp only [colSq_swap]
    refine ⟨by simp [h.le], by simp [hij.symm, h.le], fun c h1 h2 => by simp [h1, h2]⟩
  · rw [if_neg (by simpa using h)]
    have h' := not_lt.1 h
    exact ⟨(max_eq_left h').symm, (min_eq_right h').symm, fun _ _ _ => rfl⟩

/-- After the three comparisons the columns are sorted by length. -/
theorem ordered (bv : Mat 3 3 ℝ × Mat 3 3 ℝ) :
    let b := (order 1 2 (order 0 2 (order 0 1 bv))).1
    colSq b 2 ≤ colSq b 1 ∧ colSq b 1 ≤ colSq b 0 := by
  obtain ⟨a0, a1, a2⟩ := colSq_order bv (i := 0) (j := 1) (by decide)
  obtain ⟨b0, b1, b2⟩ := colSq_order (order 0 1 bv) (i := 0) (j := 2) (by decide)
  obtain ⟨c0, c1, c2⟩ := colSq_order (order 0 2 (order 0 1 bv)) (i := 1) (j := 2) (by decide)
  have a2 := a2 2 (by decide) (by decide)
  have b2 := b2 1 (by decide) (by decide)
  have c2 := c2 0 (by decide) (by decide)
  intro b
  rw [c0, c1, c2, b0, b1, b2, a0, a1, a2]
  refine ⟨min_le_max, ?_⟩
  rw [max_le_iff]
  exact ⟨min_le_max.trans (le_max_left _ _), min_le_max⟩

/-! ### The decomposition -/

/-- The off-diagonal part of the triangular factor of three nearly orthogonal columns, the first two of which
are not short. -/
theorem off_small {N c r00 r01 r02 r11 r12 : ℝ} (hN : 0 < N) (hc : 0 < c) (hc1 : c ≤ 1 / 10000000)
    (h0 : N ^ 2 / 4 ≤ r00 ^ 2) (h1 : N ^ 2 / 4 ≤ r01 ^ 2 + r11 ^ 2) (h01 : |r00 * r01| ≤ 3 * c * N ^ 2)
    (h02 : |r00 * r02| ≤ 3 * c * N ^ 2) (h12 : |r01 * r02 + r11 * r12| ≤ 3 * c * N ^ 2) :
    2499 / 10000 * N ^ 2 ≤ r11 ^ 2 ∧ r01 ^ 2 + r02 ^ 2 + r12 ^ 2 ≤ (11 * c * N) ^ 2 := by
  have hN2 : 0 < N ^ 2 := by positivity
  have key : ∀ {x y q d : ℝ}, 0 < q → q * N ^ 2 ≤ x ^ 2 → |x * y| ≤ d * N ^ 2 → y ^ 2 * q ≤ d ^ 2 * N ^ 2 := by
    intro x y q d hq hx hxy
    have e := sq_le_sq' (by have := neg_abs_le (x * y); linarith) ((le_abs_self _).trans hxy)
    have e1 : q * N ^ 2 * y ^ 2 ≤ x ^ 2 * y ^ 2 := mul_le_mul_of_nonneg_right hx (sq_nonneg y)
    have e2 : (y ^ 2 * q) * N ^ 2 ≤ (d ^ 2 * N ^ 2) * N ^ 2 := by nlinarith
    exact le_of_mul_le_mul_right e2 hN2
  have k01 := key (q := 1 / 4) (by norm_num) (by linarith) h01
  have k02 := key (q := 1 / 4) (by norm_num) (by linarith) h02
  have hcc : c ^ 2 ≤ c / 10000000 := by nlinarith
  have h11 : 2499 / 10000 * N ^ 2 ≤ r11 ^ 2 := by
    have : (3 * c) ^ 2 * N ^ 2 ≤ 9 / 100000000000000 * N ^ 2 :=
      mul_le_mul_of_nonneg_right (by nlinarith) hN2.le
    linarith
  have hp : |r01 * r02| ≤ 36 * c ^ 2 * N ^ 2 := by
    rw [abs_le]
    constructor <;> nlinarith [sq_nonneg (r01 + r02), sq_nonneg (r01 - r02)]
  have h12' : |r11 * r12| ≤ 301 / 100 * c * N ^ 2 := by
    have e : r11 * r12 = (r01 * r02 + r11 * r12) - r01 * r02 := by ring
    have e1 := abs_sub (r01 * r02 + r11 * r12) (r01 * r02)
    rw [← e] at e1
    have : 36 * c ^ 2 * N ^ 2 ≤ 1 / 100 * c * N ^ 2 := mul_le_mul_of_nonneg_right (by linarith) hN2.le
    linarith
  have k12 := key (q := 2499 / 10000) (by norm_num) h11 h12'
  have hcn : 0 < c ^ 2 * N ^ 2 := by positivity
  exact ⟨h11, by nlinarith⟩

/-- `M = Q T Wᵀ` with orthogonal `Q` and `W` and `T` upper triangular, almost diagonal. -/
structure Dec (M : Matrix (Fin 3) (Fin 3) ℝ) (N : ℝ) (Q T W : Matrix (Fin 3) (Fin 3) ℝ) : Prop where
  q : Q.transpose * Q = 1
  w : W.transpose * W = 1
  t10 : T 1 0 = 0
  t20 : T 2 0 = 0
  t21 : T 2 1 = 0
  nonneg : ∀ i, 0 ≤ T i i
  eq : M = Q * T * W.transpose
  big0 : 2499 / 10000 * N ^ 2 ≤ T 0 0 ^ 2
  big1 : 2499 / 10000 * N ^ 2 ≤ T 1 1 ^ 2
  off : T 0 1 ^ 2 + T 0 2 ^ 2 + T 1 2 ^ 2 ≤ (11 * cutoff * N) ^ 2

/-- nalgebra's SVD of such a matrix converges. -/
theorem svd_dec (h : TwoBig M N) :
    ∃ Q T W, Dec M N Q T W ∧ svd (Matrix.of.symm M) true true cutoff 100 = some
      { u := some (Matrix.of.symm Q), vT := some (Matrix.of.symm W.transpose)
        singularValues := fun i => T i i } := by
  obtain ⟨V, hV, hf, hn⟩ := eigenvectors_spec h
  have hN := h.pos
  set δ := 3 * cutoff * N ^ 2 with hδ
  -- the invariant, before and after the ordering
  have hP0 : Pair M δ (Mat.mul3 (Matrix.of.symm M) V, V) := by
    have hb : ∀ c, (fun r => Mat.mul3 (Matrix.of.symm M) V r c) = M *ᵥ fun r => V r c := by
      intro c; funext r
      simp [Mat.mul3, mulVec, dotProduct, Fin.sum_univ_three]
    refine ⟨hb, fun i j => ?_, fun i j hij => ?_⟩
    · have vu := (dotProduct_comm _ _).trans hf.uv
      have wu := (dotProduct_comm _ _).trans hf.uw
      have wv := (dotProduct_comm _ _).trans hf.vw
      fin_cases i <;> fin_cases j <;> simp [hf.uu, hf.vv, hf.ww, hf.uv, hf.uw, hf.vw, vu, wu, wv]
    · rw [hb, hb]; exact hn i j hij
  have hP := ((hP0.order (i := 0) (j := 1) (by decide)).order (i := 0) (j := 2) (by decide)).order
    (i := 1) (j := 2) (by decide)
  have ho := ordered (Mat.mul3 (Matrix.of.symm M) V, V)
  have hd : svd (Matrix.of.symm M) true true cutoff 100 = some
      { u := some (Householder.q (qrNew (order 1 2 (order 0 2 (order 0 1
            (Mat.mul3 (Matrix.of.symm M) V, V)))).1))
        vT := some (Mat.transpose' (order 1 2 (order 0 2 (order 0 1 (Mat.mul3 (Matrix.of.symm M) V, V)))).2)
        singularValues := fun i => Scalar.abs ((qrNew (order 1 2 (order 0 2 (order 0 1
            (Mat.mul3 (Matrix.of.symm M) V, V)))).1).2 i) } := by
    have hV' : eigenvectors (fun i j => tailDot 0 (fun k => (Matrix.of.symm M) k i) fun k =>
        (Matrix.of.symm M) k j) cutoff 100 = some V := hV
    simp only [svd, hV']
    rfl
  rw [hd]
  generalize order 1 2 (order 0 2 (order 0 1 (Mat.mul3 (Matrix.of.symm M) V, V))) = BW at hP ho
  obtain ⟨B, W⟩ := BW
  simp only at hP ho ⊢
  obtain ⟨hQ, hlow, hQR, hpos⟩ := householder_qr B
  have hq1 : Householder.q (qrNew B) = (Householder.qr B).1 := rfl
  have hr1 : ∀ i, Scalar.abs ((qrNew B).2 i) = (Householder.qr B).2 i i := by
    intro i; simp [Householder.qr, Householder.r]
  rw [hq1]
  simp only [hr1]
  generalize (Householder.qr B).1 = Q at *
  generalize (Householder.qr B).2 = T at *
  have hW : (Matrix.of W).transpose * Matrix.of W = 1 := by
    ext i j
    rw [mul_apply, one_apply]
    exact hP.frame i j
  have hW' := mul_eq_one_comm.1 hW
  have hWt : Matrix.of (Mat.transpose' W) = (Matrix.of W).transpose := by ext i j; rfl
  have hB : Matrix.of B = M * Matrix.of W := by
    ext i j
    exact congrFun (hP.eq j) i
  have hM : M = Matrix.of Q * Matrix.of T * (Matrix.of W).transpose := by
    rw [hQR, hB, Matrix.mul_assoc, hW', Matrix.mul_one]
  -- the Gram matrix of the triangular factor
  have hG : ∀ i j, (fun r => B r i) ⬝ᵥ (fun r => B r j) = (fun r => T r i) ⬝ᵥ (fun r => T r j) := by
    intro i j
    have e : (Matrix.of B).transpose * Matrix.of B = (Matrix.of T).transpose * Matrix.of T := by
      rw [← hQR, transpose_mul, Matrix.mul_assoc, ← Matrix.mul_assoc _ (Matrix.of Q), hQ, Matrix.one_mul]
    exact congrFun (congrFun e i) j
  have t10 : T 1 0 = 0 := hlow 1 0 (by decide)
  have t20 : T 2 0 = 0 := hlow 2 0 (by decide)
  have t21 : T 2 1 = 0 := hlow 2 1 (by decide)
  have fr : Frame (fun r => W r 0) (fun r => W r 1) (fun r => W r 2) :=
    ⟨by simpa using hP.frame 0 0, by simpa using hP.frame 1 1, by simpa using hP.frame 2 2,
      by simpa using hP.frame 0 1, by simpa using hP.frame 0 2, by simpa using hP.frame 1 2⟩
  have fr' : Frame (fun r => W r 1) (fun r => W r 2) (fun r => W r 0) :=
    ⟨fr.vv, fr.ww, fr.uu, fr.vw, (dotProduct_comm _ _).trans fr.uv, (dotProduct_comm _ _).trans fr.uw⟩
  have b1 := h.two _ _ _ fr
  have b2 := h.two _ _ _ fr'
  rw [← hP.eq 0, ← hP.eq 1] at b1
  rw [← hP.eq 1, ← hP.eq 2] at b2
  rw [colSq_eq, colSq_eq, colSq_eq] at ho
  have n01 := hP.near 0 1 (by decide)
  have n02 := hP.near 0 2 (by decide)
  have n12 := hP.near 1 2 (by decide)
  simp only at n01 n02 n12 b1 b2
  have g00 := hG 0 0
  have g11 := hG 1 1
  rw [hG 0 1] at n01
  rw [hG 0 2] at n02
  rw [hG 1 2] at n12
  simp only [dotProduct, Fin.sum_univ_three, t10, t20, t21, mul_zero, zero_mul, add_zero] at n01 n02 n12
  have v00 : (fun r => T r 0) ⬝ᵥ (fun r => T r 0) = T 0 0 ^ 2 := by
    simp [dotProduct, Fin.sum_univ_three, t10, t20]; ring
  have v11 : (fun r => T r 1) ⬝ᵥ (fun r => T r 1) = T 0 1 ^ 2 + T 1 1 ^ 2 := by
    simp [dotProduct, Fin.sum_univ_three, t21]; ring
  have hoff := off_small (N := N) (c := cutoff) (r00 := T 0 0) (r01 := T 0 1) (r02 := T 0 2) (r11 := T 1 1)
    (r12 := T 1 2) hN cutoff_pos (by rw [cutoff]) (by rw [← v00, ← g00]; linarith [ho.1, ho.2])
    (by rw [← v11, ← g11]; linarith [ho.1]) n01 n02 n12
  refine ⟨Matrix.of Q, Matrix.of T, Matrix.of W, ⟨hQ, hW, t10, t20, t21, hpos, hM, ?_, hoff.1, hoff.2⟩, ?_⟩
  · change _ ≤ T 0 0 ^ 2
    rw [← v00, ← g00]; nlinarith [ho.1, ho.2]
  · rfl

/-- The computed decomposition belongs to a matrix that is close to the given one. -/
theorem Dec.error {Q T W : Matrix (Fin 3) (Fin 3) ℝ} (h : Dec M N Q T W) (hN : 0 < N) (w : Vec) :
    len ((Q * Matrix.diagonal (fun i => T i i) * W.transpose) *ᵥ w - M *ᵥ w) ≤ 11 * cutoff * N * len w := by
  have hW' := mul_eq_one_comm.1 h.w
  set y := W.transpose *ᵥ w with hy
  have hyl : y ⬝ᵥ y = w ⬝ᵥ w := by
    rw [hy, dotProduct_mulVec, vecMul_transpose, mulVec_mulVec, hW', one_mulVec]
  have he : (Q * Matrix.diagonal (fun i => T i i) * W.transpose) *ᵥ w - M *ᵥ w =
      Q *ᵥ (Matrix.diagonal (fun i => T i i) *ᵥ y - T *ᵥ y) := by
    rw [h.eq, mulVec_sub, hy]
    simp only [mulVec_mulVec, Matrix.mul_assoc]
  rw [he]
  refine le_of_sq_le_sq ?_ (mul_nonneg (by have := cutoff_pos; positivity) (len_nonneg w))
  rw [len_sq, orth_dot h.q, mul_pow, len_sq, ← hyl]
  refine le_trans ?_ (mul_le_mul_of_nonneg_right h.off (dot_self_nonneg y))
  have z0 : (Matrix.diagonal (fun i => T i i) *ᵥ y - T *ᵥ y) 0 = -(T 0 1 * y 1 + T 0 2 * y 2) := by
    simp [mulVec, dotProduct, Fin.sum_univ_three]; ring
  have z1 : (Matrix.diagonal (fun i => T i i) *ᵥ y - T *ᵥ y) 1 = -(T 1 2 * y 2) := by
    simp [mulVec, dotProduct, Fin.sum_univ_three, h.t10]
  have z2 : (Matrix.diagonal (fun i => T i i) *ᵥ y - T *ᵥ y) 2 = 0 := by
    simp [mulVec, dotProduct, Fin.sum_univ_three, h.t20, h.t21]
  generalize Matrix.diagonal (fun i => T i i) *ᵥ y - T *ᵥ y = z at z0 z1 z2
  simp only [dotProduct, Fin.sum_univ_three, z0, z1, z2]
  nlinarith [sq_nonneg (T 0 1 * y 2 - T 0 2 * y 1), sq_nonneg (T 0 1 * y 0), sq_nonneg (T 0 2 * y 0),
    sq_nonneg (T 1 2 * y 0), sq_nonneg (T 1 2 * y 1)]

/-- `my_pinv` with nalgebra's SVD. -/
theorem pinv_dec (h : TwoBig M N) :
    ∃ Q T W p, Dec M N Q T W ∧ myPinv svd (Matrix.of.symm M) = .ok p ∧
      Matrix.of p = W * Matrix.diagonal (fun i => if cutoff < T i i then 1 / T i i else 0) * Q.transpose := by
  obtain ⟨Q, T, W, hd, hs⟩ := svd_dec h
  have hlit : (Scalar.lit (1 / 10000000) : ℝ) = cutoff := by rw [lit_real]; norm_num [cutoff]
  have hz : Scalar.lt cutoff (0 : ℝ) = false := by
    rw [lt_real, decide_eq_false_iff_not]; exact not_lt.2 cutoff_pos.le
  unfold myPinv
  rw [hlit, hs]
  simp only [Outcome.okOr, bind, Outcome.bind, SVD.pseudoInverse]
  rw [if_neg (by rw [hz]; decide), pinv_loop]
  simp only [SVD.recompose, Except.bind, Outcome.unwrapResult, pure, Except.pure]
  refine ⟨Q, T, W, _, hd, rfl, ?_⟩
  ext i j
  simp only [Mat.transpose', Mat.mul3, Matrix.of_apply, Matrix.mul_apply, diagonal_apply,
    transpose_apply, Fin.sum_univ_three]
  simp
  ring_nf

/-- The error of the solution computed with the pseudo-inverse if no singular value is near the cut-off. -/
theorem pinv_accuracy (h : TwoBig M N) {κ : ℝ} (hκ : ∀ w : Vec, κ * len w ≤ len (M *ᵥ w))
    (hc : cutoff < κ - 11 * cutoff * N) :
    ∃ p, myPinv svd (Matrix.of.symm M) = .ok p ∧ ∀ x : Vec,
      len (Matrix.of p *ᵥ (M *ᵥ x) - x) ≤ 11 * cutoff * N / (κ - 11 * cutoff * N) * len x := by
  obtain ⟨Q, T, W, p, hd, hp, hpe⟩ := pinv_dec h
  refine ⟨p, hp, fun x => ?_⟩
  have hpos : 0 < κ - 11 * cutoff * N := cutoff_pos.trans hc
  have hst : ∀ w : Vec, (κ - 11 * cutoff * N) * len w ≤
      len ((Q * Matrix.diagonal (fun i => T i i) * W.transpose) *ᵥ w) := by
    intro w
    have h1 := hκ w
    have h2 := len_add_le ((Q * Matrix.diagonal (fun i => T i i) * W.transpose) *ᵥ w)
      (-((Q * Matrix.diagonal (fun i => T i i) * W.transpose) *ᵥ w - M *ᵥ w))
    rw [len_neg, neg_sub, add_sub_cancel] at h2
    have := hd.error h.pos w
    linarith
  have hW' := mul_eq_one_comm.1 hd.w
  have hQ' := mul_eq_one_comm.1 hd.q
  have hT : ∀ i, cutoff < T i i := by
    intro i
    have h1 := hst (W *ᵥ Pi.single i 1)
    have h2 : (Q * Matrix.diagonal (fun i => T i i) * W.transpose) *ᵥ (W *ᵥ Pi.single i 1) =
        Q *ᵥ (T i i • Pi.single i 1) := by
      rw [mulVec_mulVec, Matrix.mul_assoc, Matrix.mul_assoc, hd.w, Matrix.mul_one, ← mulVec_mulVec]
      congr 1
      funext j
      rw [mulVec_diagonal]
      by_cases hj : j = i
      · subst hj; simp
      · simp [hj]
    have h3 : len (Pi.single i 1 : Vec) = 1 := by simp [len_eq]
    have h4 : ∀ {A : Matrix (Fin 3) (Fin 3) ℝ}, A.transpose * A = 1 → ∀ w : Vec, len (A *ᵥ w) = len w :=
      fun hA w => by rw [len_eq, len_eq, orth_dot hA]
    rw [h2, h4 hd.q, h4 hd.w, len_smul, h3, abs_of_nonneg (hd.nonneg i)] at h1
    linarith
  have hpM : Matrix.of p * (Q * Matrix.diagonal (fun i => T i i) * W.transpose) = 1 := by
    rw [hpe]
    calc W * Matrix.diagonal (fun i => if cutoff < T i i then 1 / T i i else 0) * Q.transpose *
          (Q * Matrix.diagonal (fun i => T i i) * W.transpose)
        = W * Matrix.diagonal (fun i => if cutoff < T i i then 1 / T i i else 0) * (Q.transpose * Q) *
          Matrix.diagonal (fun i => T i i) * W.transpose := by simp only [Matrix.mul_assoc]
      _ = 1 := by
        rw [hd.q, Matrix.mul_one, Matrix.mul_assoc W, diagonal_mul_diagonal]
        have : (fun i => (if cutoff < T i i then 1 / T i i else 0) * T i i) = fun _ => (1 : ℝ) := by
          funext i
          rw [if_pos (hT i), one_div, inv_mul_cancel₀ (cutoff_pos.trans (hT i)).ne']
        rw [this, diagonal_one, Matrix.mul_one, hW']
  have hMp := mul_eq_one_comm.1 hpM
  have e1 : Matrix.of p *ᵥ (M *ᵥ x) - x = -(Matrix.of p *ᵥ
      ((Q * Matrix.diagonal (fun i => T i i) * W.transpose) *ᵥ x - M *ᵥ x)) := by
    rw [mulVec_sub, mulVec_mulVec _ (Matrix.of p) (_ * _), hpM, one_mulVec, neg_sub]
  rw [e1, len_neg, div_mul_eq_mul_div, le_div_iff₀ hpos, mul_comm]
  refine (hst _).trans ?_
  rw [mulVec_mulVec, hMp, one_mulVec]
  exact hd.error h.pos x

theorem root_bound {N t : ℝ} (hN : 0 < N) (h : 0 ≤ t) (b : 2499 / 10000 * N ^ 2 ≤ t ^ 2) :
    4998 / 10000 * N ≤ t := by
  refine le_of_sq_le_sq ?_ h
  have : 0 < N ^ 2 := by positivity
  rw [mul_pow]
  norm_num
  linarith

theorem small_of_mul {N t y : ℝ} (hN : 0 < N) (ht : 4998 / 10000 * N ≤ t)
    (hty : |t * y| ≤ 1150 / 1000000000 * N) : |y| ≤ 24 / 10000000 := by
  have ht0 : 0 < t := by linarith
  rw [abs_mul, abs_of_pos ht0] at hty
  have h1 : 4998 / 10000 * N * |y| ≤ t * |y| := mul_le_mul_of_nonneg_right ht (abs_nonneg y)
  have h2 : N * (4998 / 10000 * |y|) ≤ N * (1150 / 1000000000) := by linarith
  have h3 := le_of_mul_le_mul_left h2 hN
  linarith

theorem cauchy2 {a b x y B C : ℝ} (h1 : a ^ 2 + b ^ 2 ≤ B ^ 2) (h2 : x ^ 2 + y ^ 2 ≤ C ^ 2) (hB : 0 ≤ B) (hC : 0 ≤ C) :
    |a * x + b * y| ≤ B * C := by
  refine abs_le_of_sq_le_sq ?_ (mul_nonneg hB hC)
  have e : (a * x + b * y) ^ 2 ≤ (a ^ 2 + b ^ 2) * (x ^ 2 + y ^ 2) := by
    nlinarith [sq_nonneg (a * y - b * x)]
  rw [mul_pow]
  exact e.trans (mul_le_mul h1 h2 (by positivity) (by positivity))

theorem prod_le {a b B L : ℝ} (ha : |a| ≤ L) (hb : |b| ≤ B) : |a * b| ≤ B * L := by
  rw [abs_mul, mul_comm B]
  exact mul_le_mul ha hb (abs_nonneg _) ((abs_nonneg a).trans ha)

/-- The components, along the computed singular directions, of a direction that `M` nearly annihilates. -/
theorem drop_angle {N t00 t01 t02 t11 t12 t22 y0 y1 y2 : ℝ} (hN : 2 ≤ N) (h0 : 0 ≤ t00) (h1 : 0 ≤ t11)
    (h2 : 0 ≤ t22) (b0 : 2499 / 10000 * N ^ 2 ≤ t00 ^ 2) (b1 : 2499 / 10000 * N ^ 2 ≤ t11 ^ 2)
    (off : t01 ^ 2 + t02 ^ 2 + t12 ^ 2 ≤ (11 / 10000000 * N) ^ 2) (hy : y0 ^ 2 + y1 ^ 2 + y2 ^ 2 = 1)
    (hs : (t00 * y0 + t01 * y1 + t02 * y2) ^ 2 + (t11 * y1 + t12 * y2) ^ 2 + (t22 * y2) ^ 2 ≤
      (99 / 1000000000) ^ 2) :
    |y0| ≤ 24 / 10000000 ∧ |y1| ≤ 24 / 10000000 ∧ t22 ≤ 1 / 10000000 := by
  have hN0 : 0 < N := by linarith
  have g0 := root_bound hN0 h0 b0
  have g1 := root_bound hN0 h1 b1
  have o01 := sq_nonneg t01
  have o02 := sq_nonneg t02
  have o12 := sq_nonneg t12
  have u0 := sq_nonneg y0
  have u1 := sq_nonneg y1
  have a0 : |t01 * y1 + t02 * y2| ≤ 11 / 10000000 * N * 1 :=
    cauchy2 (by linarith) (by linarith) (by positivity) zero_le_one
  have a1 : |t12 * y2 + 0 * 0| ≤ 11 / 10000000 * N * 1 :=
    cauchy2 (by linarith) (by linarith) (by positivity) zero_le_one
  rw [mul_zero, add_zero] at a1
  have r0 := sq_nonneg (t00 * y0 + t01 * y1 + t02 * y2)
  have r1 := sq_nonneg (t11 * y1 + t12 * y2)
  have r2 := sq_nonneg (t22 * y2)
  have s0 : |t00 * y0 + t01 * y1 + t02 * y2| ≤ 99 / 1000000000 := abs_le_of_sq_le_sq (by linarith) (by norm_num)
  have s1 : |t11 * y1 + t12 * y2| ≤ 99 / 1000000000 := abs_le_of_sq_le_sq (by linarith) (by norm_num)
  have s2 : |t22 * y2| ≤ 99 / 1000000000 := abs_le_of_sq_le_sq (by linarith) (by norm_num)
  have y0b : |y0| ≤ 24 / 10000000 := by
    refine small_of_mul hN0 g0 ?_
    have e : t00 * y0 = (t00 * y0 + t01 * y1 + t02 * y2) - (t01 * y1 + t02 * y2) := by ring
    have e1 := abs_sub (t00 * y0 + t01 * y1 + t02 * y2) (t01 * y1 + t02 * y2)
    rw [← e] at e1
    linarith
  have y1b : |y1| ≤ 24 / 10000000 := by
    refine small_of_mul hN0 g1 ?_
    have e : t11 * y1 = (t11 * y1 + t12 * y2) - t12 * y2 := by ring
    have e1 := abs_sub (t11 * y1 + t12 * y2) (t12 * y2)
    rw [← e] at e1
    linarith
  refine ⟨y0b, y1b, ?_⟩
  have q0 : y0 ^ 2 ≤ (24 / 10000000) ^ 2 := by
    rw [← sq_abs]; exact pow_le_pow_left₀ (abs_nonneg _) y0b 2
  have q1 : y1 ^ 2 ≤ (24 / 10000000) ^ 2 := by
    rw [← sq_abs]; exact pow_le_pow_left₀ (abs_nonneg _) y1b 2
  have q2 : 995 / 1000 ≤ |y2| := by
    refine le_of_sq_le_sq ?_ (abs_nonneg _)
    rw [sq_abs]; norm_num at q0 q1 ⊢; linarith
  rw [abs_mul, abs_of_nonneg h2] at s2
  have := mul_le_mul_of_nonneg_left q2 h2
  linarith

/-- The components of the difference between the computed point and the projected one. -/
theorem drop_error {N t00 t01 t02 t11 t12 y0 y1 y2 x0 x1 x2 : ℝ} (hN : 2 ≤ N) (h0 : 0 ≤ t00) (h1 : 0 ≤ t11)
    (b0 : 2499 / 10000 * N ^ 2 ≤ t00 ^ 2) (b1 : 2499 / 10000 * N ^ 2 ≤ t11 ^ 2)
    (off : t01 ^ 2 + t02 ^ 2 + t12 ^ 2 ≤ (11 / 10000000 * N) ^ 2) (hy : y0 ^ 2 + y1 ^ 2 + y2 ^ 2 = 1)
    (hy0 : |y0| ≤ 24 / 10000000) (hy1 : |y1| ≤ 24 / 10000000) :
    ((t01 * x1 + t02 * x2) / t00 + (y0 * x0 + y1 * x1 + y2 * x2) * y0) ^ 2 +
      ((t12 * x2 + 0 * 0) / t11 + (y0 * x0 + y1 * x1 + y2 * x2) * y1) ^ 2 +
      ((y0 * x0 + y1 * x1 + y2 * x2) * y2 - x2) ^ 2 ≤ (1 / 100000) ^ 2 * (x0 ^ 2 + x1 ^ 2 + x2 ^ 2) := by
  have hN0 : 0 < N := by linarith
  have g0 := root_bound hN0 h0 b0
  have g1 := root_bound hN0 h1 b1
  obtain ⟨L, hL0, hL2⟩ : ∃ L : ℝ, 0 ≤ L ∧ L ^ 2 = x0 ^ 2 + x1 ^ 2 + x2 ^ 2 :=
    ⟨_, Real.sqrt_nonneg _, Real.sq_sqrt (by positivity)⟩
  rw [← hL2]
  have o01 := sq_nonneg t01
  have o02 := sq_nonneg t02
  have o12 := sq_nonneg t12
  have u0 := sq_nonneg x0
  have u1 := sq_nonneg x1
  have u2 := sq_nonneg x2
  have c0 : |t01 * x1 + t02 * x2| ≤ 11 / 10000000 * N * L :=
    cauchy2 (by linarith) (by linarith) (by positivity) hL0
  have c1 : |t12 * x2 + 0 * 0| ≤ 11 / 10000000 * N * L :=
    cauchy2 (by linarith) (by linarith) (by positivity) hL0
  have dv : ∀ {a t : ℝ}, 4998 / 10000 * N ≤ t → |a| ≤ 11 / 10000000 * N * L → |a / t| ≤ 23 / 10000000 * L := by
    intro a t ht ha
    have ht0 : 0 < t := by linarith
    rw [abs_div, abs_of_pos ht0, div_le_iff₀ ht0]
    have h1 := mul_le_mul_of_nonneg_left ht (show 0 ≤ 23 / 10000000 * L by positivity)
    have h2 := mul_nonneg hN0.le hL0
    refine ha.trans (le_trans ?_ h1)
    linarith
  have d0 := dv g0 c0
  have d1 := dv g1 c1
  have p1 : |y0 * x0 + y1 * x1 + y2 * x2| ≤ L := by
    refine abs_le_of_sq_le_sq ?_ hL0
    rw [hL2]
    have : (y0 * x0 + y1 * x1 + y2 * x2) ^ 2 ≤ (y0 ^ 2 + y1 ^ 2 + y2 ^ 2) * (x0 ^ 2 + x1 ^ 2 + x2 ^ 2) := by
      have k1 := sq_nonneg (y0 * x1 - y1 * x0)
      have k2 := sq_nonneg (y0 * x2 - y2 * x0)
      have k3 := sq_nonneg (y1 * x2 - y2 * x1)
      linarith
    rwa [hy, one_mul] at this
  have X0 : |x0| ≤ L := abs_le_of_sq_le_sq (by linarith) hL0
  have X1 : |x1| ≤ L := abs_le_of_sq_le_sq (by linarith) hL0
  have X2 : |x2| ≤ L := abs_le_of_sq_le_sq (by linarith) hL0
  have Y2 : |y2| ≤ 1 := abs_le_of_sq_le_sq (by linarith [sq_nonneg y0, sq_nonneg y1]) zero_le_one
  have P0 := prod_le p1 hy0
  have P1 := prod_le p1 hy1
  have E0 : |(t01 * x1 + t02 * x2) / t00 + (y0 * x0 + y1 * x1 + y2 * x2) * y0| ≤ 5 / 1000000 * L := by
    refine (abs_add_le _ _).trans ?_
    linarith
  have E1 : |(t12 * x2 + 0 * 0) / t11 + (y0 * x0 + y1 * x1 + y2 * x2) * y1| ≤ 5 / 1000000 * L := by
    refine (abs_add_le _ _).trans ?_
    linarith
  have E2 : |(y0 * x0 + y1 * x1 + y2 * x2) * y2 - x2| ≤ 5 / 1000000 * L := by
    have e : (y0 * x0 + y1 * x1 + y2 * x2) * y2 - x2 =
        x0 * y2 * y0 + x1 * y2 * y1 - (x2 * y0 * y0 + x2 * y1 * y1) := by
      have : y2 * y2 = 1 - y0 ^ 2 - y1 ^ 2 := by linarith
      linear_combination x2 * this
    have q0 : |x0 * y2| ≤ L := by have := prod_le X0 Y2; rwa [one_mul] at this
    have q1 : |x1 * y2| ≤ L := by have := prod_le X1 Y2; rwa [one_mul] at this
    have r0 := prod_le q0 hy0
    have r1 := prod_le q1 hy1
    have w0 := prod_le X2 hy0
    have w1 := prod_le X2 hy1
    have v0 := prod_le w0 hy0
    have v1 := prod_le w1 hy1
    rw [e]
    refine (abs_sub _ _).trans ?_
    have := abs_add_le (x0 * y2 * y0) (x1 * y2 * y1)
    have := abs_add_le (x2 * y0 * y0) (x2 * y1 * y1)
    linarith
  have sqb : ∀ {a : ℝ}, |a| ≤ 5 / 1000000 * L → a ^ 2 ≤ 25 / 1000000000000 * L ^ 2 := by
    intro a ha
    have := pow_le_pow_left₀ (abs_nonneg a) ha 2
    rw [sq_abs, mul_pow] at this
    norm_num at this ⊢; exact this
  have F0 := sqb E0
  have F1 := sqb E1
  have F2 := sqb E2
  have F3 : 0 ≤ L ^ 2 := sq_nonneg L
  refine (add_le_add (add_le_add F0 F1) F2).trans ?_
  linarith

/-- The solution computed with the pseudo-inverse if `M` nearly annihilates the unit vector `β`: the solution
`x` without its component along `β`. -/
theorem pinv_dropped (h : TwoBig M N) (hN : 2 ≤ N) {β : Vec} (hβ : len β = 1)
    (hM : len (M *ᵥ β) ≤ 99 / 1000000000) :
    ∃ p, myPinv svd (Matrix.of.symm M) = .ok p ∧ ∀ x : Vec,
      len (Matrix.of p *ᵥ (M *ᵥ x) - (x - (β ⬝ᵥ x) • β)) ≤ 1 / 100000 * len x := by
  obtain ⟨Q, T, W, p, hd, hp, hpe⟩ := pinv_dec h
  refine ⟨p, hp, fun x => ?_⟩
  have hW' := mul_eq_one_comm.1 hd.w
  have hWt : W.transpose.transpose * W.transpose = 1 := by rw [transpose_transpose, hW']
  set y := W.transpose *ᵥ β with hy
  set ξ := W.transpose *ᵥ x with hξ
  have hyy : y 0 ^ 2 + y 1 ^ 2 + y 2 ^ 2 = 1 := by
    have : y ⬝ᵥ y = 1 := by rw [hy, orth_dot hWt, ← len_sq, hβ, one_pow]
    simp only [dotProduct, Fin.sum_univ_three] at this
    linarith
  have hξξ : len x ^ 2 = ξ 0 ^ 2 + ξ 1 ^ 2 + ξ 2 ^ 2 := by
    have : ξ ⬝ᵥ ξ = len x ^ 2 := by rw [hξ, orth_dot hWt, ← len_sq]
    simp only [dotProduct, Fin.sum_univ_three] at this
    linarith
  have hyξ : β ⬝ᵥ x = y 0 * ξ 0 + y 1 * ξ 1 + y 2 * ξ 2 := by
    have : y ⬝ᵥ ξ = β ⬝ᵥ x := by rw [hξ, orth_dot hWt]
    simp only [dotProduct, Fin.sum_univ_three] at this ⊢
    linarith
  have off := hd.off
  rw [cutoff, show 11 * (1 / 10000000 : ℝ) * N = 11 / 10000000 * N by ring] at off
  have hs : (T 0 0 * y 0 + T 0 1 * y 1 + T 0 2 * y 2) ^ 2 + (T 1 1 * y 1 + T 1 2 * y 2) ^ 2 +
      (T 2 2 * y 2) ^ 2 ≤ (99 / 1000000000) ^ 2 := by
    have e : M *ᵥ β = Q *ᵥ (T *ᵥ y) := by rw [hd.eq, hy]; simp only [mulVec_mulVec, Matrix.mul_assoc]
    have e1 := pow_le_pow_left₀ (len_nonneg _) hM 2
    rw [len_sq, e, orth_dot hd.q] at e1
    simp only [dotProduct, mulVec, Fin.sum_univ_three, hd.t10, hd.t20, hd.t21] at e1
    linarith
  obtain ⟨y0, y1, hT2⟩ := drop_angle hN (hd.nonneg 0) (hd.nonneg 1) (hd.nonneg 2) hd.big0 hd.big1 off hyy hs
  have hbig : ∀ {t : ℝ}, 0 ≤ t → 2499 / 10000 * N ^ 2 ≤ t ^ 2 → cutoff < t := by
    intro t ht hb
    rw [cutoff]
    by_contra hlt
    push Not at hlt
    nlinarith
  have k0 := hbig (hd.nonneg 0) hd.big0
  have k1 := hbig (hd.nonneg 1) hd.big1
  have n0 : T 0 0 ≠ 0 := (cutoff_pos.trans k0).ne'
  have n1 : T 1 1 ≠ 0 := (cutoff_pos.trans k1).ne'
  refine le_of_sq_le_sq ?_ (mul_nonneg (by norm_num) (len_nonneg x))
  rw [mul_pow, hξξ, len_sq]
  refine le_trans (le_of_eq ?_) (drop_error (x0 := ξ 0) (x1 := ξ 1) (x2 := ξ 2) hN (hd.nonneg 0) (hd.nonneg 1)
    hd.big0 hd.big1 off hyy y0 y1)
  rw [← orth_dot hWt]
  have e : W.transpose *ᵥ (Matrix.of p *ᵥ (M *ᵥ x) - (x - (β ⬝ᵥ x) • β)) =
      Matrix.diagonal (fun i => if cutoff < T i i then 1 / T i i else 0) *ᵥ (T *ᵥ ξ) - (ξ - (β ⬝ᵥ x) • y) := by
    rw [mulVec_sub, mulVec_sub, mulVec_smul, ← hy, ← hξ]
    congr 1
    rw [hpe, hd.eq, hξ]
    simp only [mulVec_mulVec]
    congr 1
    calc W.transpose * (W * Matrix.diagonal (fun i => if cutoff < T i i then 1 / T i i else 0) * Q.transpose *
          (Q * T * W.transpose))
        = (W.transpose * W) * Matrix.diagonal (fun i => if cutoff < T i i then 1 / T i i else 0) *
          (Q.transpose * Q) * T * W.transpose := by simp only [Matrix.mul_assoc]
      _ = _ := by rw [hd.w, hd.q, Matrix.one_mul, Matrix.mul_one]; simp only [Matrix.mul_assoc]
  rw [e, hyξ]
  have f0 : (Matrix.diagonal (fun i => if cutoff < T i i then 1 / T i i else 0) *ᵥ (T *ᵥ ξ)) 0 =
      ξ 0 + (T 0 1 * ξ 1 + T 0 2 * ξ 2) / T 0 0 := by
    rw [mulVec_diagonal, if_pos k0]
    simp only [mulVec, dotProduct, Fin.sum_univ_three]
    field_simp
    ring
  have f1 : (Matrix.diagonal (fun i => if cutoff < T i i then 1 / T i i else 0) *ᵥ (T *ᵥ ξ)) 1 =
      ξ 1 + T 1 2 * ξ 2 / T 1 1 := by
    rw [mulVec_diagonal, if_pos k1]
    simp only [mulVec, dotProduct, Fin.sum_univ_three, hd.t10]
    field_simp
    ring
  have f2 : (Matrix.diagonal (fun i => if cutoff < T i i then 1 / T i i else 0) *ᵥ (T *ᵥ ξ)) 2 = 0 := by
    rw [mulVec_diagonal, if_neg (by rw [cutoff]; linarith), zero_mul]
  generalize Matrix.diagonal (fun i => if cutoff < T i i then 1 / T i i else 0) *ᵥ (T *ᵥ ξ) = g at f0 f1 f2
  simp only [dotProduct, Fin.sum_univ_three, Pi.sub_apply, Pi.smul_apply, smul_eq_mul, f0, f1, f2]
  ring

end Svd3
end CamGeom
