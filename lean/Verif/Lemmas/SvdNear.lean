import Verif.Lemmas.GramNear
import Verif.Lemmas.QrRank
import Verif.Lemmas.RoundingPinv

/-!
# nalgebra's singular value decomposition in floating point
-/

namespace CamGeom
namespace SvdNear
open Spec Matrix Householder
open Svd3 hiding Near

variable {R : Type} [Scalar R] {fl : Rounding R} {r : RoundingRange fl}

/-- The computed `M V` and `V` next to an exactly orthonormal basis `W`. -/
structure FPair (fl : Rounding R) (M : Matrix (Fin 3) (Fin 3) ℝ) (N : ℝ) (bv : Mat 3 3 R × Mat 3 3 R)
    (W : Fin 3 → V3 ℝ) : Prop where
  orth : ∀ i j, W i ⬝ᵥ W j = if i = j then 1 else 0
  vn : ∀ a c, fl.isFinite (bv.2 a c) ∧ |fl.val (bv.2 a c) - W c a| ≤ 1 / 10 ^ 9
  bn : ∀ a c, fl.isFinite (bv.1 a c) ∧ |fl.val (bv.1 a c) - (M *ᵥ W c) a| ≤ 4 / 10 ^ 9 * N
  gram : ∀ i j, i ≠ j → |(M *ᵥ W i) ⬝ᵥ (M *ᵥ W j)| ≤ 303 / 10 ^ 9 * N ^ 2
  bm : ∀ a c, |fl.val (bv.1 a c) - (M *ᵥ vcol fl bv.2 c) a| ≤ 100 * fl.u * N

/-- Squared length of the image of a basis vector. -/
def energy (M : Matrix (Fin 3) (Fin 3) ℝ) (W : Fin 3 → V3 ℝ) (c : Fin 3) : ℝ := (M *ᵥ W c) ⬝ᵥ (M *ᵥ W c)

variable {M : Matrix (Fin 3) (Fin 3) ℝ} {N : ℝ} {bv : Mat 3 3 R × Mat 3 3 R} {W : Fin 3 → V3 ℝ}

theorem FPair.energy_le (h : FPair fl M N bv W) (hM : Broad M N) (c : Fin 3) : energy M W c ≤ N ^ 2 := by
  have := hM.le (W c)
  rwa [h.orth, if_pos rfl, mul_one] at this

theorem FPair.frame (h : FPair fl M N bv W) : Frame (W 0) (W 1) (W 2) := by
  constructor <;> rw [h.orth] <;> simp

theorem FPair.two (h : FPair fl M N bv W) (hM : Broad M N) :
    48 / 100 * N ^ 2 ≤ energy M W 0 + energy M W 1 ∧ 48 / 100 * N ^ 2 ≤ energy M W 1 + energy M W 2 ∧
    48 / 100 * N ^ 2 ≤ energy M W 2 + energy M W 0 :=
  ⟨hM.two _ _ _ h.frame, hM.two _ _ _ h.frame.rotate, hM.two _ _ _ h.frame.rotate.rotate⟩

theorem coord_le {v : V3 ℝ} {N : ℝ} (hN : 0 ≤ N) (h : v ⬝ᵥ v ≤ N ^ 2) (a : Fin 3) : |v a| ≤ N := by
  refine abs_le_of_sq_le_sq ?_ hN
  rw [dotProduct, Fin.sum_univ_three] at h
  have s0 := mul_self_nonneg (v 0)
  have s1 := mul_self_nonneg (v 1)
  have s2 := mul_self_nonneg (v 2)
  rw [sq (v a)]
  have ha : a = 0 ∨ a = 1 ∨ a = 2 := by omega
  rcases ha with rfl | rfl | rfl <;> linarith

/-- Nearby vectors have nearby dot products. -/
theorem dot_near {x y X Y : V3 ℝ} {N τ : ℝ} (hN : 0 ≤ N) (hτ : τ ≤ 1 / 10 ^ 6) (hx : ∀ a, |x a - X a| ≤ τ * N)
    (hy : ∀ a, |y a - Y a| ≤ τ * N) (hX : ∀ a, |X a| ≤ N) (hY : ∀ a, |Y a| ≤ N) :
    |x ⬝ᵥ y - X ⬝ᵥ Y| ≤ 601 / 100 * τ * N ^ 2 := by
  have hτN : 0 ≤ τ * N := (abs_nonneg _).trans (hx 0)
  have p : ∀ a, |x a * y a - X a * Y a| ≤ τ * N * (N + 1 / 10 ^ 6 * N) + N * (τ * N) := by
    intro a
    have e : x a * y a - X a * Y a = (x a - X a) * y a + X a * (y a - Y a) := by ring
    have e1 : |y a| ≤ N + 1 / 10 ^ 6 * N := by
      have h1 := abs_sub_abs_le_abs_sub (y a) (Y a)
      have h2 := hy a
      have h3 := hY a
      have h4 := mul_le_mul_of_nonneg_right hτ hN
      linarith
    rw [e]
    refine (abs_add_le _ _).trans ?_
    rw [abs_mul, abs_mul]
    exact add_le_add (mul_le_mul (hx a) e1 (abs_nonneg _) hτN) (mul_le_mul (hX a) (hy a) (abs_nonneg _) hN)
  have e : x ⬝ᵥ y - X ⬝ᵥ Y = (x 0 * y 0 - X 0 * Y 0) + (x 1 * y 1 - X 1 * Y 1) + (x 2 * y 2 - X 2 * Y 2) := by
    simp only [dotProduct, Fin.sum_univ_three]; ring
  rw [e]
  refine (abs_add_three _ _ _).trans ?_
  have q0 := p 0
  have q1 := p 1
  have q2 := p 2
  have : 0 ≤ τ * N * N := mul_nonneg hτN hN
  nlinarith

theorem FPair.bvec (h : FPair fl M N bv W) (hM : Broad M N) (a c : Fin 3) :
    |(M *ᵥ W c) a| ≤ N := coord_le (by linarith [hM.one_le]) (h.energy_le hM c) a

/-- The computed squared column lengths. -/
theorem FPair.colSq_near (hF : Fine r) (h : FPair fl M N bv W) (hM : Broad M N) (c : Fin 3) :
    fl.isFinite (colSq bv.1 c) ∧ |fl.val (colSq bv.1 c) - energy M W c| ≤ 1 / 10 ^ 4 * N ^ 2 := by
  have hu := hF.hu
  have hN := hM.one_le
  have hN0 : 0 ≤ N := by linarith
  have hNN : 2 * N * (2 * N) ≤ 10 ^ 100 := by
    have := mul_le_mul hM.top hM.top hN0 (by norm_num)
    have h2 : (4 : ℝ) * (10 ^ 40 * 10 ^ 40) ≤ 10 ^ 100 := by norm_num
    linarith
  have sc := hF.scale (s := 2 * N * (2 * N)) (by positivity) hNN
  have hω : fl.ω ≤ 2 * N * (2 * N) := hF.ω1.trans (by nlinarith)
  have bn : ∀ a, |fl.val (bv.1 a c)| ≤ 1001 / 1000 * N := fun a => by
    have h1 := abs_sub_abs_le_abs_sub (fl.val (bv.1 a c)) ((M *ᵥ W c) a)
    have h2 := (h.bn a c).2
    have h3 := h.bvec hM a c
    linarith
  have n : ∀ a, Near fl (2 * N) 1 0 (bv.1 a c) (fl.val (bv.1 a c)) := fun a =>
    Near.exact (h.bn a c).1 (by linarith [bn a])
  have hd := dot_near (x := fun a => fl.val (bv.1 a c)) (y := fun a => fl.val (bv.1 a c)) (τ := 4 / 10 ^ 9) hN0
    (by norm_num) (fun a => (h.bn a c).2) (fun a => (h.bn a c).2) (fun a => h.bvec hM a c) (fun a => h.bvec hM a c)
  have e2 : (fun a => fl.val (bv.1 a c)) ⬝ᵥ (fun a => fl.val (bv.1 a c)) =
      tailDot 0 (fun a => fl.val (bv.1 a c)) fun a => fl.val (bv.1 a c) := by
    simp [tailDot, dotProduct, Fin.sum_univ_three]
  rw [e2] at hd
  have hNN0 : 0 ≤ N ^ 2 := by positivity
  have ht := tailDot_near (r := r) (M := 1) (C := 2) 0 (by linarith) (by linarith) sc hω hu (fun a _ => n a)
    (fun a _ => n a) (by
      have h1 := abs_sub_abs_le_abs_sub (tailDot 0 (fun a => fl.val (bv.1 a c)) fun a => fl.val (bv.1 a c))
        (energy M W c)
      have h2 := h.energy_le hM c
      have h3 : |energy M W c| = energy M W c := abs_of_nonneg (dot_self_nonneg _)
      have h4 : |tailDot 0 (fun a => fl.val (bv.1 a c)) (fun a => fl.val (bv.1 a c)) - energy M W c| ≤ _ := hd
      nlinarith) (by norm_num) le_rfl le_rfl (by norm_num)
  refine ⟨ht.fin, ?_⟩
  have h1 := ht.err_le hu sc.pos (by norm_num)
  have h2 := abs_sub_le (fl.val (colSq bv.1 c)) (tailDot 0 (fun a => fl.val (bv.1 a c)) fun a => fl.val (bv.1 a c))
    (energy M W c)
  have h3 : |fl.val (colSq bv.1 c) - tailDot 0 (fun a => fl.val (bv.1 a c)) fun a => fl.val (bv.1 a c)| ≤ _ := h1
  have h4 : |tailDot 0 (fun a => fl.val (bv.1 a c)) (fun a => fl.val (bv.1 a c)) - energy M W c| ≤ _ := hd
  nlinarith

/-- Swapping two columns and negating one is exact. -/
theorem FPair.swap (r : RoundingRange fl) (h : FPair fl M N bv W) {i j : Fin 3} (hij : i ≠ j) :
    FPair fl M N (swapNeg i j bv.1, swapNeg i j bv.2)
      (fun c => if c = i then W j else if c = j then -W i else W c) := by
  have neg_near : ∀ {x : R} {X δ : ℝ}, fl.isFinite x ∧ |fl.val x - X| ≤ δ → fl.isFinite (-x) ∧ |fl.val (-x) - -X| ≤ δ := by
    rintro x X δ ⟨hf, he⟩
    have hn := r.neg hf
    refine ⟨hn, ?_⟩
    rw [(fl.neg hn).2, ← neg_sub', abs_neg]
    exact he
  refine ⟨fun a b => ?_, fun a c => ?_, fun a c => ?_, fun a b hab => ?_, fun a c => ?_⟩
  · have o := h.orth
    by_cases ai : a = i <;> by_cases aj : a = j <;> by_cases bi : b = i <;> by_cases bj : b = j <;>
      simp_all [hij.symm]
    all_goals grind
  · dsimp only [swapNeg]
    split
    · exact h.vn a j
    · split
      · exact neg_near (h.vn a i)
      · exact h.vn a c
  · dsimp only [swapNeg]
    split
    · exact h.bn a j
    · split
      · rw [mulVec_neg]
        exact neg_near (h.bn a i)
      · exact h.bn a c
  · have g := h.gram
    split
    · split
      · simp_all
      · split
        · rw [mulVec_neg, dotProduct_neg, abs_neg]; exact g j i hij.symm
        · rename_i h1 h2 h3; exact g j b (fun e => h3 e.symm)
    · split
      · split
        · rw [mulVec_neg, neg_dotProduct, abs_neg]; exact g i j hij
        · split
          · simp_all
          · rename_i h1 h2 h3 h4; rw [mulVec_neg, neg_dotProduct, abs_neg]; exact g i b (fun e => h3 e.symm)
      · split
        · rename_i h1 h2 h3; exact g a j h2
        · split
          · rename_i h1 h2 h3 h4; rw [mulVec_neg, dotProduct_neg, abs_neg]; exact g a i h1
          · exact g a b hab
  · have hc : vcol fl (swapNeg i j bv.2) c = if c = i then vcol fl bv.2 j else if c = j then -vcol fl bv.2 i else
        vcol fl bv.2 c := by
      funext b
      have hb := (fl.neg (r.neg (h.vn b i).1)).2
      by_cases ci : c = i <;> by_cases cj : c = j <;> simp_all [vcol, vvec, swapNeg]
    rw [hc]
    dsimp only [swapNeg]
    split
    · exact h.bm a j
    · split
      · rw [mulVec_neg]
        exact (neg_near ⟨(h.bn a i).1, h.bm a i⟩).2
      · exact h.bm a c

/-- One comparison of the ordering. -/
theorem FPair.order (k : RoundingMore fl) (hF : Fine r) (h : FPair fl M N bv W) (hM : Broad M N) {i j : Fin 3}
    (hij : i ≠ j) :
    ∃ W', FPair fl M N (order i j bv) W' ∧
      ((energy M W' = energy M W ∧ energy M W j ≤ energy M W i + 2 / 10 ^ 4 * N ^ 2) ∨
      (energy M W' i = energy M W j ∧ energy M W' j = energy M W i ∧
        (∀ c, c ≠ i → c ≠ j → energy M W' c = energy M W c) ∧
        energy M W i ≤ energy M W j + 2 / 10 ^ 4 * N ^ 2)) := by
  obtain ⟨fi, ei⟩ := h.colSq_near hF hM i
  obtain ⟨fj, ej⟩ := h.colSq_near hF hM j
  rw [abs_le] at ei ej
  have hlt := k.lt_iff fi fj
  unfold Svd3.order
  by_cases hc : fl.val (colSq bv.1 i) < fl.val (colSq bv.1 j)
  · rw [if_pos (hlt.2 hc)]
    refine ⟨_, h.swap r hij, Or.inr ⟨?_, ?_, ?_, by linarith⟩⟩
    · simp [energy]
    · simp [energy, hij.symm, mulVec_neg]
    · intro c h1 h2
      simp [energy, h1, h2]
  · rw [if_neg (fun h' => hc (hlt.1 h'))]
    exact ⟨W, h, Or.inl ⟨rfl, by linarith [not_lt.1 hc]⟩⟩

/-- After the ordering the first two columns are long. -/
theorem FPair.ordered (k : RoundingMore fl) (hF : Fine r) (h : FPair fl M N bv W) (hM : Broad M N) :
    ∃ W', FPair fl M N (Svd3.order 1 2 (Svd3.order 0 2 (Svd3.order 0 1 bv))) W' ∧
      239 / 1000 * N ^ 2 ≤ energy M W' 0 ∧ 239 / 1000 * N ^ 2 ≤ energy M W' 1 := by
  have hN := hM.one_le
  have hN2 : 0 < N ^ 2 := by positivity
  obtain ⟨t01, t12, t20⟩ := h.two hM
  obtain ⟨W1, h1, c1⟩ := h.order k hF hM (i := 0) (j := 1) (by decide)
  obtain ⟨W2, h2, c2⟩ := h1.order k hF hM (i := 0) (j := 2) (by decide)
  obtain ⟨W3, h3, c3⟩ := h2.order k hF hM (i := 1) (j := 2) (by decide)
  refine ⟨W3, h3, ?_⟩
  rcases c1 with ⟨a1, b1⟩ | ⟨a1, a1', a1'', b1⟩ <;> rcases c2 with ⟨a2, b2⟩ | ⟨a2, a2', a2'', b2⟩ <;>
    rcases c3 with ⟨a3, b3⟩ | ⟨a3, a3', a3'', b3⟩
  all_goals
    first
    | have z1 := a1'' 2 (by decide) (by decide)
    | have z1 := congrFun a1 0
      have z1' := congrFun a1 1
      have z1'' := congrFun a1 2
    first
    | have z2 := a2'' 1 (by decide) (by decide)
    | have z2 := congrFun a2 0
      have z2' := congrFun a2 1
      have z2'' := congrFun a2 2
    first
    | have z3 := a3'' 0 (by decide) (by decide)
    | have z3 := congrFun a3 0
      have z3' := congrFun a3 1
      have z3'' := congrFun a3 2
    constructor <;> linarith

/-! ### The triangular factor -/

/-- The off-diagonal part of the triangular factor. -/
theorem off_near {N r00 r01 r02 r11 r12 : ℝ} (hN : 0 < N)
    (h0 : 238 / 1000 * N ^ 2 ≤ r00 ^ 2) (h1 : 238 / 1000 * N ^ 2 ≤ r01 ^ 2 + r11 ^ 2)
    (h01 : |r00 * r01| ≤ 335 / 10 ^ 9 * N ^ 2)
    (h02 : |r00 * r02| ≤ 335 / 10 ^ 9 * N ^ 2) (h12 : |r01 * r02 + r11 * r12| ≤ 335 / 10 ^ 9 * N ^ 2) :
    r01 ^ 2 + r02 ^ 2 + r12 ^ 2 ≤ (122 / 10 ^ 8 * N) ^ 2 := by
  have hN2 : 0 < N ^ 2 := by positivity
  have key : ∀ {x y q d : ℝ}, 0 < q → q * N ^ 2 ≤ x ^ 2 → |x * y| ≤ d * N ^ 2 → y ^ 2 * q ≤ d ^ 2 * N ^ 2 := by
    intro x y q d hq hx hxy
    have e := sq_le_sq' (by have := neg_abs_le (x * y); linarith) ((le_abs_self _).trans hxy)
    have e1 : q * N ^ 2 * y ^ 2 ≤ x ^ 2 * y ^ 2 := mul_le_mul_of_nonneg_right hx (sq_nonneg y)
    have e2 : (y ^ 2 * q) * N ^ 2 ≤ (d ^ 2 * N ^ 2) * N ^ 2 := by nlinarith
    exact le_of_mul_le_mul_right e2 hN2
  have k01 := key (q := 238 / 1000) (by norm_num) h0 h01
  have k02 := key (q := 238 / 1000) (by norm_num) h0 h02
  have h11 : 237 / 1000 * N ^ 2 ≤ r11 ^ 2 := by linarith
  have hp : |r01 * r02| ≤ 1 / 10 ^ 12 * N ^ 2 := by
    rw [abs_le]
    constructor <;> nlinarith [sq_nonneg (r01 + r02), sq_nonneg (r01 - r02)]
  have h12' : |r11 * r12| ≤ 336 / 10 ^ 9 * N ^ 2 := by
    have e : r11 * r12 = (r01 * r02 + r11 * r12) - r01 * r02 := by ring
    have e1 := abs_sub (r01 * r02 + r11 * r12) (r01 * r02)
    rw [← e] at e1
    linarith
  have k12 := key (q := 237 / 1000) (by norm_num) h11 h12'
  nlinarith

/-- The computed columns as vectors of reals. -/
theorem FPair.cols (h : FPair fl M N bv W) (hM : Broad M N) (i j : Fin 3) :
    |vcol fl bv.1 i ⬝ᵥ vcol fl bv.1 j - (M *ᵥ W i) ⬝ᵥ (M *ᵥ W j)| ≤ 241 / 10 ^ 10 * N ^ 2 := by
  have hN := hM.one_le
  have := dot_near (x := vcol fl bv.1 i) (y := vcol fl bv.1 j) (N := N) (τ := 4 / 10 ^ 9) (by linarith)
    (by norm_num) (fun a => (h.bn a i).2) (fun a => (h.bn a j).2) (fun a => h.bvec hM a i) (fun a => h.bvec hM a j)
  have hN2 : 0 < N ^ 2 := by positivity
  linarith

theorem FPair.len_near (h : FPair fl M N bv W) (c : Fin 3) :
    |len (vcol fl bv.1 c) - len (M *ᵥ W c)| ≤ 8 / 10 ^ 9 * N := by
  have hd : len (vcol fl bv.1 c - M *ᵥ W c) ≤ 2 * (4 / 10 ^ 9 * N) :=
    len_le_entries fun a => by rw [Pi.sub_apply]; exact (h.bn a c).2
  have e1 := len_add_le (vcol fl bv.1 c - M *ᵥ W c) (M *ᵥ W c)
  have e2 := len_add_le (-(vcol fl bv.1 c - M *ᵥ W c)) (vcol fl bv.1 c)
  rw [len_neg] at e2
  rw [sub_add_cancel] at e1
  rw [neg_sub, sub_add_cancel] at e2
  rw [abs_le]; constructor <;> linarith

/-- Lengths of the computed columns; for the last one a bound. -/
noncomputable def colLens (fl : Rounding R) (b : Mat 3 3 R) (N : ℝ) : Fin 3 → ℝ :=
  ![len (vcol fl b 0), len (vcol fl b 1), 2 * N]

theorem FPair.rankInput (hF : Fine r) (h : FPair fl M N bv W) (hM : Broad M N)
    (h0 : 239 / 1000 * N ^ 2 ≤ energy M W 0) (h1 : 239 / 1000 * N ^ 2 ≤ energy M W 1) :
    RankInput r bv.1 (colLens fl bv.1 N) ∧ ∀ c, colLens fl bv.1 N c ≤ 2 * N := by
  have hu0 := fl.u_nonneg
  have hN := hM.one_le
  have hN2 : 0 < N ^ 2 := by positivity
  have up : ∀ c, len (vcol fl bv.1 c) ≤ 2 * N := by
    intro c
    have e1 := (abs_le.1 (h.len_near c)).2
    have e2 : len (M *ᵥ W c) ≤ N := by
      refine le_of_sq_le_sq ?_ (by linarith)
      rw [len_sq]; exact h.energy_le hM c
    linarith
  have lo : ∀ c, 239 / 1000 * N ^ 2 ≤ energy M W c → 48 / 100 * N ≤ len (vcol fl bv.1 c) := by
    intro c hc
    have e1 := (abs_le.1 (h.len_near c)).1
    have e2 : 488 / 1000 * N ≤ len (M *ᵥ W c) := by
      refine le_of_sq_le_sq ?_ (len_nonneg _)
      rw [len_sq]
      refine le_trans ?_ hc
      nlinarith
    linarith
  have up' : ∀ c, colLens fl bv.1 N c ≤ 2 * N := by
    intro c; fin_cases c
    exacts [up 0, up 1, le_rfl]
  have lo' : ∀ c, 1 / 10 ≤ colLens fl bv.1 N c := by
    have l0 := lo 0 h0
    have l1 := lo 1 h1
    intro c; fin_cases c
    · show 1 / 10 ≤ len (vcol fl bv.1 0)
      linarith
    · show 1 / 10 ≤ len (vcol fl bv.1 1)
      linarith
    · show 1 / 10 ≤ 2 * N
      linarith
  refine ⟨⟨fun a c => (h.bn a c).1, rfl, rfl, up 2, lo', ?_, ?_, fun c => ?_, fun c => ?_⟩, up'⟩
  · show 1 ≤ 2 * N
    linarith
  · rw [dot_eq]
    have a1 := h.cols hM 0 1
    have a2 := h.gram 0 1 (by decide)
    have a3 := abs_sub_abs_le_abs_sub (vcol fl bv.1 0 ⬝ᵥ vcol fl bv.1 1) ((M *ᵥ W 0) ⬝ᵥ (M *ᵥ W 1))
    have a4 : 48 / 100 * N * (48 / 100 * N) ≤ len (vcol fl bv.1 0) * len (vcol fl bv.1 1) :=
      mul_le_mul (lo 0 h0) (lo 1 h1) (by positivity) (len_nonneg _)
    show _ ≤ 1 / 2 * (len (vcol fl bv.1 0) * len (vcol fl bv.1 1))
    linarith
  · have := up' c
    have := lo' c
    have := hM.top
    refine hF.scale (by linarith) ?_
    have : (4 : ℝ) * 10 ^ 40 ≤ 10 ^ 100 := by norm_num
    linarith
  · have := up' c
    have l := lo' c
    have h40 := hM.top
    refine hF.scale (by positivity) ?_
    have e1 : colLens fl bv.1 N c ≤ 2 * 10 ^ 40 := by linarith
    have e2 := mul_le_mul e1 e1 (by linarith) (by norm_num)
    refine le_trans (mul_le_mul_of_nonneg_left e2 (by norm_num)) (by norm_num)

/-- The first product `M V`. -/
theorem pair_near (hF : Fine r) {m V : Mat 3 3 R} (hm : ∀ i j, fl.isFinite (m i j)) (hM : Broad (vmat fl m) N)
    (ho : ∀ i j, W i ⬝ᵥ W j = if i = j then 1 else 0)
    (hV : ∀ a c, fl.isFinite (V a c) ∧ |fl.val (V a c) - W c a| ≤ 1 / 10 ^ 9)
    (hG : ∀ i j, i ≠ j → |(vmat fl m *ᵥ W i) ⬝ᵥ (vmat fl m *ᵥ W j)| ≤ 303 / 10 ^ 9 * N ^ 2) :
    FPair fl (vmat fl m) N (Mat.mul3 m V, V) W := by
  have hu := hF.hu
  have hu' := hF.u_le
  have hN := hM.one_le
  suffices key : ∀ a c, (fl.isFinite (Mat.mul3 m V a c) ∧
      |fl.val (Mat.mul3 m V a c) - (vmat fl m *ᵥ W c) a| ≤ 4 / 10 ^ 9 * N) ∧
      |fl.val (Mat.mul3 m V a c) - (vmat fl m *ᵥ vcol fl V c) a| ≤ 100 * fl.u * N from
    ⟨ho, hV, fun a c => (key a c).1, hG, fun a c => (key a c).2⟩
  intro a c
  have sc := hF.scale (s := 2 * N * 2) (by positivity) (by
    have := hM.top
    have : (4 : ℝ) * 10 ^ 40 ≤ 10 ^ 100 := by norm_num
    linarith)
  have hω : fl.ω ≤ 2 * N * 2 := hF.ω1.trans (by linarith)
  have w1 : ∀ k, |W c k| ≤ 1 := fun k =>
    coord_le (N := 1) (by norm_num) (by rw [ho, if_pos rfl]; norm_num) k
  have v1 : ∀ k, |fl.val (V k c)| ≤ 1001 / 1000 := fun k => by
    have h1 := abs_sub_abs_le_abs_sub (fl.val (V k c)) (W c k)
    have h2 := (hV k c).2
    have h3 := w1 k
    linarith
  have m1 : ∀ k, |fl.val (m a k)| ≤ N := fun k => hM.entry a k
  have nm : ∀ k, Near fl (2 * N) 1 0 (m a k) (fl.val (m a k)) := fun k => Near.exact (hm a k) (by linarith [m1 k])
  have nv : ∀ k, Near fl 2 1 0 (V k c) (fl.val (V k c)) := fun k => Near.exact (hV k c).1 (by linarith [v1 k])
  have ht := tailDot_near (r := r) (M := 3) (C := 2) 0 (by linarith) (by norm_num) sc hω hu (fun k _ => nm k)
    (fun k _ => nv k) (by
      have b : ∀ k, |fl.val (m a k) * fl.val (V k c)| ≤ N * (1001 / 1000) := fun k => by
        rw [abs_mul]; exact mul_le_mul (m1 k) (v1 k) (abs_nonneg _) (by linarith)
      have e : tailDot 0 (fun k => fl.val (m a k)) (fun k => fl.val (V k c)) =
        fl.val (m a 0) * fl.val (V 0 c) + fl.val (m a 1) * fl.val (V 1 c) + fl.val (m a 2) * fl.val (V 2 c) := by
        simp [tailDot]
      rw [e]
      refine (abs_add_three _ _ _).trans ?_
      linarith [b 0, b 1, b 2]) (by norm_num) le_rfl le_rfl (by norm_num)
  have e0 : Mat.mul3 m V a c = tailDot 0 (fun k => m a k) fun k => V k c := by simp [tailDot, Mat.mul3]
  simp only [e0]
  have h1 := ht.err
  refine ⟨⟨ht.fin, ?_⟩, ?_⟩
  swap
  · have e : tailDot 0 (fun k => fl.val (m a k)) (fun k => fl.val (V k c)) = (vmat fl m *ᵥ vcol fl V c) a := by
      simp [tailDot, mulVec, dotProduct, Fin.sum_univ_three, vmat, vcol, vvec]
    rw [e] at h1
    have : 0 ≤ fl.u * N := mul_nonneg fl.u_nonneg (by linarith)
    linarith
  have e : tailDot 0 (fun k => fl.val (m a k)) (fun k => fl.val (V k c)) - (vmat fl m *ᵥ W c) a =
      fl.val (m a 0) * (fl.val (V 0 c) - W c 0) + fl.val (m a 1) * (fl.val (V 1 c) - W c 1) +
        fl.val (m a 2) * (fl.val (V 2 c) - W c 2) := by
    simp [tailDot, mulVec, dotProduct, Fin.sum_univ_three, vmat]; ring
  have b : ∀ k, |fl.val (m a k) * (fl.val (V k c) - W c k)| ≤ N * (1 / 10 ^ 9) := fun k => by
    rw [abs_mul]; exact mul_le_mul (m1 k) (hV k c).2 (abs_nonneg _) (by linarith)
  have h2 := abs_add_three (fl.val (m a 0) * (fl.val (V 0 c) - W c 0)) (fl.val (m a 1) * (fl.val (V 1 c) - W c 1))
    (fl.val (m a 2) * (fl.val (V 2 c) - W c 2))
  rw [← e] at h2
  have h3 := abs_sub_le (fl.val (tailDot 0 (fun k => m a k) fun k => V k c))
    (tailDot 0 (fun k => fl.val (m a k)) (fun k => fl.val (V k c))) ((vmat fl m *ᵥ W c) a)
  have h4 : fl.u * (2 * N * 2) ≤ 12 / 10 ^ 17 * (2 * N * 2) := mul_le_mul_of_nonneg_right hu' (by linarith)
  linarith [b 0, b 1, b 2]

/-- The error made by dropping the off-diagonal part. -/
theorem drop_off {Q T : Matrix (Fin 3) (Fin 3) ℝ} (hQ : Q.transpose * Q = 1) {B : ℝ} (hB : 0 ≤ B) (t10 : T 1 0 = 0)
    (t20 : T 2 0 = 0) (t21 : T 2 1 = 0) (off : T 0 1 ^ 2 + T 0 2 ^ 2 + T 1 2 ^ 2 ≤ B ^ 2) (y : Vec) :
    len (Q *ᵥ (Matrix.diagonal (fun i => T i i) *ᵥ y - T *ᵥ y)) ≤ B * len y := by
  refine le_of_sq_le_sq ?_ (mul_nonneg hB (len_nonneg y))
  rw [len_sq, orth_dot hQ, mul_pow, len_sq]
  refine le_trans ?_ (mul_le_mul_of_nonneg_right off (dot_self_nonneg y))
  have z0 : (Matrix.diagonal (fun i => T i i) *ᵥ y - T *ᵥ y) 0 = -(T 0 1 * y 1 + T 0 2 * y 2) := by
    simp [mulVec, dotProduct, Fin.sum_univ_three]; ring
  have z1 : (Matrix.diagonal (fun i => T i i) *ᵥ y - T *ᵥ y) 1 = -(T 1 2 * y 2) := by
    simp [mulVec, dotProduct, Fin.sum_univ_three, t10]
  have z2 : (Matrix.diagonal (fun i => T i i) *ᵥ y - T *ᵥ y) 2 = 0 := by
    simp [mulVec, dotProduct, Fin.sum_univ_three, t20, t21]
  generalize Matrix.diagonal (fun i => T i i) *ᵥ y - T *ᵥ y = z at z0 z1 z2
  simp only [dotProduct, Fin.sum_univ_three, z0, z1, z2]
  nlinarith [sq_nonneg (T 0 1 * y 2 - T 0 2 * y 1), sq_nonneg (T 0 1 * y 0), sq_nonneg (T 0 2 * y 0),
    sq_nonneg (T 1 2 * y 0), sq_nonneg (T 1 2 * y 1)]

/-- The last diagonal entry of a triangular matrix that shortens a vector of length about 1 to `ε`. -/
theorem last_small {N ε r00 r01 r02 r11 r12 r22 y0 y1 y2 : ℝ} (hN : 0 < N) (h0 : 48 / 100 * N ≤ r00)
    (h1 : 48 / 100 * N ≤ r11) (h2 : 0 ≤ r22) (off : r01 ^ 2 + r02 ^ 2 + r12 ^ 2 ≤ (122 / 10 ^ 8 * N) ^ 2)
    (hε : ε ≤ 1 / 10 ^ 6 * N) (hy1 : 9999 / 10000 ≤ y0 ^ 2 + y1 ^ 2 + y2 ^ 2)
    (hy2 : y0 ^ 2 + y1 ^ 2 + y2 ^ 2 ≤ 10001 / 10000) (t0 : |r00 * y0 + r01 * y1 + r02 * y2| ≤ ε)
    (t1 : |r11 * y1 + r12 * y2| ≤ ε) (t2 : |r22 * y2| ≤ ε) : r22 ≤ 1001 / 1000 * ε := by
  have hε0 : 0 ≤ ε := (abs_nonneg _).trans t0
  have bnd : ∀ {x B : ℝ}, 0 ≤ B → x ^ 2 ≤ B ^ 2 → |x| ≤ B := fun hB h => abs_le_of_sq_le_sq h hB
  have hB : 0 ≤ 122 / 10 ^ 8 * N := by positivity
  have a01 := bnd (x := r01) hB (by linarith [sq_nonneg r02, sq_nonneg r12])
  have a02 := bnd (x := r02) hB (by linarith [sq_nonneg r01, sq_nonneg r12])
  have a12 := bnd (x := r12) hB (by linarith [sq_nonneg r01, sq_nonneg r02])
  have b : ∀ {y : ℝ}, y ^ 2 ≤ 10001 / 10000 → |y| ≤ 10001 / 10000 := fun {y} h =>
    bnd (by norm_num) (by linarith)
  have b1 := b (y := y1) (by linarith [sq_nonneg y0, sq_nonneg y2])
  have b2 := b (y := y2) (by linarith [sq_nonneg y0, sq_nonneg y1])
  have m : ∀ {x y : ℝ}, |x| ≤ 122 / 10 ^ 8 * N → |y| ≤ 10001 / 10000 → |x * y| ≤ 13 / 10 ^ 7 * N := by
    intro x y hx hy
    rw [abs_mul]
    refine (mul_le_mul hx hy (abs_nonneg _) hB).trans ?_
    linarith
  have small : ∀ {t y e : ℝ}, 48 / 100 * N ≤ t → |t * y| ≤ e * N → |y| ≤ 100 / 48 * e := by
    intro t y e ht h
    rw [abs_mul, abs_of_nonneg (show 0 ≤ t by linarith)] at h
    have h3 : 48 / 100 * N * |y| ≤ e * N := (mul_le_mul_of_nonneg_right ht (abs_nonneg y)).trans h
    have h4 : (48 / 100 * |y|) * N ≤ e * N := by linarith
    have := le_of_mul_le_mul_right h4 hN
    linarith
  have s1 : |y1| ≤ 1 / 10 ^ 5 := by
    refine (small (e := 3 / 10 ^ 6) h1 ?_).trans (by norm_num)
    have e : r11 * y1 = (r11 * y1 + r12 * y2) - r12 * y2 := by ring
    rw [e]
    refine (abs_sub _ _).trans ?_
    linarith [m a12 b2]
  have s0 : |y0| ≤ 1 / 10 ^ 5 := by
    refine (small (e := 4 / 10 ^ 6) h0 ?_).trans (by norm_num)
    have e : r00 * y0 = (r00 * y0 + r01 * y1 + r02 * y2) - r01 * y1 - r02 * y2 := by ring
    rw [e]
    refine (abs_sub _ _).trans ?_
    have := abs_sub (r00 * y0 + r01 * y1 + r02 * y2) (r01 * y1)
    linarith [m a02 b2, m a01 b1]
  have q : ∀ {y : ℝ}, |y| ≤ 1 / 10 ^ 5 → y ^ 2 ≤ 1 / 10 ^ 10 := by
    intro y h
    have := sq_le_sq' (by linarith [neg_abs_le y]) ((le_abs_self y).trans h)
    norm_num at this ⊢
    linarith
  have hy : 9997 / 10000 ≤ |y2| := by
    refine le_of_sq_le_sq ?_ (abs_nonneg _)
    rw [sq_abs]
    linarith [q s0, q s1]
  rw [abs_mul, abs_of_nonneg h2] at t2
  have := mul_le_mul_of_nonneg_left hy h2
  linarith

/-- A matrix with nearly orthonormal columns is invertible and nearly an isometry. -/
theorem near_orth_solve {V W : Matrix (Fin 3) (Fin 3) ℝ} (hW : W.transpose * W = 1)
    (h : ∀ a c, |V a c - W a c| ≤ 1 / 10 ^ 9) {z : Vec} (hz : len z = 1) :
    ∃ y, V *ᵥ y = z ∧ |len y - 1| ≤ 4 / 10 ^ 9 := by
  have iso : ∀ y : Vec, len (W *ᵥ y) = len y := fun y => by rw [len_eq, len_eq, orth_dot hW]
  have d : ∀ y : Vec, |len (V *ᵥ y) - len y| ≤ 3 / 10 ^ 9 * len y := by
    intro y
    have h1 := len_mulVec_entries (E := V - W) (e := 1 / 10 ^ 9) (fun a c => by rw [Matrix.sub_apply]; exact h a c) y
    have h2 := len_add_le ((V - W) *ᵥ y) (W *ᵥ y)
    have h3 := len_add_le (-((V - W) *ᵥ y)) (V *ᵥ y)
    rw [sub_mulVec] at h1 h2 h3
    rw [len_neg] at h3
    rw [sub_add_cancel] at h2
    rw [neg_sub, sub_add_cancel, iso] at h3
    rw [iso] at h2
    rw [abs_le]
    constructor <;> linarith
  have hinj : Function.Injective V.mulVec := by
    intro x y hxy
    have h1 : V *ᵥ (x - y) = 0 := by rw [mulVec_sub]; exact sub_eq_zero.2 hxy
    have h2 := (abs_le.1 (d (x - y))).1
    rw [h1, len_eq_zero.2 rfl] at h2
    have h3 := len_nonneg (x - y)
    have h4 : len (x - y) = 0 := by linarith
    exact sub_eq_zero.1 (len_eq_zero.1 h4)
  obtain ⟨y, hy⟩ := (mulVec_surjective_iff_isUnit.2 (mulVec_injective_iff_isUnit.1 hinj)) z
  refine ⟨y, hy, ?_⟩
  have h1 := d y
  have hy' : V *ᵥ y = z := hy
  rw [hy', hz, abs_le] at h1
  rw [abs_le]
  constructor <;> linarith

set_option maxHeartbeats 1000000 in
/-- nalgebra's SVD, when it converges, is backward stable with an error of about the iteration's own accuracy. -/
theorem svd_near (q : RoundingQr fl) (k : RoundingMore fl) (v : RoundingSvd fl) (hF : Fine r)
    {m : Mat 3 3 R} (hm : ∀ i j, fl.isFinite (m i j)) (hM : Broad (vmat fl m) N) {eps : R}
    (he : EpsNear fl eps) {d : SVD R} (hd : svd m true true eps 100 = some d) :
    ∃ (U Vt : Mat 3 3 R) (U' V' : Matrix (Fin 3) (Fin 3) ℝ), d.u = some U ∧ d.vT = some Vt ∧
      (∀ i j, fl.isFinite (U i j) ∧ |fl.val (U i j) - U' i j| ≤ 1 / 10 ^ 9) ∧
      (∀ i j, fl.isFinite (Vt i j) ∧ |fl.val (Vt i j) - V' i j| ≤ 1 / 10 ^ 9) ∧
      (∀ i, fl.isFinite (d.singularValues i) ∧ 0 ≤ fl.val (d.singularValues i)) ∧
      U'.transpose * U' = 1 ∧ V' * V'.transpose = 1 ∧
      (∀ w : Vec, len ((U' * Matrix.diagonal (fun i => fl.val (d.singularValues i)) * V') *ᵥ w -
        vmat fl m *ᵥ w) ≤ 125 / 10 ^ 8 * N * len w) ∧
      48 / 100 * N ≤ fl.val (d.singularValues 0) ∧ 48 / 100 * N ≤ fl.val (d.singularValues 1) ∧
      ∀ z : Vec, len z = 1 → len (vmat fl m *ᵥ z) ≤ 1 / 10 ^ 7 * N →
        fl.val (d.singularValues 2) ≤ 1001 / 1000 * (len (vmat fl m *ᵥ z) + 82000 * fl.u * N) := by
  have hu0 := fl.u_nonneg
  have hu' := hF.u_le
  have hN := hM.one_le
  have hN2 : 0 < N ^ 2 := by positivity
  cases hV : eigenvectors (fun i j => tailDot 0 (fun k => m k i) fun k => m k j) eps 100 with
  | none => simp only [svd, hV] at hd; cases hd
  | some V =>
    have hd' : some
      { u := some (Householder.q (qrNew (Svd3.order 1 2 (Svd3.order 0 2 (Svd3.order 0 1 (Mat.mul3 m V, V)))).1))
        vT := some (Mat.transpose' (Svd3.order 1 2 (Svd3.order 0 2 (Svd3.order 0 1 (Mat.mul3 m V, V)))).2)
        singularValues := fun i => Scalar.abs ((qrNew (Svd3.order 1 2 (Svd3.order 0 2 (Svd3.order 0 1
            (Mat.mul3 m V, V)))).1).2 i) } = some d := by
      rw [← hd]; simp only [svd, hV]; rfl
    obtain ⟨W0, ho, hVn, hG⟩ := eigenvectors_near q k v hF hm hM he hV
    obtain ⟨W, h, b0, b1⟩ := (pair_near hF hm hM ho hVn hG).ordered k hF hM
    generalize Svd3.order 1 2 (Svd3.order 0 2 (Svd3.order 0 1 (Mat.mul3 m V, V))) = bv at h hd'
    injection hd' with hd'
    subst hd'
    obtain ⟨hin, hup⟩ := h.rankInput hF hM b0 b1
    obtain ⟨Q, hq⟩ := qr_rank q k v hF hin
    set T : Matrix (Fin 3) (Fin 3) ℝ := Matrix.of fun a c => fl.val ((Householder.qr bv.1).2 a c) with hT
    have hr1 : ∀ i, Scalar.abs ((qrNew bv.1).2 i) = (Householder.qr bv.1).2 i i := by
      intro i; simp [Householder.qr, Householder.r]
    set V' : Matrix (Fin 3) (Fin 3) ℝ := Matrix.of W with hV'
    have hVV : V' * V'.transpose = 1 := by
      ext i j
      rw [mul_apply, one_apply, ← h.orth i j]
      rfl
    have hVV' := mul_eq_one_comm.1 hVV
    set B : Matrix (Fin 3) (Fin 3) ℝ := Matrix.of fun a c => (vmat fl m *ᵥ W c) a with hB
    have hBM : vmat fl m = B * V' := by
      have e : B = vmat fl m * V'.transpose := by
        ext a c
        rw [mul_apply]; rfl
      rw [e, Matrix.mul_assoc, hVV', Matrix.mul_one]
    have hP : ∀ a c, |(Q * T) a c - B a c| ≤ 5 / 10 ^ 9 * N := by
      intro a c
      have e1 := hq.prod a c
      have e2 := (h.bn a c).2
      have e3 : |fl.val (bv.1 a c) - B a c| ≤ _ := e2
      have e4 := abs_sub_le ((Q * T) a c) (fl.val (bv.1 a c)) (B a c)
      have e5 : fl.u * colLens fl bv.1 N c ≤ 12 / 10 ^ 17 * (2 * N) :=
        mul_le_mul hu' (hup c) (le_trans (by norm_num) (hin.low c)) (by norm_num)
      linarith
    have hG : ∀ i j, (fun r => T r i) ⬝ᵥ (fun r => T r j) = (fun a => (Q * T) a i) ⬝ᵥ (fun a => (Q * T) a j) := by
      intro i j
      have e : (Q * T).transpose * (Q * T) = T.transpose * T := by
        rw [transpose_mul, Matrix.mul_assoc, ← Matrix.mul_assoc _ Q, hq.orth, Matrix.one_mul]
      exact (congrFun (congrFun e i) j).symm
    have hGn : ∀ i j, |(fun r => T r i) ⬝ᵥ (fun r => T r j) - (vmat fl m *ᵥ W i) ⬝ᵥ (vmat fl m *ᵥ W j)| ≤
        301 / 10 ^ 10 * N ^ 2 := by
      intro i j
      rw [hG]
      have := dot_near (x := fun a => (Q * T) a i) (y := fun a => (Q * T) a j) (X := vmat fl m *ᵥ W i)
        (Y := vmat fl m *ᵥ W j) (N := N) (τ := 5 / 10 ^ 9) (by linarith)
        (by norm_num) (fun a => hP a i) (fun a => hP a j) (fun a => h.bvec hM a i) (fun a => h.bvec hM a j)
      linarith
    have t10 : T 1 0 = 0 := hq.r_zero 1 0 (by decide)
    have t20 : T 2 0 = 0 := hq.r_zero 2 0 (by decide)
    have t21 : T 2 1 = 0 := hq.r_zero 2 1 (by decide)
    have v00 : (fun r => T r 0) ⬝ᵥ (fun r => T r 0) = T 0 0 ^ 2 := by
      simp [dotProduct, Fin.sum_univ_three, t10, t20]; ring
    have v11 : (fun r => T r 1) ⬝ᵥ (fun r => T r 1) = T 0 1 ^ 2 + T 1 1 ^ 2 := by
      simp [dotProduct, Fin.sum_univ_three, t21]; ring
    have goff : ∀ i j, i ≠ j → |(fun r => T r i) ⬝ᵥ (fun r => T r j)| ≤ 335 / 10 ^ 9 * N ^ 2 := by
      intro i j hij
      have a1 := hGn i j
      have a2 := h.gram i j hij
      have a3 := abs_sub_abs_le_abs_sub ((fun r => T r i) ⬝ᵥ (fun r => T r j))
        ((vmat fl m *ᵥ W i) ⬝ᵥ (vmat fl m *ᵥ W j))
      linarith
    have n01 := goff 0 1 (by decide)
    have n02 := goff 0 2 (by decide)
    have n12 := goff 1 2 (by decide)
    simp only [dotProduct, Fin.sum_univ_three, t10, t20, t21, mul_zero, zero_mul, add_zero] at n01 n02 n12
    have g00 := (abs_le.1 (hGn 0 0)).1
    have g11 := (abs_le.1 (hGn 1 1)).1
    rw [v00] at g00
    rw [v11] at g11
    unfold energy at b0 b1
    have hoff := off_near (N := N) (r00 := T 0 0) (r01 := T 0 1) (r02 := T 0 2) (r11 := T 1 1)
      (r12 := T 1 2) (by linarith) (by linarith) (by linarith) n01 n02 n12
    have d0 : 48 / 100 * N ≤ T 0 0 := by
      refine le_of_sq_le_sq ?_ (hq.r_nonneg 0)
      nlinarith
    have d1 : 48 / 100 * N ≤ T 1 1 := by
      refine le_of_sq_le_sq ?_ (hq.r_nonneg 1)
      nlinarith [sq_nonneg (T 0 2), sq_nonneg (T 1 2)]
    refine ⟨_, _, Q, V', rfl, rfl, fun i j => ⟨hq.q_fin i j, (hq.q_near i j).trans (by linarith)⟩,
      fun i j => h.vn j i, fun i => ?_, hq.orth, hVV, fun w => ?_, ?_, ?_, fun z hz hMz => ?_⟩
    · simp only [hr1]
      exact ⟨hq.r_fin i i, hq.r_nonneg i⟩
    · simp only [hr1]
      set y := V' *ᵥ w with hy
      have hyl : len y = len w := by
        rw [len_eq, len_eq, hy, dotProduct_mulVec, ← mulVec_transpose, mulVec_mulVec, hVV', one_mulVec]
      have e1 : (Q * Matrix.diagonal (fun i => fl.val ((Householder.qr bv.1).2 i i)) * V') *ᵥ w - vmat fl m *ᵥ w =
          Q *ᵥ (Matrix.diagonal (fun i => T i i) *ᵥ y - T *ᵥ y) + (Q * T - B) *ᵥ y := by
        rw [hBM, mulVec_sub, sub_mulVec, hy]
        simp only [mulVec_mulVec, Matrix.mul_assoc]
        simp only [hT, of_apply]
        abel
      rw [e1]
      refine (len_add_le _ _).trans ?_
      have a1 := drop_off hq.orth (B := 122 / 10 ^ 8 * N) (by positivity) t10 t20 t21 hoff y
      have a2 := len_mulVec_entries (E := Q * T - B) (e := 5 / 10 ^ 9 * N)
        (fun a c => by rw [Matrix.sub_apply]; exact hP a c) y
      rw [hyl] at a1 a2
      have a3 : 0 ≤ N * len w := mul_nonneg (by linarith) (len_nonneg w)
      linarith
    · simp only [hr1]
      exact d0
    · simp only [hr1]
      exact d1
    · simp only [hr1]
      set Vc : Matrix (Fin 3) (Fin 3) ℝ := Matrix.of fun a c => fl.val (bv.2 a c) with hVc
      obtain ⟨y, hy, hyl⟩ := near_orth_solve (V := Vc) (W := V'.transpose) (by rw [transpose_transpose, hVV])
        (fun a c => (h.vn a c).2) hz
      rw [abs_le] at hyl
      set Bc : Matrix (Fin 3) (Fin 3) ℝ := Matrix.of fun a c => fl.val (bv.1 a c) with hBc
      have e1 := len_mulVec_entries (E := Q * T - Bc) (e := 27000 * fl.u * N) (fun a c => by
        rw [Matrix.sub_apply]
        refine (hq.prod a c).trans ?_
        have := mul_le_mul_of_nonneg_left (hup c) hu0
        linarith) y
      have e2 := len_mulVec_entries (E := Bc - vmat fl m * Vc) (e := 100 * fl.u * N) (fun a c => by
        rw [Matrix.sub_apply]
        exact h.bm a c) y
      have e3 : Q *ᵥ (T *ᵥ y) = (Q * T - Bc) *ᵥ y + ((Bc - vmat fl m * Vc) *ᵥ y + vmat fl m *ᵥ z) := by
        rw [sub_mulVec, sub_mulVec, ← mulVec_mulVec, ← mulVec_mulVec, hy]
        abel
      have e4 : len (T *ᵥ y) ≤ len (vmat fl m *ᵥ z) + 82000 * fl.u * N := by
        have i : len (T *ᵥ y) = len (Q *ᵥ (T *ᵥ y)) := by rw [len_eq, len_eq, orth_dot hq.orth]
        rw [i, e3]
        refine (len_add_le _ _).trans ?_
        have := len_add_le ((Bc - vmat fl m * Vc) *ᵥ y) (vmat fl m *ᵥ z)
        have uN : 0 ≤ fl.u * N := mul_nonneg hu0 (by linarith)
        have := mul_le_mul_of_nonneg_left hyl.2 uN
        nlinarith
      have c0 := (abs_coord_le (T *ᵥ y) 0).trans e4
      have c1 := (abs_coord_le (T *ᵥ y) 1).trans e4
      have c2 := (abs_coord_le (T *ᵥ y) 2).trans e4
      simp only [mulVec, dotProduct, Fin.sum_univ_three, t10, t20, t21, zero_mul, zero_add] at c0 c1 c2
      have hyy : y 0 ^ 2 + y 1 ^ 2 + y 2 ^ 2 = len y ^ 2 := by
        rw [len_sq, dotProduct, Fin.sum_univ_three]; ring
      have uN : fl.u * N ≤ 12 / 10 ^ 17 * N := mul_le_mul_of_nonneg_right hu' (by linarith)
      refine last_small (N := N) (by linarith) d0 d1 (hq.r_nonneg 2) hoff ?_ ?_ ?_ c0 c1 c2
      · linarith
      · rw [hyy]; nlinarith
      · rw [hyy]; nlinarith

/-- The decomposition is computed. -/
theorem svd_converges (q : RoundingQr fl) (k : RoundingMore fl) (v : RoundingSvd fl) (hF : Fine r)
    {m : Mat 3 3 R} (hm : ∀ i j, fl.isFinite (m i j)) (hM : Broad (vmat fl m) N) {eps : R}
    (he : EpsNear fl eps) : ∃ d, svd m true true eps 100 = some d := by
  obtain ⟨V, hV⟩ := Option.ne_none_iff_exists'.1 (eigenvectors_converges q k v hF hm hM he)
  exact ⟨_, by simp only [svd, hV]; rfl⟩

end SvdNear
end CamGeom
