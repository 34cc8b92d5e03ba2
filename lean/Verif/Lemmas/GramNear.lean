import Verif.Lemmas.ContractNear

/-!
# The eigenvectors of the Gram matrix in floating point
-/

namespace CamGeom
namespace SvdNear
open Matrix Householder
open Svd3 hiding Near

variable {R : Type} [Scalar R] {fl : Rounding R} {r : RoundingRange fl}

/-- The largest magnitude of an entry is found exactly. -/
theorem camax_near (q : RoundingQr fl) (k : RoundingMore fl) {m : Mat 3 3 R} (hm : ∀ i j, fl.isFinite (m i j)) :
    fl.isFinite (camax m) ∧ (∀ i j, |fl.val (m i j)| ≤ fl.val (camax m)) ∧
      ∃ i j, fl.val (camax m) = |fl.val (m i j)| := by
  let mx := fun a b : R => if Scalar.lt a b then b else a
  let P := fun x : R => fl.isFinite x ∧ ∃ i j, fl.val x = |fl.val (m i j)|
  have step : ∀ x i j, P x → P (mx x (Scalar.abs (m i j))) ∧ fl.val x ≤ fl.val (mx x (Scalar.abs (m i j))) ∧
      |fl.val (m i j)| ≤ fl.val (mx x (Scalar.abs (m i j))) := by
    intro x i j hx
    obtain ⟨f, e⟩ := q.abs (hm i j)
    have h := k.lt_iff hx.1 f
    by_cases hc : fl.val x < fl.val (Scalar.abs (m i j))
    · have : mx x (Scalar.abs (m i j)) = Scalar.abs (m i j) := by simp only [mx]; rw [if_pos (h.2 hc)]
      rw [this]
      exact ⟨⟨f, i, j, e⟩, hc.le, e.ge⟩
    · have : mx x (Scalar.abs (m i j)) = x := by simp only [mx]; rw [if_neg (fun h' => hc (h.1 h'))]
      rw [this]
      exact ⟨hx, le_rfl, by rw [← e]; exact not_lt.1 hc⟩
  have e : camax m = mx (mx (mx (mx (mx (mx (mx (mx (Scalar.abs (m 0 0)) (Scalar.abs (m 1 0))) (Scalar.abs (m 2 0)))
      (Scalar.abs (m 0 1))) (Scalar.abs (m 1 1))) (Scalar.abs (m 2 1))) (Scalar.abs (m 0 2))) (Scalar.abs (m 1 2)))
      (Scalar.abs (m 2 2)) := rfl
  obtain ⟨f, e0⟩ := q.abs (hm 0 0)
  obtain ⟨p1, a1, b1⟩ := step _ 1 0 ⟨f, 0, 0, e0⟩
  obtain ⟨p2, a2, b2⟩ := step _ 2 0 p1
  obtain ⟨p3, a3, b3⟩ := step _ 0 1 p2
  obtain ⟨p4, a4, b4⟩ := step _ 1 1 p3
  obtain ⟨p5, a5, b5⟩ := step _ 2 1 p4
  obtain ⟨p6, a6, b6⟩ := step _ 0 2 p5
  obtain ⟨p7, a7, b7⟩ := step _ 1 2 p6
  obtain ⟨p8, a8, b8⟩ := step _ 2 2 p7
  rw [← e] at p8 a8 b8
  refine ⟨p8.1, ?_, p8.2⟩
  rw [e0] at a1
  intro i j
  fin_cases i <;> fin_cases j <;> simp only [Fin.zero_eta, Fin.mk_one, Fin.reduceFinMk] <;> linarith

/-- The values of a matrix. -/
def vmat (fl : Rounding R) (m : Mat 3 3 R) : Matrix (Fin 3) (Fin 3) ℝ := Matrix.of fun i j => fl.val (m i j)

/-- `M` stretches no vector by more than `N`, and no two orthonormal vectors are both shortened to much less than
`N / 2`. -/
structure Broad (M : Matrix (Fin 3) (Fin 3) ℝ) (N : ℝ) : Prop where
  one_le : 1 ≤ N
  top : N ≤ 10 ^ 40
  le : ∀ w, (M *ᵥ w) ⬝ᵥ (M *ᵥ w) ≤ N ^ 2 * (w ⬝ᵥ w)
  two : ∀ u v w, Frame u v w → 48 / 100 * N ^ 2 ≤ (M *ᵥ u) ⬝ᵥ (M *ᵥ u) + (M *ᵥ v) ⬝ᵥ (M *ᵥ v)

theorem ee (a b : Fin 3) : e a ⬝ᵥ e b = if a = b then 1 else 0 := by rw [← dot_eq, dot_e]

section
variable {M : Matrix (Fin 3) (Fin 3) ℝ} {N : ℝ}

theorem Broad.entry (h : Broad M N) (i j : Fin 3) : |M i j| ≤ N := by
  have h0 := h.one_le
  have h1 := h.le (e j)
  rw [ee, if_pos rfl, mul_one] at h1
  have h2 : ∀ a, (M *ᵥ e j) a = M a j := fun a => by
    fin_cases j <;> simp [mulVec, dotProduct, e]
  rw [dotProduct, Fin.sum_univ_three, h2, h2, h2] at h1
  refine abs_le_of_sq_le_sq ?_ (by linarith)
  have s0 := mul_self_nonneg (M 0 j)
  have s1 := mul_self_nonneg (M 1 j)
  have s2 := mul_self_nonneg (M 2 j)
  have hi : i = 0 ∨ i = 1 ∨ i = 2 := by omega
  rw [sq (M i j)]
  rcases hi with rfl | rfl | rfl <;> linarith

theorem Broad.gram_le (h : Broad M N) (i j : Fin 3) : |(M *ᵥ e i) ⬝ᵥ (M *ᵥ e j)| ≤ N ^ 2 := by
  have h1 := h.le (e i)
  have h2 := h.le (e j)
  rw [ee, if_pos rfl, mul_one] at h1 h2
  have := abs_dot_le_add (M *ᵥ e i) (M *ᵥ e j)
  linarith

theorem Broad.diag (h : Broad M N) : ∃ i, 24 / 100 * N ^ 2 ≤ (M *ᵥ e i) ⬝ᵥ (M *ᵥ e i) := by
  have h1 := h.two _ _ _ frame_e
  by_contra hn
  simp only [not_exists, not_le] at hn
  have := hn 0
  have := hn 1
  linarith

end

/-- The computed Gram matrix. -/
theorem gram_near (hF : Fine r) {m : Mat 3 3 R} {N : ℝ} (hm : ∀ i j, fl.isFinite (m i j)) (h : Broad (vmat fl m) N)
    (i j : Fin 3) :
    Near fl (N * N) 1 12 (tailDot 0 (fun k => m k i) fun k => m k j)
      ((vmat fl m *ᵥ e i) ⬝ᵥ (vmat fl m *ᵥ e j)) := by
  have hN := h.one_le
  have hN0 : 0 ≤ N := by linarith
  have hNN : N * N ≤ 10 ^ 100 := by
    have := mul_le_mul h.top h.top hN0 (by norm_num)
    refine this.trans ?_
    norm_num
  have sc := hF.scale (mul_nonneg hN0 hN0) hNN
  have hω : fl.ω ≤ N * N := hF.ω1.trans (by nlinarith)
  have n : ∀ a b, Near fl N 1 0 (m a b) (fl.val (m a b)) := fun a b =>
    Near.exact (hm a b) (by rw [one_mul]; exact h.entry a b)
  have e1 : ∀ a b, (vmat fl m *ᵥ e b) a = fl.val (m a b) := fun a b => by
    fin_cases b <;> simp [mulVec, dotProduct, e, vmat]
  have e2 : (vmat fl m *ᵥ e i) ⬝ᵥ (vmat fl m *ᵥ e j) =
      tailDot 0 (fun k => fl.val (m k i)) fun k => fl.val (m k j) := by
    rw [dotProduct, Fin.sum_univ_three]
    simp only [e1]
    simp [tailDot]
  have g := h.gram_le i j
  rw [e2] at g ⊢
  have := tailDot_near (r := r) (M := 1) (C := 2) 0 hN0 hN0 sc hω hF.hu (fun k _ => n k i) (fun k _ => n k j)
    (by rw [one_mul]; linarith [sq N]) (by norm_num) le_rfl le_rfl (by norm_num)
  exact this.mono sc.pos le_rfl (by norm_num)

/-- The scaled Gram matrix. -/
theorem scaled_near (q : RoundingQr fl) (k : RoundingMore fl) (hF : Fine r) {m : Mat 3 3 R} {N : ℝ}
    (hm : ∀ i j, fl.isFinite (m i j)) (h : Broad (vmat fl m) N) :
    let s : Mat 3 3 R := fun i j => tailDot 0 (fun k => m k i) fun k => m k j
    ∃ A, 239 / 1000 * N ^ 2 ≤ A ∧ A ≤ 1001 / 1000 * N ^ 2 ∧ ¬ Scalar.beq (camax s) 0 = true ∧
      ∀ i j, fl.isFinite (s i j / camax s) ∧ |fl.val (s i j / camax s)| ≤ 1000001 / 1000000 ∧
        |fl.val (s i j / camax s) - (vmat fl m *ᵥ e i) ⬝ᵥ (vmat fl m *ᵥ e j) / A| ≤ 100 * fl.u := by
  intro s
  have hu := hF.hu
  have hu0 := fl.u_nonneg
  have hN := h.one_le
  have hN0 : 0 ≤ N := by linarith
  have hNp : 0 < N * N := by nlinarith
  have hNN : N * N ≤ 10 ^ 100 := by
    have := mul_le_mul h.top h.top hN0 (by norm_num)
    refine this.trans ?_
    norm_num
  have g := gram_near hF hm h
  obtain ⟨fA, hle, i0, j0, hA⟩ := camax_near q k (m := s) fun i j => (g i j).fin
  set A := fl.val (camax s) with hAdef
  have err : ∀ i j, |fl.val (s i j) - (vmat fl m *ᵥ e i) ⬝ᵥ (vmat fl m *ᵥ e j)| ≤ 12 / 10 ^ 7 * (N * N) := fun i j =>
    (g i j).err_le hu hNp.le (by norm_num)
  have hlow : 239 / 1000 * N ^ 2 ≤ A := by
    obtain ⟨i, hi⟩ := h.diag
    have h1 := hle i i
    have h2 := (abs_le.1 (err i i)).1
    have h3 := le_abs_self (fl.val (s i i))
    nlinarith
  have hhigh : A ≤ 1001 / 1000 * N ^ 2 := by
    rw [hA]
    have h1 := abs_sub_abs_le_abs_sub (fl.val (s i0 j0)) ((vmat fl m *ᵥ e i0) ⬝ᵥ (vmat fl m *ᵥ e j0))
    have h2 := err i0 j0
    have h3 := h.gram_le i0 j0
    nlinarith
  have hA0 : 0 < A := by nlinarith
  have nn1 : N * N / (N * N) = 1 := div_self hNp.ne'
  have nA : Near fl (N * N) (1001 / 1000) 0 (camax s) A := Near.exact fA (by
    rw [abs_of_pos hA0, ← sq]; exact hhigh)
  refine ⟨A, hlow, hhigh, ?_, fun i j => ?_⟩
  · rw [q.beq_iff fA fl.zero.1, fl.zero.2]
    exact hA0.ne'
  · have hd := Near.div (r := r) (M := 5) (C := 100) (239 / 1000) hNp.le hNp
      (by rw [nn1]; exact hF.scale zero_le_one (by norm_num)) (by rw [nn1]; exact hF.ω1) hu (g i j) nA
      (by rw [abs_of_pos hA0, ← sq]; exact hlow) (by
        rw [nn1, mul_one, abs_div, abs_of_pos hA0, div_le_iff₀ hA0]
        have := h.gram_le i j
        linarith)
    have hd := hd.scale nn1
    refine ⟨hd.fin, ?_, hd.err1⟩
    have h1 := ((fl.div hd.fin).2 fA).2
    have h2 : |fl.val (s i j) / A| ≤ 1 := by
      rw [abs_div, abs_of_pos hA0, div_le_one hA0]; exact hle i j
    have h3 : fl.u * (|fl.val (s i j) / A| + fl.ω) ≤ 1 / 10 ^ 7 * (1 + 1) := by
      have := hF.ω1
      have := fl.ω_nonneg
      gcongr
    have h4 := abs_sub_abs_le_abs_sub (fl.val (s i j / camax s)) (fl.val (s i j) / A)
    linarith

theorem bil_sub (S T : Matrix (Fin 3) (Fin 3) ℝ) (x y : V3 ℝ) : bil (S - T) x y = bil S x y - bil T x y := by
  simp only [bil, sub_mulVec, dotProduct_sub]

/-- The computed scaled Gram matrix is nearly a Gram matrix. -/
theorem gram_bil (q : RoundingQr fl) (k : RoundingMore fl) (hF : Fine r) {m : Mat 3 3 R} {N : ℝ}
    (hm : ∀ i j, fl.isFinite (m i j)) (h : Broad (vmat fl m) N) {s : Mat 3 3 R}
    (hs : s = fun i j => tailDot 0 (fun k => m k i) fun k => m k j) :
    ∃ A, 0 < A ∧ A ≤ 1001 / 1000 * N ^ 2 ∧ ¬ Scalar.beq (camax s) 0 = true ∧
      (∀ i j, fl.isFinite (s i j / camax s) ∧ |fl.val (s i j / camax s)| ≤ 1000001 / 1000000) ∧
      GramNear (symVal fl fun i j => s i j / camax s) ∧
      ∀ x y, x ⬝ᵥ x = 1 → y ⬝ᵥ y = 1 →
        |bil (symVal fl fun i j => s i j / camax s) x y - (vmat fl m *ᵥ x) ⬝ᵥ (vmat fl m *ᵥ y) / A| ≤ 302 * fl.u := by
  subst hs
  have hu0 := fl.u_nonneg
  have hu' := hF.u_le
  have hN := h.one_le
  have hNp : 0 < N ^ 2 := by positivity
  obtain ⟨A, h1, h2, h3, h4⟩ := scaled_near q k hF hm h
  set s : Mat 3 3 R := fun i j => tailDot 0 (fun k => m k i) fun k => m k j
  have hA0 : 0 < A := by linarith
  set S := symVal fl fun i j => s i j / camax s with hS
  set G : Matrix (Fin 3) (Fin 3) ℝ := Matrix.of fun i j => gram (Matrix.of.symm (vmat fl m)) i j / A with hG
  have hGb : ∀ x y, bil G x y = (vmat fl m *ᵥ x) ⬝ᵥ (vmat fl m *ᵥ y) / A := fun x y => by
    rw [hG, bil_div, bil_gram]
  have hd : ∀ a b, |(S - G) a b| ≤ 100 * fl.u := by
    intro a b
    rw [Matrix.sub_apply]
    show |fl.val (sym _ a b) - gram (Matrix.of.symm (vmat fl m)) a b / A| ≤ _
    rw [gram_e]
    unfold sym
    split
    · exact (h4 a b).2.2
    · rw [dotProduct_comm]
      exact (h4 b a).2.2
  have hb : ∀ x y, x ⬝ᵥ x = 1 → y ⬝ᵥ y = 1 →
      |bil S x y - (vmat fl m *ᵥ x) ⬝ᵥ (vmat fl m *ᵥ y) / A| ≤ 302 * fl.u := by
    intro x y hx hy
    rw [← hGb, ← bil_sub]
    exact (bil_abs_le hx hy hd).trans (by linarith)
  refine ⟨A, hA0, h2, h3, fun i j => ⟨(h4 i j).1, (h4 i j).2.1⟩, ⟨symVal_transpose _, ?_, ?_, ?_⟩, hb⟩
  · intro a b
    show |fl.val (sym _ a b)| ≤ _
    unfold sym
    split
    · exact (h4 a b).2.1
    · exact (h4 b a).2.1
  · intro x hx
    have e1 := (abs_le.1 (hb x x hx hx)).1
    have e2 : 0 ≤ (vmat fl m *ᵥ x) ⬝ᵥ (vmat fl m *ᵥ x) / A := div_nonneg (dot_self_nonneg _) hA0.le
    linarith
  · intro u v w f
    have e1 := (abs_le.1 (hb u u f.uu f.uu)).1
    have e2 := (abs_le.1 (hb v v f.vv f.vv)).1
    have e3 := h.two u v w f
    have e4 : 45 / 100 ≤ ((vmat fl m *ᵥ u) ⬝ᵥ (vmat fl m *ᵥ u) + (vmat fl m *ᵥ v) ⬝ᵥ (vmat fl m *ᵥ v)) / A := by
      rw [le_div_iff₀ hA0]
      linarith
    rw [add_div] at e4
    linarith

/-- The computed eigenvectors are near an orthonormal basis that `M` maps to nearly orthogonal vectors. -/
theorem eigenvectors_near (q : RoundingQr fl) (k : RoundingMore fl) (v : RoundingSvd fl) (hF : Fine r)
    {m : Mat 3 3 R} {N : ℝ} (hm : ∀ i j, fl.isFinite (m i j)) (h : Broad (vmat fl m) N) {eps : R}
    (he : EpsNear fl eps) {V : Mat 3 3 R}
    (hV : eigenvectors (fun i j => tailDot 0 (fun k => m k i) fun k => m k j) eps 100 = some V) :
    ∃ W : Fin 3 → V3 ℝ, (∀ i j, W i ⬝ᵥ W j = if i = j then 1 else 0) ∧
      (∀ a c, fl.isFinite (V a c) ∧ |fl.val (V a c) - W c a| ≤ 1 / 10 ^ 9) ∧
      ∀ i j, i ≠ j → |(vmat fl m *ᵥ W i) ⬝ᵥ (vmat fl m *ᵥ W j)| ≤ 303 / 10 ^ 9 * N ^ 2 := by
  have hu0 := fl.u_nonneg
  have hu' := hF.u_le
  have hN := h.one_le
  have hNp : 0 < N ^ 2 := by positivity
  set s : Mat 3 3 R := fun i j => tailDot 0 (fun k => m k i) fun k => m k j with hs
  obtain ⟨A, hA0, hA1, hb, hent, hG, hbil⟩ := gram_bil q k hF hm h hs
  unfold eigenvectors at hV
  simp only [if_neg hb] at hV
  rw [Option.map_eq_some_iff] at hV
  obtain ⟨t, ht, rfl⟩ := hV
  have hT := tridiag_near q k v hF (m := fun i j => s i j / camax s) fun a c _ => hent a c
  obtain ⟨u₁, u₂, u₃, hsh, fd, fo⟩ := hT
  have hold : Holds fl (symVal fl fun i j => s i j / camax s) (2420000 * fl.u) (tridiag fun i j => s i j / camax s) :=
    ⟨⟨u₁, u₂, u₃, hsh⟩, fd, fun i _ => fo i⟩
  obtain ⟨w₁, w₂, w₃, d0, d1, d2, o0, o1, o2, hf, l0, l1, l2⟩ :=
    loop_two q k v hF hG he 100 (by push_cast; linarith) hold ht
  push_cast at hf
  have hε : 2420000 * fl.u + 100 * (10260 * fl.u) + 5130 * fl.u ≤ 45 / 10 ^ 11 := by linarith
  obtain ⟨-, -, -, b3, b4, b5⟩ := hf.bils
  have F := hf.frame
  have small : ∀ x y o, x ⬝ᵥ x = 1 → y ⬝ᵥ y = 1 → |o| ≤ 3002 / 10 ^ 10 →
      |bil (symVal fl fun i j => s i j / camax s) x y - o| ≤
        301 / 100 * (2420000 * fl.u + 100 * (10260 * fl.u) + 5130 * fl.u) →
      |(vmat fl m *ᵥ x) ⬝ᵥ (vmat fl m *ᵥ y)| ≤ 303 / 10 ^ 9 * N ^ 2 := by
    intro x y o hx hy ho hxy
    have e1 := hbil x y hx hy
    have e2 := abs_sub_abs_le_abs_sub (bil (symVal fl fun i j => s i j / camax s) x y) o
    have e3 := abs_sub_abs_le_abs_sub ((vmat fl m *ᵥ x) ⬝ᵥ (vmat fl m *ᵥ y) / A)
      (bil (symVal fl fun i j => s i j / camax s) x y)
    rw [abs_sub_comm] at e3
    have e4 : |(vmat fl m *ᵥ x) ⬝ᵥ (vmat fl m *ᵥ y) / A| ≤ 3019 / 10 ^ 10 := by linarith
    rw [abs_div, abs_of_pos hA0, div_le_iff₀ hA0] at e4
    linarith
  have sw : ∀ {x y : V3 ℝ}, |(vmat fl m *ᵥ x) ⬝ᵥ (vmat fl m *ᵥ y)| ≤ 303 / 10 ^ 9 * N ^ 2 →
      |(vmat fl m *ᵥ y) ⬝ᵥ (vmat fl m *ᵥ x)| ≤ 303 / 10 ^ 9 * N ^ 2 := fun h => by rwa [dotProduct_comm]
  have g01 := small _ _ _ F.uu F.vv l0 b3
  have g12 := small _ _ _ F.vv F.ww l1 b4
  have g02 := small _ _ _ F.uu F.ww l2 b5
  refine ⟨![w₁, w₂, w₃], ?_, ?_, ?_⟩
  · intro i j
    have vu := (dotProduct_comm w₂ w₁).trans F.uv
    have wu := (dotProduct_comm w₃ w₁).trans F.uw
    have wv := (dotProduct_comm w₃ w₂).trans F.vw
    fin_cases i <;> fin_cases j <;> simp [F.uu, F.vv, F.ww, F.uv, F.uw, F.vw, vu, wu, wv]
  · intro a c
    refine ⟨hf.fin a c c.isLt, ?_⟩
    obtain ⟨n0, n1, n2⟩ := hf.near a
    fin_cases c
    · exact n0.trans (by linarith)
    · exact n1.trans (by linarith)
    · exact n2.trans (by linarith)
  · intro i j hij
    fin_cases i <;> fin_cases j
    · exact absurd rfl hij
    · exact g01
    · exact g02
    · exact sw g01
    · exact absurd rfl hij
    · exact g12
    · exact sw g02
    · exact sw g12
    · exact absurd rfl hij

/-- The iteration ends. -/
theorem eigenvectors_converges (q : RoundingQr fl) (k : RoundingMore fl) (v : RoundingSvd fl) (hF : Fine r)
    {m : Mat 3 3 R} {N : ℝ} (hm : ∀ i j, fl.isFinite (m i j)) (h : Broad (vmat fl m) N) {eps : R}
    (he : EpsNear fl eps) :
    eigenvectors (fun i j => tailDot 0 (fun k => m k i) fun k => m k j) eps 100 ≠ none := by
  have hu0 := fl.u_nonneg
  have hu' := hF.u_le
  set s : Mat 3 3 R := fun i j => tailDot 0 (fun k => m k i) fun k => m k j with hs
  obtain ⟨A, hA0, hA1, hb, hent, hG, hbil⟩ := gram_bil q k hF hm h hs
  unfold eigenvectors
  simp only [if_neg hb]
  rw [Ne, Option.map_eq_none_iff]
  have hT := tridiag_near q k v hF (m := fun i j => s i j / camax s) fun a c _ => hent a c
  obtain ⟨u₁, u₂, u₃, hsh, fd, fo⟩ := hT
  refine loop_converges_near q k v hF hG he 97 (ε := 2420000 * fl.u) (by push_cast; linarith)
    ⟨⟨u₁, u₂, u₃, hsh⟩, fd, fun i _ => fo i⟩ fun _ _ => ?_
  have B := bounds hG hsh (by linarith)
  have h1 := mul_le_mul (pow_le_pow_left₀ (abs_nonneg _) B.o0 2) (pow_le_pow_left₀ (abs_nonneg _) B.o1 4)
    (by positivity) (by positivity)
  rw [sq_abs, Even.pow_abs (by decide)] at h1
  have h2 := mul_le_mul_of_nonneg_right h1 (show (0 : ℝ) ≤ (3 / 10) ^ 97 by positivity)
  refine lt_of_le_of_lt h2 ?_
  norm_num

end SvdNear
end CamGeom
