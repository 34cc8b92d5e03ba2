import Verif.Spec.RoundingRays
import Verif.Lemmas.Rounding
import Verif.Lemmas.RayIntersection
import Verif.Props.InvalidRays
import Verif.Props.RayGeometry

/-!
# Rounding errors of the normal equations of `best_intersection_of_rays`
-/

namespace CamGeom
open Spec Matrix Rounding

section basics
variable {R : Type} [Scalar R] {fl : Rounding R}

/-- A rounded product of approximate factors. -/
theorem mul_near {x y : R} {X Y a b A B : ℝ} (hf : fl.isFinite (x * y)) (hx : |fl.val x - X| ≤ a)
    (hy : |fl.val y - Y| ≤ b) (hX : |X| ≤ A) (hY : |Y| ≤ B) :
    |fl.val (x * y) - X * Y| ≤ a * (B + b) + A * b + fl.u * ((A + a) * (B + b) + fl.ω) := by
  have hu := fl.u_nonneg
  have ha := (abs_nonneg _).trans hx
  have hb := (abs_nonneg _).trans hy
  have hA := (abs_nonneg _).trans hX
  have hx' : |fl.val x| ≤ A + a := by
    have := abs_add_le (fl.val x - X) X
    rw [sub_add_cancel] at this; linarith
  have hy' : |fl.val y| ≤ B + b := by
    have := abs_add_le (fl.val y - Y) Y
    rw [sub_add_cancel] at this; linarith
  have h1 := (fl.mul hf).2.2
  have h2 : |fl.val x * fl.val y| ≤ (A + a) * (B + b) := by
    rw [abs_mul]; exact mul_le_mul hx' hy' (abs_nonneg _) (by linarith)
  have h3 : |fl.val x * fl.val y - X * Y| ≤ a * (B + b) + A * b := by
    rw [show fl.val x * fl.val y - X * Y = (fl.val x - X) * fl.val y + X * (fl.val y - Y) by ring]
    refine (abs_add_le _ _).trans ?_
    rw [abs_mul, abs_mul]
    exact add_le_add (mul_le_mul hx hy' (abs_nonneg _) ha) (mul_le_mul hX hy (abs_nonneg _) hA)
  have h4 := abs_add_le (fl.val (x * y) - fl.val x * fl.val y) (fl.val x * fl.val y - X * Y)
  rw [sub_add_sub_cancel] at h4
  have h5 : fl.u * (|fl.val x * fl.val y| + fl.ω) ≤ fl.u * ((A + a) * (B + b) + fl.ω) := by gcongr
  linarith

/-- A rounded sum of approximate terms. -/
theorem add_near {x y : R} {X Y a b A : ℝ} (hf : fl.isFinite (x + y)) (hx : |fl.val x - X| ≤ a)
    (hy : |fl.val y - Y| ≤ b) (hXY : |X + Y| ≤ A) :
    |fl.val (x + y) - (X + Y)| ≤ a + b + fl.u * (A + a + b) := by
  have hu := fl.u_nonneg
  have h1 := (fl.add hf).2.2
  have h2 : |fl.val x + fl.val y - (X + Y)| ≤ a + b := by
    rw [show fl.val x + fl.val y - (X + Y) = (fl.val x - X) + (fl.val y - Y) by ring]
    exact (abs_add_le _ _).trans (add_le_add hx hy)
  have h3 : |fl.val x + fl.val y| ≤ A + a + b := by
    have := abs_add_le (fl.val x + fl.val y - (X + Y)) (X + Y)
    rw [sub_add_cancel] at this; linarith
  have h4 := abs_add_le (fl.val (x + y) - (fl.val x + fl.val y)) (fl.val x + fl.val y - (X + Y))
  rw [sub_add_sub_cancel] at h4
  have h5 : fl.u * |fl.val x + fl.val y| ≤ fl.u * (A + a + b) := by gcongr
  linarith

theorem one_add_pow_le {u : ℝ} (hu : 0 ≤ u) (n : ℕ) (h : n * u ≤ 1) : (1 + u) ^ n * (1 - n * u) ≤ 1 := by
  induction n with
  | zero => simp
  | succ n ih =>
    push_cast at h ⊢
    have ih := ih (by nlinarith)
    have hp : 0 < (1 + u) ^ n := by positivity
    have h1 : (1 + u) * (1 - (n + 1) * u) ≤ 1 - n * u := by nlinarith [mul_nonneg (Nat.cast_nonneg (α := ℝ) n) (mul_nonneg hu hu)]
    calc (1 + u) ^ (n + 1) * (1 - (n + 1) * u) = (1 + u) ^ n * ((1 + u) * (1 - (n + 1) * u)) := by ring
      _ ≤ (1 + u) ^ n * (1 - n * u) := by gcongr
      _ ≤ 1 := ih

/-- The growth factor of a sum of `n` terms. -/
theorem pow_sub_one_le {u v : ℝ} (hu : 0 ≤ u) (huv : u ≤ v) (n : ℕ) (h : n * v ≤ 1 / 100) :
    (1 + u) ^ n - 1 ≤ 102 / 100 * (n * v) := by
  have hn : (0 : ℝ) ≤ n := Nat.cast_nonneg n
  have h0 : n * u ≤ n * v := by gcongr
  have h1 := one_add_pow_le hu n (by linarith)
  have hp : 0 < (1 + u) ^ n := by positivity
  nlinarith [mul_nonneg hn hu]

/-- Error of a running sum. -/
theorem foldl_err (fl : Rounding R) (l : List R) (s : R) (hf : fl.isFinite (l.foldl (· + ·) s)) :
    fl.isFinite s ∧ (∀ a ∈ l, fl.isFinite a) ∧
    |fl.val (l.foldl (· + ·) s) - (fl.val s + (l.map fl.val).sum)| ≤
      ((1 + fl.u) ^ l.length - 1) * (|fl.val s| + (l.map fun a => |fl.val a|).sum) := by
  have hu := fl.u_nonneg
  induction l generalizing s with
  | nil => exact ⟨hf, by simp, by simp⟩
  | cons a l ih =>
    rw [List.foldl_cons] at hf ⊢
    obtain ⟨h1, h2, h3⟩ := ih (s + a) hf
    obtain ⟨hs, ha, h4⟩ := fl.add h1
    refine ⟨hs, ?_, ?_⟩
    · intro b hb
      rcases List.mem_cons.1 hb with rfl | hb
      · exact ha
      · exact h2 b hb
    · simp only [List.map_cons, List.sum_cons, List.length_cons, pow_succ]
      have hB : 0 ≤ (l.map fun a => |fl.val a|).sum :=
        List.sum_nonneg (by intro x hx; obtain ⟨y, -, rfl⟩ := List.mem_map.1 hx; exact abs_nonneg _)
      set B := (l.map fun a => |fl.val a|).sum
      set T := (l.map fl.val).sum
      have h5 : |fl.val s + fl.val a| ≤ |fl.val s| + |fl.val a| := abs_add_le _ _
      have h6 : |fl.val (s + a)| ≤ (1 + fl.u) * (|fl.val s| + |fl.val a|) := by
        have := abs_add_le (fl.val (s + a) - (fl.val s + fl.val a)) (fl.val s + fl.val a)
        rw [sub_add_cancel] at this
        nlinarith
      have hp := one_le_pow fl l.length
      set r := fl.val (List.foldl (· + ·) (s + a) l)
      have h7 := abs_add_le (r - (fl.val (s + a) + T)) (fl.val (s + a) - (fl.val s + fl.val a))
      rw [show r - (fl.val (s + a) + T) + (fl.val (s + a) - (fl.val s + fl.val a)) =
        r - (fl.val s + (fl.val a + T)) by ring] at h7
      have h8 : ((1 + fl.u) ^ l.length - 1) * (|fl.val (s + a)| + B) ≤
          ((1 + fl.u) ^ l.length - 1) * ((1 + fl.u) * (|fl.val s| + |fl.val a|) + B) := by
        gcongr
      set P := (1 + fl.u) ^ l.length
      have h9 : 0 ≤ fl.u * P * B := by positivity
      nlinarith [abs_nonneg (fl.val s), abs_nonneg (fl.val a)]

/-- Moderate sums do not overflow. -/
theorem foldl_finite (fl : Rounding R) (m : RoundingMore fl) (l : List R) (s : R)
    (hs : fl.isFinite s) (hl : ∀ a ∈ l, fl.isFinite a)
    (hb : (1 + fl.u) ^ l.length * (|fl.val s| + (l.map fun a => |fl.val a|).sum) ≤ m.big) :
    fl.isFinite (l.foldl (· + ·) s) := by
  have hu := fl.u_nonneg
  induction l generalizing s with
  | nil => exact hs
  | cons a l ih =>
    rw [List.foldl_cons]
    simp only [List.map_cons, List.sum_cons, List.length_cons, pow_succ] at hb
    have hB : 0 ≤ (l.map fun a => |fl.val a|).sum :=
      List.sum_nonneg (by intro x hx; obtain ⟨y, -, rfl⟩ := List.mem_map.1 hx; exact abs_nonneg _)
    set B := (l.map fun a => |fl.val a|).sum
    have hp := one_le_pow fl l.length
    set P := (1 + fl.u) ^ l.length
    have ha := hl a (List.mem_cons_self ..)
    have h5 : |fl.val s + fl.val a| ≤ |fl.val s| + |fl.val a| := abs_add_le _ _
    have n1 := abs_nonneg (fl.val s)
    have n2 := abs_nonneg (fl.val a)
    have hP : 1 ≤ P * (1 + fl.u) := by nlinarith
    have h7 : |fl.val s + fl.val a| ≤ m.big := by nlinarith
    have h8 := m.add_finite hs ha h7
    refine ih _ h8 (fun b hb => hl b (List.mem_cons_of_mem _ hb)) (le_trans ?_ hb)
    have h9 := (fl.add h8).2.2
    have h6 : |fl.val (s + a)| ≤ (1 + fl.u) * (|fl.val s| + |fl.val a|) := by
      have := abs_add_le (fl.val (s + a) - (fl.val s + fl.val a)) (fl.val s + fl.val a)
      rw [sub_add_cancel] at this
      nlinarith
    have h10 : P * (|fl.val (s + a)| + B) ≤ P * ((1 + fl.u) * (|fl.val s| + |fl.val a|) + B) := by
      gcongr
    have h11 : 0 ≤ P * fl.u * B := by positivity
    nlinarith

end basics

section directions
variable {R : Type} [Scalar R] {fl : Rounding R}

/-- The vector of values. -/
def vvec (fl : Rounding R) (d : V3 R) : Vec := fun a => fl.val (d a)

theorem normSq_near {u : ℝ} (hu : fl.u ≤ u) (hu1 : u ≤ 1 / 100) (d : V3 R)
    (hd : 3 * fl.ω ≤ len (vvec fl d) ^ 2) (hf : fl.isFinite (V3.normSq d)) :
    |fl.val (V3.normSq d) - len (vvec fl d) ^ 2| ≤ 62 / 10 * u * len (vvec fl d) ^ 2 := by
  have hu0 := fl.u_nonneg
  set L := len (vvec fl d) with hL
  have hq : L ^ 2 = fl.val (d 0) * fl.val (d 0) + fl.val (d 1) * fl.val (d 1) +
      fl.val (d 2) * fl.val (d 2) := by
    rw [hL, len_sq, dotProduct, Fin.sum_univ_three]; rfl
  have hc := (((Comp.exact fl (d 0)).mul (Comp.exact fl (d 0))).add
    ((Comp.exact fl (d 1)).mul (Comp.exact fl (d 1)))).add
    (((Comp.exact fl (d 2)).mul (Comp.exact fl (d 2))).mono (Nat.le_succ _) le_rfl)
  have h4 := (hc hf).2
  rw [← hq] at h4
  simp only [abs_mul_abs_self] at h4
  change |fl.val (V3.normSq d) - L ^ 2| ≤ ((1 + fl.u) ^ 3 - 1) * _ at h4
  refine h4.trans ?_
  have h6 : (1 + fl.u) ^ 3 - 1 ≤ 31 / 10 * u := by
    have h7 : (1 + fl.u) ^ 3 ≤ (1 + u) ^ 3 := by gcongr
    nlinarith [mul_nonneg (hu0.trans hu) (hu0.trans hu)]
  have h8 : fl.val (d 0) * fl.val (d 0) + fl.ω + (fl.val (d 1) * fl.val (d 1) + fl.ω) +
      (fl.val (d 2) * fl.val (d 2) + fl.ω) ≤ 2 * L ^ 2 := by linarith
  have h9 : 0 ≤ fl.val (d 0) * fl.val (d 0) + fl.ω + (fl.val (d 1) * fl.val (d 1) + fl.ω) +
      (fl.val (d 2) * fl.val (d 2) + fl.ω) := by
    have := fl.ω_nonneg
    nlinarith [mul_self_nonneg (fl.val (d 0)), mul_self_nonneg (fl.val (d 1)),
      mul_self_nonneg (fl.val (d 2))]
  calc _ ≤ (31 / 10 * u) * (2 * L ^ 2) := mul_le_mul h6 h8 h9 (by linarith)
    _ = _ := by ring

theorem norm_near (m : RoundingMore fl) {u : ℝ} (hu : fl.u ≤ u) (hu1 : u ≤ 1 / 100) (d : V3 R)
    (hd : 3 * fl.ω ≤ len (vvec fl d) ^ 2) (hd0 : vvec fl d ≠ 0) (hf : fl.isFinite (V3.norm d)) :
    |fl.val (V3.norm d) - len (vvec fl d)| ≤ 8 * u * len (vvec fl d) := by
  have hu0 := fl.u_nonneg
  obtain ⟨h1, h2, h3⟩ := m.sqrt hf
  have h5 := normSq_near hu hu1 d hd h1
  set s := V3.normSq d with hs
  set L := len (vvec fl d) with hL
  have hLp : 0 < L := len_pos.2 hd0
  set t := Real.sqrt (fl.val s) with ht
  have ht0 : 0 ≤ t := Real.sqrt_nonneg _
  have htt : t ^ 2 = fl.val s := Real.sq_sqrt h2
  have h6 : |t - L| ≤ 62 / 10 * u * L := by
    have h7 : |t - L| * L ≤ 62 / 10 * u * L * L := by
      calc |t - L| * L ≤ |t - L| * (t + L) := by gcongr; linarith
        _ = |t ^ 2 - L ^ 2| := by rw [← abs_of_pos (show 0 < t + L by linarith), ← abs_mul]; ring_nf
        _ ≤ 62 / 10 * u * L * L := by rw [htt]; linarith
    exact le_of_mul_le_mul_right h7 hLp
  have h7 : t ≤ L + 62 / 10 * u * L := by linarith [(abs_le.1 h6).2]
  have h8 : fl.u * t ≤ u * (L + 62 / 10 * u * L) := mul_le_mul hu h7 ht0 (by linarith)
  have h9 := abs_add_le (fl.val (V3.norm d) - t) (t - L)
  rw [sub_add_sub_cancel] at h9
  have h10 : |fl.val (V3.norm d) - t| ≤ fl.u * t := h3
  have : u * (62 / 10 * u * L) ≤ 1 / 100 * (62 / 10 * u * L) := by
    have : 0 ≤ u := hu0.trans hu
    gcongr
  have hul : 0 ≤ u * L := mul_nonneg (hu0.trans hu) hLp.le
  nlinarith

theorem abs_coord_le (v : Vec) (a : Fin 3) : |v a| ≤ len v := by
  refine abs_le_of_sq_le_sq ?_ (len_nonneg v)
  rw [len_sq, dotProduct, Fin.sum_univ_three]
  have h0 := mul_self_nonneg (v 0)
  have h1 := mul_self_nonneg (v 1)
  have h2 := mul_self_nonneg (v 2)
  fin_cases a <;> simp only [Fin.zero_eta, Fin.mk_one, Fin.reduceFinMk] <;> nlinarith

/-- The computed unit direction. -/
theorem normalize_near (m : RoundingMore fl) {u : ℝ} (hu : fl.u ≤ u) (hu1 : u ≤ 1 / 100)
    (hω : fl.ω ≤ 1) (d : V3 R) (hd : 3 * fl.ω ≤ len (vvec fl d) ^ 2) (hd0 : vvec fl d ≠ 0)
    (hfn : fl.isFinite (V3.norm d)) (a : Fin 3) (hf : fl.isFinite (V3.normalize d a)) :
    |fl.val (V3.normalize d a) - V3.normalize (vvec fl d) a| ≤ 11 * u := by
  have hu0 := fl.u_nonneg
  have hu0' : 0 ≤ u := hu0.trans hu
  obtain ⟨hda, h1⟩ := fl.div hf
  obtain ⟨hn0, h2⟩ := h1 hfn
  have h3 := norm_near m hu hu1 d hd hd0 hfn
  set L := len (vvec fl d) with hL
  have hLp : 0 < L := len_pos.2 hd0
  set N := fl.val (V3.norm d) with hN
  have hNL : 92 / 100 * L ≤ N := by
    have := (abs_le.1 h3).1
    nlinarith
  have hNp : 0 < N := by linarith
  have hD : |fl.val (d a)| ≤ L := abs_coord_le (vvec fl d) a
  set D := fl.val (d a) with hDd
  have h4 : |D / N| ≤ 109 / 100 := by
    rw [abs_div, abs_of_pos hNp, div_le_iff₀ hNp]; linarith
  have h5 : |D / N - D / L| ≤ 88 / 10 * u := by
    have e : D / N - D / L = D * (L - N) / (N * L) := by field_simp
    rw [e, abs_div, abs_mul, abs_of_pos (mul_pos hNp hLp), div_le_iff₀ (mul_pos hNp hLp)]
    rw [abs_sub_comm] at h3
    calc |D| * |L - N| ≤ L * (8 * u * L) := mul_le_mul hD h3 (abs_nonneg _) hLp.le
      _ ≤ 88 / 10 * u * (92 / 100 * L * L) := by nlinarith [mul_nonneg hu0' (mul_nonneg hLp.le hLp.le)]
      _ ≤ 88 / 10 * u * (N * L) := by gcongr
  have e : V3.normalize (vvec fl d) a = D / L := by
    rw [normalize_eq, Pi.smul_apply, smul_eq_mul, inv_mul_eq_div]; rfl
  rw [e]
  have h6 : |fl.val (V3.normalize d a) - D / N| ≤ fl.u * (|D / N| + fl.ω) := h2
  have h7 : fl.u * (|D / N| + fl.ω) ≤ u * (109 / 100 + 1) :=
    mul_le_mul hu (by linarith) (by have := fl.ω_nonneg; positivity) hu0'
  have h8 := abs_add_le (fl.val (V3.normalize d a) - D / N) (D / N - D / L)
  rw [sub_add_sub_cancel] at h8
  linarith

end directions

section sums
variable {R F : Type} [Scalar R] [Scalar F] [F64Conv R F] {flR : Rounding R} {flF : Rounding F}

theorem mapM_forall₂ {α β : Type} {f : α → Option β} : ∀ {l : List α} {l' : List β},
    l.mapM f = some l' → List.Forall₂ (fun x y => f x = some y) l l'
  | [], l', h => by simp at h; subst h; exact .nil
  | a :: l, l', h => by
    rw [List.mapM_cons] at h
    cases ha : f a with
    | none => rw [ha] at h; cases h
    | some b =>
      cases hl : l.mapM f with
      | none => rw [ha, hl] at h; cases h
      | some m =>
        rw [ha, hl] at h
        cases h
        exact .cons ha (mapM_forall₂ hl)

omit [Scalar R] in
/-- The sum as a fold over converted terms. -/
theorem sumAsF64_spec {n : ℕ} {x : Fin n → R} {s : F} (h : sumAsF64 x = .ok s) :
    ∃ y : Fin n → F, (∀ i, F64Conv.toF64 (x i) = some (y i)) ∧ s = (List.ofFn y).foldl (· + ·) 0 := by
  unfold sumAsF64 at h
  split at h
  · rename_i l hl
    cases h
    have h2 := mapM_forall₂ hl
    have hlen : n = l.length := by simpa using h2.length_eq
    subst hlen
    refine ⟨l.get, fun i => ?_, by rw [List.ofFn_get]⟩
    have := List.Forall₂.get h2 (i := i) (by simp) (by simp)
    simpa using this
  · cases h

theorem list_sum_ofFn_map {n : ℕ} {α : Type} (y : Fin n → α) (f : α → ℝ) :
    ((List.ofFn y).map f).sum = ∑ i, f (y i) := by
  rw [List.map_ofFn, List.sum_ofFn]; rfl

/-- Error of a sum of approximate terms. -/
theorem sum_near (cv : RoundingConv flR flF) {u : ℝ} (hu : flF.u ≤ u) {n : ℕ} (hn : n * u ≤ 1 / 100)
    {x : Fin n → R} {s : F} (h : sumAsF64 x = .ok s) (hf : flF.isFinite s) {X : Fin n → ℝ} {e A : ℝ}
    (hx : ∀ i, flR.isFinite (x i) → |flR.val (x i) - X i| ≤ e) (hX : ∀ i, |X i| ≤ A) :
    (∀ i, flR.isFinite (x i)) ∧
      |flF.val s - ∑ i, X i| ≤ n * e + 102 / 100 * (n * u) * (n * (A + e)) := by
  obtain ⟨y, hy, rfl⟩ := sumAsF64_spec h
  obtain ⟨-, h1, h2⟩ := foldl_err flF _ _ hf
  have hyf : ∀ i, flF.isFinite (y i) := fun i => h1 _ (by rw [List.mem_ofFn]; exact ⟨i, rfl⟩)
  have hc := fun i => cv.toF (hy i) (hyf i)
  refine ⟨fun i => (hc i).1, ?_⟩
  rw [list_sum_ofFn_map, list_sum_ofFn_map, flF.zero.2, List.length_ofFn, abs_zero,
    _root_.zero_add, _root_.zero_add] at h2
  have h3 : ∀ i, |flF.val (y i) - X i| ≤ e := fun i => by rw [(hc i).2]; exact hx i (hc i).1
  have h4 : ∀ i, |flF.val (y i)| ≤ A + e := fun i => by
    have := abs_add_le (flF.val (y i) - X i) (X i)
    rw [sub_add_cancel] at this
    linarith [h3 i, hX i]
  have h5 : ∑ i, |flF.val (y i)| ≤ n * (A + e) := by
    have := Finset.sum_le_sum (s := Finset.univ) fun i _ => h4 i
    simpa only [Finset.sum_const, Finset.card_univ, Fintype.card_fin, nsmul_eq_mul] using this
  have h6 : |∑ i, flF.val (y i) - ∑ i, X i| ≤ n * e := by
    rw [← Finset.sum_sub_distrib]
    refine (Finset.abs_sum_le_sum_abs _ _).trans ?_
    have := Finset.sum_le_sum (s := Finset.univ) fun i _ => h3 i
    simpa using this
  have h7 := pow_sub_one_le flF.u_nonneg hu n hn
  have h8 : 0 ≤ ∑ i, |flF.val (y i)| := Finset.sum_nonneg fun i _ => abs_nonneg _
  have h9 : ((1 + flF.u) ^ n - 1) * ∑ i, |flF.val (y i)| ≤
      102 / 100 * (n * u) * (n * (A + e)) := by
    refine mul_le_mul h7 h5 h8 (le_trans ?_ h7)
    linarith [one_le_pow flF n]
  have h10 := abs_add_le (flF.val (List.foldl (· + ·) 0 (List.ofFn y)) - ∑ i, flF.val (y i))
    (∑ i, flF.val (y i) - ∑ i, X i)
  rw [sub_add_sub_cancel] at h10
  linarith

/-- Sums of moderate finite terms are finite. -/
theorem sum_finite (cv : RoundingConv flR flF) (m : RoundingMore flF) {u : ℝ} (hu : flF.u ≤ u) {n : ℕ}
    (hn : n * u ≤ 1 / 100) {x : Fin n → R} {s : F} (h : sumAsF64 x = .ok s)
    (hx : ∀ i, flR.isFinite (x i)) {K : ℝ} (hK : ∀ i, |flR.val (x i)| ≤ K)
    (hb : 2 * (n * K) ≤ m.big) : flF.isFinite s := by
  obtain ⟨y, hy, rfl⟩ := sumAsF64_spec h
  have hyf : ∀ i, flF.isFinite (y i) := fun i => by
    obtain ⟨z, hz, hzf⟩ := cv.toF_finite (hx i)
    rw [hy i] at hz
    cases hz
    exact hzf
  refine foldl_finite flF m _ _ flF.zero.1 (fun a ha => ?_) ?_
  · obtain ⟨i, rfl⟩ := (List.mem_ofFn ..).1 ha
    exact hyf i
  · rw [list_sum_ofFn_map, flF.zero.2, abs_zero, _root_.zero_add, List.length_ofFn]
    have h5 : ∑ i, |flF.val (y i)| ≤ n * K := by
      have := Finset.sum_le_sum (s := Finset.univ) fun i _ =>
        show |flF.val (y i)| ≤ K by rw [(cv.toF (hy i) (hyf i)).2]; exact hK i
      simpa using this
    have h7 := pow_sub_one_le flF.u_nonneg hu n hn
    have h8 : 0 ≤ ∑ i, |flF.val (y i)| := Finset.sum_nonneg fun i _ => abs_nonneg _
    have h9 : (1 + flF.u) ^ n ≤ 2 := by linarith
    exact le_trans (mul_le_mul h9 h5 h8 (by norm_num)) hb

end sums

section entries
variable {R : Type} [Scalar R] {fl : Rounding R}

/-- The contribution of a ray with computed unit direction `n` to the matrix `S`. -/
def mhat (n : V3 R) : Mat 3 3 R :=
  ![![Scalar.powi (n 0) 2 + Scalar.lit (-1), n 0 * n 1, n 0 * n 2],
    ![n 0 * n 1, Scalar.powi (n 1) 2 + Scalar.lit (-1), n 1 * n 2],
    ![n 0 * n 2, n 1 * n 2, Scalar.powi (n 2) 2 + Scalar.lit (-1)]]

/-- The exact ray of a floating-point ray. -/
def vray {Coords : Type} (fl : Rounding R) (r : Ray Coords R) : Ray Coords ℝ :=
  ⟨vvec fl r.center, vvec fl r.direction⟩

variable {Coords : Type}

theorem dm_apply (r : Ray Coords ℝ) (a b : Fin 3) :
    dm r a b = V3.normalize r.direction a * V3.normalize r.direction b - if a = b then 1 else 0 := by
  rw [dm, Matrix.sub_apply, vecMulVec_apply, Matrix.one_apply]

theorem normalize_coord {v : Vec} (h : v ≠ 0) (a : Fin 3) : |V3.normalize v a| ≤ 1 := by
  have := abs_coord_le (V3.normalize v) a
  rwa [len_normalize h] at this

theorem dm_abs_le {r : Ray Coords ℝ} (h : r.direction ≠ 0) (a b : Fin 3) : |dm r a b| ≤ 1 := by
  rw [dm_apply]
  have ha := normalize_coord h a
  have hb := normalize_coord h b
  by_cases hab : a = b
  · subst hab
    rw [if_pos rfl, abs_le]
    have := abs_le.1 ha
    constructor <;> nlinarith
  · rw [if_neg hab, sub_zero, abs_mul]
    exact mul_le_one₀ ha (abs_nonneg _) hb

/-- What is assumed about a ray: the norm of its direction neither underflows nor overflows. -/
structure GoodRay (fl : Rounding R) (r : Ray Coords R) : Prop where
  ne : vvec fl r.direction ≠ 0
  big : 3 * fl.ω ≤ len (vvec fl r.direction) ^ 2
  norm : fl.isFinite (V3.norm r.direction)

theorem mhat_near (m : RoundingMore fl) {u : ℝ} (hu : fl.u ≤ u) (hu1 : u ≤ 1 / 100) (hω : fl.ω ≤ 1)
    {r : Ray Coords R} (hr : GoodRay fl r) (a b : Fin 3)
    (hf : fl.isFinite (mhat (V3.normalize r.direction) a b)) :
    |fl.val (mhat (V3.normalize r.direction) a b) - dm (vray fl r) a b| ≤ 28 * u := by
  have hu0 := fl.u_nonneg
  have hω0 := fl.ω_nonneg
  have hu0' : 0 ≤ u := hu0.trans hu
  have near := fun a => normalize_near m hu hu1 hω r.direction hr.big hr.ne hr.norm a
  have nb := fun a => normalize_coord hr.ne a
  rw [dm_apply]
  change |_ - (V3.normalize (vvec fl r.direction) a * V3.normalize (vvec fl r.direction) b - _)| ≤ _
  set n := V3.normalize r.direction
  set N := V3.normalize (vvec fl r.direction)
  have hbd : fl.u * ((1 + 11 * u) * (1 + 11 * u) + fl.ω) ≤ u * ((1 + 11 * u) * (1 + 11 * u) + 1) := by
    gcongr
  have hbd2 : u * ((1 + 11 * u) * (1 + 11 * u) + 1) ≤ 224 / 100 * u := by nlinarith [mul_nonneg hu0' hu0']
  have off : ∀ a b, fl.isFinite (n a * n b) → |fl.val (n a * n b) - (N a * N b - 0)| ≤ 28 * u := by
    intro a b hab
    have h1 := mul_near hab (near a (fl.mul hab).1) (near b (fl.mul hab).2.1) (nb a) (nb b)
    rw [sub_zero]
    nlinarith [mul_nonneg hu0' hu0']
  have diag : ∀ a, fl.isFinite (Scalar.powi (n a) 2 + Scalar.lit (-1)) →
      |fl.val (Scalar.powi (n a) 2 + Scalar.lit (-1)) - (N a * N a - 1)| ≤ 28 * u := by
    intro a ha
    obtain ⟨h1, -⟩ := fl.add ha
    obtain ⟨h2, h3⟩ := m.powi_two h1
    have h4 := near a h2
    have h5 := nb a
    have h6 : |fl.val (n a)| ≤ 1 + 11 * u := by
      have := abs_add_le (fl.val (n a) - N a) (N a)
      rw [sub_add_cancel] at this; linarith
    have h7 : |fl.val (n a) * fl.val (n a)| ≤ (1 + 11 * u) * (1 + 11 * u) := by
      rw [abs_mul]; exact mul_le_mul h6 h6 (abs_nonneg _) (by linarith)
    have h8 : |fl.val (n a) * fl.val (n a) - N a * N a| ≤ 11 * u * (2 + 11 * u) := by
      rw [show fl.val (n a) * fl.val (n a) - N a * N a =
        (fl.val (n a) - N a) * (fl.val (n a) + N a) by ring, abs_mul]
      refine mul_le_mul h4 ?_ (abs_nonneg _) (by linarith)
      have := abs_add_le (fl.val (n a)) (N a)
      linarith
    have h9 : fl.u * (|fl.val (n a) * fl.val (n a)| + fl.ω) ≤ 224 / 100 * u := by
      refine le_trans ?_ hbd2
      gcongr
    have h10 := abs_add_le (fl.val (Scalar.powi (n a) 2) - fl.val (n a) * fl.val (n a))
      (fl.val (n a) * fl.val (n a) - N a * N a)
    rw [sub_add_sub_cancel] at h10
    have h11 : |fl.val (Scalar.powi (n a) 2) - N a * N a| ≤ 256 / 10 * u := by
      nlinarith [mul_nonneg hu0' hu0']
    have h12 : |N a * N a + -1| ≤ 1 := by
      rw [abs_le]
      have := abs_le.1 h5
      constructor <;> nlinarith
    have h13 := add_near ha h11 (show |fl.val (Scalar.lit (-1)) - -1| ≤ 0 by
      rw [m.lit_neg_one.2]; simp) h12
    rw [sub_eq_add_neg (N a * N a)]
    have h14 : fl.u * (1 + 256 / 10 * u + 0) ≤ u * (1 + 256 / 10 * u + 0) := by gcongr
    nlinarith [mul_nonneg hu0' hu0']
  fin_cases a <;> fin_cases b
  all_goals first
    | exact diag _ hf
    | exact off _ _ hf
    | (rw [mul_comm (N _) (N _)]; exact off _ _ hf)

end entries

end CamGeom
