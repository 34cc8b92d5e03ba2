import Verif.Lemmas.RoundingRays

/-!
# Rounding errors of the pseudo-inverse and of the final product
-/

namespace CamGeom
open Spec Matrix Rounding

theorem len_mulVec_entries {E : Matrix (Fin 3) (Fin 3) ℝ} {e : ℝ} (h : ∀ a b, |E a b| ≤ e) (w : Vec) :
    len (E *ᵥ w) ≤ 3 * e * len w := by
  have he : 0 ≤ e := (abs_nonneg _).trans (h 0 0)
  set T := |w 0| + |w 1| + |w 2| with hT
  have hT0 : 0 ≤ T := by positivity
  have h1 : ∀ a, |(E *ᵥ w) a| ≤ e * T := by
    intro a
    simp only [mulVec, dotProduct, Fin.sum_univ_three]
    refine (abs_add_three _ _ _).trans ?_
    rw [abs_mul, abs_mul, abs_mul, hT, mul_add, mul_add]
    gcongr <;> exact h _ _
  have h2 : T ^ 2 ≤ 3 * len w ^ 2 := by
    rw [len_sq, dotProduct, Fin.sum_univ_three, ← abs_mul_abs_self (w 0), ← abs_mul_abs_self (w 1),
      ← abs_mul_abs_self (w 2)]
    nlinarith [sq_nonneg (|w 0| - |w 1|), sq_nonneg (|w 0| - |w 2|), sq_nonneg (|w 1| - |w 2|)]
  have h3 : ∀ a, (E *ᵥ w) a * (E *ᵥ w) a ≤ e ^ 2 * T ^ 2 := by
    intro a
    rw [← abs_mul_abs_self, ← mul_pow, pow_two]
    exact mul_le_mul (h1 a) (h1 a) (abs_nonneg _) (by positivity)
  refine le_of_sq_le_sq ?_ (by have := len_nonneg w; positivity)
  rw [len_sq, dotProduct, Fin.sum_univ_three]
  have h4 := h3 0
  have h5 := h3 1
  have h6 := h3 2
  have h7 : e ^ 2 * T ^ 2 ≤ e ^ 2 * (3 * len w ^ 2) := by gcongr
  nlinarith

theorem len_le_entries {v : Vec} {e : ℝ} (h : ∀ a, |v a| ≤ e) : len v ≤ 2 * e := by
  have he : 0 ≤ e := (abs_nonneg _).trans (h 0)
  have h3 : ∀ a, v a * v a ≤ e ^ 2 := by
    intro a
    rw [← abs_mul_abs_self, pow_two]
    exact mul_le_mul (h a) (h a) (abs_nonneg _) he
  refine le_of_sq_le_sq ?_ (by positivity)
  rw [len_sq, dotProduct, Fin.sum_univ_three]
  nlinarith [h3 0, h3 1, h3 2]

theorem len_single (k : Fin 3) (c : ℝ) (hc : 0 ≤ c) : len (Pi.single k c : Vec) = c := by
  have : (len (Pi.single k c : Vec)) ^ 2 = c ^ 2 := by
    rw [len_sq, dotProduct_single, Pi.single_eq_same, pow_two]
  exact (pow_left_inj₀ (len_nonneg _) hc two_ne_zero).1 this

/-- Entries of an orthogonal matrix. -/
theorem orth_entry {A : Matrix (Fin 3) (Fin 3) ℝ} (h : A.transpose * A = 1) (i j : Fin 3) :
    |A i j| ≤ 1 := by
  have h1 := len_orth h (Pi.single j 1)
  rw [len_single _ _ zero_le_one] at h1
  have h2 := abs_coord_le (A *ᵥ Pi.single j 1) i
  rw [h1] at h2
  simpa using h2

theorem orth_entry' {A : Matrix (Fin 3) (Fin 3) ℝ} (h : A * A.transpose = 1) (i j : Fin 3) :
    |A i j| ≤ 1 := orth_entry (mul_eq_one_comm.1 h) i j

/-- Singular values are bounded below by the least stretch. -/
theorem sigma_ge {U V : Matrix (Fin 3) (Fin 3) ℝ} {σ : Vec} (hU : U.transpose * U = 1)
    (hV : V * V.transpose = 1) (hσ : ∀ k, 0 ≤ σ k) {κ : ℝ}
    (h : ∀ w : Vec, κ * len w ≤ len ((U * diagonal σ * V) *ᵥ w)) (k : Fin 3) : κ ≤ σ k := by
  have hV' : (V.transpose).transpose * V.transpose = 1 := by rw [transpose_transpose, hV]
  have h1 := h (V.transpose *ᵥ Pi.single k 1)
  rw [len_orth hV', len_single _ _ zero_le_one, _root_.mul_one, mulVec_mulVec, mul_assoc, hV, _root_.mul_one,
    ← mulVec_mulVec, len_orth hU] at h1
  rwa [show diagonal σ *ᵥ Pi.single k 1 = Pi.single k (σ k) by
    rw [diagonal_mulVec_single, _root_.mul_one], len_single _ _ (hσ k)] at h1

/-- The exact inverse behind the computed pseudo-inverse. -/
theorem inverse_of_svd {U V : Matrix (Fin 3) (Fin 3) ℝ} {σ : Vec} (hU : U.transpose * U = 1)
    (hV : V * V.transpose = 1) (hσ : ∀ k, σ k ≠ 0) :
    (U * diagonal σ * V) * (V.transpose * diagonal (fun k => 1 / σ k) * U.transpose) = 1 := by
  have hU' : U * U.transpose = 1 := mul_eq_one_comm.1 hU
  have hd : diagonal σ * diagonal (fun k => 1 / σ k) = 1 := by
    rw [diagonal_mul_diagonal]
    rw [show (fun i => σ i * (1 / σ i)) = fun _ => 1 by
      funext i; rw [mul_one_div, div_self (hσ i)]]
    exact diagonal_one
  calc (U * diagonal σ * V) * (V.transpose * diagonal (fun k => 1 / σ k) * U.transpose)
      = U * diagonal σ * (V * V.transpose) * diagonal (fun k => 1 / σ k) * U.transpose := by
        simp only [mul_assoc]
    _ = U * (diagonal σ * diagonal (fun k => 1 / σ k)) * U.transpose := by
        rw [hV, _root_.mul_one, mul_assoc U]
    _ = 1 := by rw [hd, _root_.mul_one, hU']

section
variable {F : Type} [Scalar F] {fl : Rounding F}

/-- One term `(u * s) * v` of the recomposition with `s = 1 / σ`. -/
theorem term_near {u η κ : ℝ} (hu : fl.u ≤ u) (hu1 : u ≤ 1 / 100) (hη : η ≤ 1 / 100)
    (hκ : 0 < κ) (hω : fl.ω ≤ 1 / κ) {a s v : F} {A V : ℝ} (ha : |fl.val a - A| ≤ η) (hA : |A| ≤ 1)
    (hv : |fl.val v - V| ≤ η) (hV : |V| ≤ 1) (hs : fl.isFinite s) (hsκ : κ ≤ fl.val s)
    (hf : fl.isFinite (a * (1 / s) * v)) :
    |fl.val (a * (1 / s) * v) - A * (1 / fl.val s) * V| ≤ 1 / κ * (22 / 10 * η + 7 * u) := by
  have hu0 := fl.u_nonneg
  have hω0 := fl.ω_nonneg
  have hu0' : 0 ≤ u := hu0.trans hu
  have hη0 : 0 ≤ η := (abs_nonneg _).trans ha
  obtain ⟨f1, fv, -⟩ := fl.mul hf
  obtain ⟨fa, f2, -⟩ := fl.mul f1
  have hσ : 0 < fl.val s := hκ.trans_le hsκ
  set Z := 1 / κ with hZ
  have hZ0 : 0 ≤ Z := by rw [hZ]; positivity
  have hiZ : |1 / fl.val s| ≤ Z := by
    rw [abs_of_pos (by positivity), hZ]
    exact one_div_le_one_div_of_le hκ hsκ
  have h1 : |fl.val (1 / s) - 1 / fl.val s| ≤ 2 * u * Z := by
    have := ((fl.div f2).2 hs).2
    rw [fl.one.2] at this
    refine this.trans ?_
    calc fl.u * (|1 / fl.val s| + fl.ω) ≤ u * (Z + Z) := by
          gcongr
      _ = _ := by ring
  have h2 := mul_near f1 ha h1 hA hiZ
  have h3 : |fl.val (a * (1 / s)) - A * (1 / fl.val s)| ≤ Z * (11 / 10 * η + 42 / 10 * u) := by
    refine h2.trans ?_
    have e1 : fl.u * ((1 + η) * (Z + 2 * u * Z) + fl.ω) ≤ u * ((1 + η) * (Z + 2 * u * Z) + Z) := by
      gcongr
    have e2 : η * (1 + 2 * u) + 2 * u + u * ((1 + η) * (1 + 2 * u) + 1) ≤
        11 / 10 * η + 42 / 10 * u := by
      nlinarith [mul_nonneg hu0' hu0', mul_nonneg hη0 hu0', mul_nonneg (mul_nonneg hη0 hu0') hu0']
    calc _ ≤ η * (Z + 2 * u * Z) + 1 * (2 * u * Z) + u * ((1 + η) * (Z + 2 * u * Z) + Z) := by linarith
      _ = Z * (η * (1 + 2 * u) + 2 * u + u * ((1 + η) * (1 + 2 * u) + 1)) := by ring
      _ ≤ _ := by gcongr
  have hAs : |A * (1 / fl.val s)| ≤ Z := by
    rw [abs_mul]
    calc |A| * |1 / fl.val s| ≤ 1 * Z := mul_le_mul hA hiZ (abs_nonneg _) zero_le_one
      _ = Z := _root_.one_mul _
  have h4 := mul_near hf h3 hv hAs hV
  refine h4.trans ?_
  set α := 11 / 10 * η + 42 / 10 * u with hα
  have hα0 : 0 ≤ α := by positivity
  have hα1 : α ≤ 53 / 1000 := by rw [hα]; linarith
  have e1 : fl.u * ((Z + Z * α) * (1 + η) + fl.ω) ≤ u * ((Z + Z * α) * (1 + η) + Z) := by
    gcongr
  have e2 : α * (1 + η) + η + u * ((1 + α) * (1 + η) + 1) ≤ 22 / 10 * η + 7 * u := by
    have a1 : α * η ≤ α * (1 / 100) := by gcongr
    have a2 : (1 + α) * (1 + η) ≤ 107 / 100 := by nlinarith
    have a3 : u * ((1 + α) * (1 + η) + 1) ≤ u * (107 / 100 + 1) := by gcongr
    rw [hα] at a1 ⊢
    nlinarith
  calc _ ≤ Z * α * (1 + η) + Z * η + u * ((Z + Z * α) * (1 + η) + Z) := by linarith
    _ = Z * (α * (1 + η) + η + u * ((1 + α) * (1 + η) + 1)) := by ring
    _ ≤ _ := by gcongr

/-- An entry of the computed pseudo-inverse. -/
theorem pinv_entry {u η κ : ℝ} (hu : fl.u ≤ u) (hu1 : u ≤ 1 / 100) (hη : η ≤ 1 / 100)
    (hκ : 0 < κ) (hω : fl.ω ≤ 1 / κ) {a s v : V3 F} {A V : Vec} (ha : ∀ k, |fl.val (a k) - A k| ≤ η)
    (hA : ∀ k, |A k| ≤ 1) (hv : ∀ k, |fl.val (v k) - V k| ≤ η) (hV : ∀ k, |V k| ≤ 1)
    (hs : ∀ k, fl.isFinite (s k)) (hsκ : ∀ k, κ ≤ fl.val (s k))
    (hf : fl.isFinite (a 0 * (1 / s 0) * v 0 + a 1 * (1 / s 1) * v 1 + a 2 * (1 / s 2) * v 2)) :
    |fl.val (a 0 * (1 / s 0) * v 0 + a 1 * (1 / s 1) * v 1 + a 2 * (1 / s 2) * v 2) -
      (A 0 * (1 / fl.val (s 0)) * V 0 + A 1 * (1 / fl.val (s 1)) * V 1 +
        A 2 * (1 / fl.val (s 2)) * V 2)| ≤ 1 / κ * (66 / 10 * η + 27 * u) := by
  have hu0 := fl.u_nonneg
  have hu0' : 0 ≤ u := hu0.trans hu
  have hη0 : 0 ≤ η := (abs_nonneg _).trans (ha 0)
  obtain ⟨f01, f2, -⟩ := fl.add hf
  obtain ⟨f0, f1, -⟩ := fl.add f01
  have t := fun k (hf : fl.isFinite (a k * (1 / s k) * v k)) =>
    term_near hu hu1 hη hκ hω (ha k) (hA k) (hv k) (hV k) (hs k) (hsκ k) hf
  set Z := 1 / κ with hZ
  have hZ0 : 0 ≤ Z := by rw [hZ]; positivity
  have b : ∀ k, |A k * (1 / fl.val (s k)) * V k| ≤ Z := by
    intro k
    have hσ : 0 < fl.val (s k) := hκ.trans_le (hsκ k)
    have hi : 1 / fl.val (s k) ≤ Z := one_div_le_one_div_of_le hκ (hsκ k)
    rw [abs_mul, abs_mul, abs_of_pos (show 0 < 1 / fl.val (s k) by positivity)]
    calc |A k| * (1 / fl.val (s k)) * |V k| ≤ 1 * Z * 1 := by
          have h1 := hA k
          have h2 := hV k
          gcongr
      _ = Z := by ring
  set X := fun k => A k * (1 / fl.val (s k)) * V k
  set β := 22 / 10 * η + 7 * u with hβ
  have hβ0 : 0 ≤ β := by positivity
  have hβ1 : β ≤ 92 / 1000 := by rw [hβ]; linarith
  have h1 := add_near f01 (t 0 f0) (t 1 f1) (show |X 0 + X 1| ≤ Z + Z from
    (abs_add_le _ _).trans (add_le_add (b 0) (b 1)))
  have h1' : |fl.val (a 0 * (1 / s 0) * v 0 + a 1 * (1 / s 1) * v 1) - (X 0 + X 1)| ≤
      Z * (2 * β + 22 / 10 * u) := by
    refine h1.trans ?_
    have : fl.u * (Z + Z + Z * β + Z * β) ≤ u * (Z + Z + Z * β + Z * β) := by gcongr
    calc _ ≤ Z * β + Z * β + u * (Z + Z + Z * β + Z * β) := by linarith
      _ = Z * (2 * β + u * (2 + 2 * β)) := by ring
      _ ≤ _ := by
        refine mul_le_mul_of_nonneg_left ?_ (by linarith)
        nlinarith
  have h2 := add_near hf h1' (t 2 f2) (show |X 0 + X 1 + X 2| ≤ Z + Z + Z from
    (abs_add_three _ _ _).trans (add_le_add (add_le_add (b 0) (b 1)) (b 2)))
  refine h2.trans ?_
  have : fl.u * (Z + Z + Z + Z * (2 * β + 22 / 10 * u) + Z * β) ≤
      u * (Z + Z + Z + Z * (2 * β + 22 / 10 * u) + Z * β) := by gcongr
  calc _ ≤ Z * (2 * β + 22 / 10 * u) + Z * β + u * (Z + Z + Z + Z * (2 * β + 22 / 10 * u) + Z * β) := by
        linarith
    _ = Z * (3 * β + 22 / 10 * u + u * (3 + 3 * β + 22 / 10 * u)) := by ring
    _ ≤ _ := by
      refine mul_le_mul_of_nonneg_left ?_ (by linarith)
      have : 3 + 3 * β + 22 / 10 * u ≤ 34 / 10 := by linarith
      have h4 : u * (3 + 3 * β + 22 / 10 * u) ≤ u * (34 / 10) := by gcongr
      rw [hβ] at h4 ⊢
      linarith

theorem pinv_loop_float {eps : F} {σ : V3 F} (h : ∀ k, Scalar.lt eps (σ k) = true) :
    (forRange 3 σ fun i s =>
      let val := s i
      if Scalar.lt eps val then Function.update s i (1 / val) else Function.update s i 0) =
    fun i => 1 / σ i := by
  unfold forRange
  rw [finRange3]
  simp only [List.foldl]
  funext i
  fin_cases i <;> simp [h, Function.update]

/-- The pseudo-inverse computed in floating point: near the exact inverse of a matrix near the given
one. -/
theorem pinv_near (m : RoundingMore fl) {u ρ η μ κ : ℝ} (hu : fl.u ≤ u) (hu1 : u ≤ 1 / 100)
    (hρ : ρ ≤ 1 / 100) (hω : fl.ω ≤ 1) {trySvd : TrySvd F}
    {S p : Mat 3 3 F} (hp : myPinv trySvd S = .ok p)
    (hsvd : ∀ d, trySvd S true true (Scalar.lit (1 / 10000000)) 100 = some d → SvdStableAt fl ρ η μ S d)
    (hst : ∀ w : Vec, (κ + η * μ) * len w ≤ len (Matrix.of (fun i j => fl.val (S i j)) *ᵥ w))
    (hκ : 101 / 1000000000 < κ) (hκ1 : κ ≤ 1) :
    ∃ M P : Matrix (Fin 3) (Fin 3) ℝ, P * M = 1 ∧
      (∀ w : Vec, len (M *ᵥ w - Matrix.of (fun i j => fl.val (S i j)) *ᵥ w) ≤ η * μ * len w) ∧
      (∀ w : Vec, len (P *ᵥ w) ≤ 1 / κ * len w) ∧
      ∀ i j, fl.isFinite (p i j) → |fl.val (p i j) - P i j| ≤ 1 / κ * (66 / 10 * ρ + 27 * u) := by
  have hu0 := fl.u_nonneg
  have hκ0 : 0 < κ := by linarith
  unfold myPinv at hp
  obtain ⟨d, hd, hp⟩ := outcome_bind_ok hp
  cases hd' : trySvd S true true (Scalar.lit (1 / 10000000)) 100 with
  | none => rw [hd'] at hd; cases hd
  | some d' =>
    rw [hd'] at hd
    cases hd
    obtain ⟨U, Vt, U', V', hU, hV, hUn, hVn, hσ, hU', hV', hM⟩ := hsvd d hd'
    set σ : Vec := fun i => fl.val (d.singularValues i) with hσd
    set M := U' * diagonal σ * V' with hMd
    have hstM : ∀ w : Vec, κ * len w ≤ len (M *ᵥ w) := by
      intro w
      have h1 := hst w
      have h2 := hM w
      have h3 := len_add_le (M *ᵥ w)
        (-(M *ᵥ w - Matrix.of (fun i j => fl.val (S i j)) *ᵥ w))
      rw [len_neg, neg_sub, add_sub_cancel] at h3
      linarith
    have hσκ := sigma_ge hU' hV' (fun k => (hσ k).2) hstM
    have hcut := m.lit_cutoff
    set eps : F := Scalar.lit (1 / 10000000) with heps
    have hev : fl.val eps < κ := by
      have := (abs_le.1 hcut.2).2
      have h5 : fl.u * (1 / 10000000) ≤ 1 / 100 * (1 / 10000000) := by gcongr; linarith
      linarith
    have hev0 : 0 ≤ fl.val eps := by
      have := (abs_le.1 hcut.2).1
      have h5 : fl.u * (1 / 10000000) ≤ 1 / 100 * (1 / 10000000) := by gcongr; linarith
      linarith
    have hlt0 : Scalar.lt eps (0 : F) ≠ true := by
      rw [ne_eq, m.lt_iff hcut.1 fl.zero.1, fl.zero.2]; linarith
    have hlt : ∀ k, Scalar.lt eps (d.singularValues k) = true := fun k =>
      (m.lt_iff hcut.1 (hσ k).1).2 (hev.trans_le (hσκ k))
    simp only [SVD.pseudoInverse] at hp
    rw [if_neg hlt0, pinv_loop_float hlt] at hp
    simp only [SVD.recompose, hU, hV, bind, Except.bind, Outcome.unwrapResult, pure, Except.pure] at hp
    injection hp with hp
    set P := V'.transpose * diagonal (fun k => 1 / σ k) * U'.transpose with hPd
    have hMP : M * P = 1 := inverse_of_svd hU' hV' fun k => (hκ0.trans_le (hσκ k)).ne'
    refine ⟨M, P, mul_eq_one_comm.1 hMP, hM, ?_, ?_⟩
    · intro w
      have := hstM (P *ᵥ w)
      rw [mulVec_mulVec, hMP, one_mulVec] at this
      rw [div_mul_eq_mul_div, _root_.one_mul, le_div_iff₀ hκ0]
      linarith
    · intro i j hf
      have e1 : p i j = U j 0 * (1 / d.singularValues 0) * Vt 0 i +
          U j 1 * (1 / d.singularValues 1) * Vt 1 i + U j 2 * (1 / d.singularValues 2) * Vt 2 i := by
        rw [← hp]; rfl
      have e2 : P i j = U' j 0 * (1 / σ 0) * V' 0 i + U' j 1 * (1 / σ 1) * V' 1 i +
          U' j 2 * (1 / σ 2) * V' 2 i := by
        rw [hPd]
        simp only [Matrix.mul_apply, diagonal_apply, transpose_apply, Fin.sum_univ_three]
        simp
        ring
      rw [e1] at hf
      rw [e1, e2]
      exact pinv_entry hu hu1 hρ hκ0 (hω.trans (by rw [le_div_iff₀ hκ0]; linarith)) (a := fun k => U j k) (s := d.singularValues)
        (v := fun k => Vt k i) (A := fun k => U' j k) (V := fun k => V' k i)
        (fun k => (hUn j k).2) (fun k => orth_entry hU' j k) (fun k => (hVn k i).2)
        (fun k => orth_entry' hV' k i) (fun k => (hσ k).1) hσκ hf

end

end CamGeom
