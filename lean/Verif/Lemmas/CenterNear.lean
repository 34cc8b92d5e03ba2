import Verif.Lemmas.RqNear
import Verif.Props.RayGeometry

/-!
# Rounding errors of `pmat2cam_center`
-/

namespace CamGeom
open Spec Matrix Householder

variable {R : Type} [Scalar R] {fl : Rounding R} {r : RoundingRange fl}

/-- The determinant of a matrix whose rows have scales `s i` and whose last column has an additional scale
`ρ`. -/
theorem det3_scaled_near {M : Mat 3 3 R} {s : Fin 3 → ℝ} {ρ B : ℝ} (hu : fl.u ≤ 1 / 10 ^ 7) (hB : 1 ≤ B)
    (hr : Scale r (2 * B ^ 4)) (hω : fl.ω * B ^ 3 ≤ 1) (lo : ∀ i, 1 / B ≤ s i) (hi : ∀ i, s i ≤ B)
    (hρ : 1 ≤ ρ) (hρB : ρ ≤ 2 * B) (hf : ∀ i j, fl.isFinite (M i j)) (h0 : ∀ i, |fl.val (M i 0)| ≤ s i)
    (h1 : ∀ i, |fl.val (M i 1)| ≤ s i) (h2 : ∀ i, |fl.val (M i 2)| ≤ s i * ρ) :
    Near fl (s 0 * s 1 * s 2 * ρ) 6 45 (Mat.det3 M) (vmat fl M).det := by
  have hB0 : 0 < B := by linarith
  have hs0 : ∀ i, 0 < s i := fun i => lt_of_lt_of_le (by positivity) (lo i)
  set t : Fin 3 → ℝ := ![1, 1, ρ] with ht
  have t0 : ∀ j, 0 ≤ t j := by intro j; fin_cases j <;> simp [ht]; linarith
  have st0 : ∀ i j, 0 ≤ s i * t j := fun i j => mul_nonneg (hs0 i).le (t0 j)
  have n : ∀ i j, Near fl (s i * t j) 1 0 (M i j) (fl.val (M i j)) := fun i j => by
    refine Near.exact (hf i j) ?_
    rw [one_mul]
    fin_cases j
    · simpa [ht] using h0 i
    · simpa [ht] using h1 i
    · simpa [ht] using h2 i
  have inv2 : fl.ω ≤ 1 / B * (1 / B) := by
    rw [div_mul_div_comm, one_mul, le_div_iff₀ (by positivity)]
    have : fl.ω * (B * B) ≤ fl.ω * B ^ 3 := by
      refine mul_le_mul_of_nonneg_left ?_ fl.ω_nonneg
      calc B * B = B * B * 1 := by ring
        _ ≤ B * B * B := by gcongr
        _ = B ^ 3 := by ring
    linarith
  have inv3 : fl.ω ≤ 1 / B * (1 / B) * (1 / B) := by
    rw [div_mul_div_comm, div_mul_div_comm, one_mul, one_mul, le_div_iff₀ (by positivity)]
    calc _ = fl.ω * B ^ 3 := by ring
      _ ≤ 1 := hω
  have ss : ∀ i j, s i * s j ≤ B * B := fun i j => mul_le_mul (hi i) (hi j) (hs0 j).le hB0.le
  have ss' : ∀ i j, 1 / B * (1 / B) ≤ s i * s j := fun i j =>
    mul_le_mul (lo i) (lo j) (by positivity) (hs0 i).le
  have B34 : B ^ 3 ≤ B ^ 4 := pow_le_pow_right₀ hB (by norm_num)
  have p : ∀ i a j b, 1 ≤ t j * t b → t j * t b ≤ ρ →
      Near fl (s i * s a * (t j * t b)) 1 2 (M i j * M a b) (fl.val (M i j) * fl.val (M a b)) ∧
      Scale r (s i * s a * (t j * t b)) := by
    intro i a j b hl hh
    have e : s i * t j * (s a * t b) = s i * s a * (t j * t b) := by ring
    have sp : 0 ≤ s i * s a := mul_nonneg (hs0 i).le (hs0 a).le
    have hsc : Scale r (s i * s a * (t j * t b)) := by
      refine hr.mono' (mul_nonneg sp (by linarith)) ?_
      calc s i * s a * (t j * t b) ≤ B * B * (2 * B) :=
            mul_le_mul (ss i a) (hh.trans hρB) (by linarith) (by positivity)
        _ = 2 * B ^ 3 := by ring
        _ ≤ 2 * B ^ 4 := by linarith
    refine ⟨?_, hsc⟩
    refine (Near.mul (M := 1) (st0 i j) (st0 a b) (by rw [e]; exact hsc) ?_ hu (n i j) (n a b) ?_).scale e
    · rw [e]
      calc fl.ω ≤ 1 / B * (1 / B) * 1 := by rw [mul_one]; exact inv2
        _ ≤ s i * s a * (t j * t b) := mul_le_mul (ss' i a) hl zero_le_one sp
    · rw [abs_mul, one_mul]
      have a1 := (n i j).mag
      have a2 := (n a b).mag
      rw [one_mul] at a1 a2
      exact mul_le_mul a1 a2 (abs_nonneg _) (st0 i j)
  have d : ∀ j b, 1 ≤ t j * t b → t j * t b ≤ ρ →
      Near fl (s 1 * s 2 * (t j * t b)) 2 7 (M 1 j * M 2 b - M 2 j * M 1 b)
        (fl.val (M 1 j) * fl.val (M 2 b) - fl.val (M 2 j) * fl.val (M 1 b)) := by
    intro j b hl hh
    obtain ⟨p1, sc⟩ := p 1 2 j b hl hh
    have p2 := (p 2 1 j b hl hh).1.scale (t := s 1 * s 2 * (t j * t b)) (by ring)
    exact Near.sub sc hu p1 p2 ((abs_sub _ _).trans (by linarith [p1.mag, p2.mag]))
  set D := s 0 * s 1 * s 2 * ρ with hD
  have hD0 : 0 ≤ D := mul_nonneg (mul_nonneg (mul_nonneg (hs0 0).le (hs0 1).le) (hs0 2).le) (by linarith)
  have sss : s 0 * s 1 * s 2 ≤ B * B * B :=
    mul_le_mul (ss 0 1) (hi 2) (hs0 2).le (by positivity)
  have hDs : Scale r D := by
    refine hr.mono' hD0 ?_
    calc D ≤ B * B * B * (2 * B) := mul_le_mul sss hρB (by linarith) (by positivity)
      _ = 2 * B ^ 4 := by ring
  have hDω : fl.ω ≤ D := by
    calc fl.ω ≤ 1 / B * (1 / B) * (1 / B) * 1 := by rw [mul_one]; exact inv3
      _ ≤ D := by
        refine mul_le_mul (mul_le_mul (ss' 0 1) (lo 2) (by positivity) (mul_nonneg (hs0 0).le (hs0 1).le)) hρ
          zero_le_one ?_
        exact mul_nonneg (mul_nonneg (hs0 0).le (hs0 1).le) (hs0 2).le
  have T : ∀ a j b, 1 ≤ t j * t b → t j * t b ≤ ρ → t a * (t j * t b) = ρ →
      Near fl D 2 11 (M 0 a * (M 1 j * M 2 b - M 2 j * M 1 b))
        (fl.val (M 0 a) * (fl.val (M 1 j) * fl.val (M 2 b) - fl.val (M 2 j) * fl.val (M 1 b))) := by
    intro a j b hl hh he
    have e : s 0 * t a * (s 1 * s 2 * (t j * t b)) = D := by rw [hD, ← he]; ring
    have hd := d j b hl hh
    have hd0 : 0 ≤ s 1 * s 2 * (t j * t b) := mul_nonneg (mul_nonneg (hs0 1).le (hs0 2).le) (by linarith)
    refine (Near.mul (M := 2) (st0 0 a) hd0 (by rw [e]; exact hDs) (by rw [e]; exact hDω) hu (n 0 a) hd ?_).scale e
    rw [abs_mul]
    have a1 := (n 0 a).mag
    rw [one_mul] at a1
    refine (mul_le_mul a1 hd.mag (abs_nonneg _) (st0 0 a)).trans (le_of_eq (by ring))
  have T0 := T 0 1 2 (by simpa [ht] using hρ) (by simp [ht]) (by simp [ht])
  have T1 := T 1 0 2 (by simpa [ht] using hρ) (by simp [ht]) (by simp [ht])
  have T2 := T 2 0 1 (by simp [ht]) (by simpa [ht] using hρ) (by simp [ht])
  have s1 := Near.sub (M := 4) (C := 27) hDs hu T0 T1 ((abs_sub _ _).trans (by linarith [T0.mag, T1.mag]))
  have s3 := Near.add (M := 6) (C := 45) hDs hu s1 T2
    ((abs_add_le _ _).trans (by linarith [s1.mag, T2.mag]))
  refine Near.congr (x := Mat.det3 M) s3 ?_
  rw [Matrix.det_fin_three]
  simp only [vmat, Matrix.of_apply]
  ring

/-- The camera centre, for a matrix whose rows `N i` are at least `κ` away from linear dependence. -/
theorem center_near {P : Mat 3 4 R} {N : Fin 3 → ℝ} {c : V3 ℝ} {B κ : ℝ} (hu : fl.u ≤ 1 / 10 ^ 7)
    (hB : 1 ≤ B) (hr : Scale r (2 * B ^ 4)) (hω : fl.ω * B ^ 3 ≤ 1) (hf : ∀ i j, fl.isFinite (P i j))
    (hN : ∀ i, len (vrow fl (Mat.removeColumn P 3) i) = N i) (lo : ∀ i, 1 / B ≤ N i) (hi : ∀ i, N i ≤ B)
    (hc : len c ≤ B) (hnull : homImage (fun i j => fl.val (P i j)) c = 0) (hκ : 0 < κ) (hκ1 : κ ≤ 1)
    (hκu : 10 ^ 5 * fl.u ≤ κ) (hdet : κ * (N 0 * N 1 * N 2) ≤ |(vmat fl (Mat.removeColumn P 3)).det|)
    (a : Fin 3) :
    fl.isFinite (Camera.pmat2camCenter P a) ∧
    |fl.val (Camera.pmat2camCenter P a) - c a| ≤ 95 * fl.u * (1 + len c) / κ := by
  have hu0 := fl.u_nonneg
  have hB0 : 0 < B := by linarith
  have hlc := len_nonneg c
  have hNp : ∀ i, 0 < N i := fun i => lt_of_lt_of_le (by positivity) (lo i)
  set ρ := 1 + len c with hρ
  set D := N 0 * N 1 * N 2 with hD
  have hD0 : 0 < D := mul_pos (mul_pos (hNp 0) (hNp 1)) (hNp 2)
  set PR : Mat 3 4 ℝ := fun i j => fl.val (P i j) with hPR
  have hv : ∀ k, (vmat fl (Mat.removeColumn P k)).det = Mat.det3 (Mat.removeColumn PR k) := fun k => by
    rw [det3_eq]; rfl
  have hdet0 : (leftBlock PR).det ≠ 0 := by
    rw [← removeColumn_three, ← det3_eq, ← hv]
    exact abs_pos.1 (lt_of_lt_of_le (mul_pos hκ hD0) hdet)
  -- the exact centre
  have hcen : c = Camera.pmat2camCenter PR := by
    have h1 := camCenter_spec hdet0
    have h2 : (leftBlock PR).mulVec (c - Camera.pmat2camCenter PR) = 0 := by
      funext i
      have e1 := congrFun hnull i
      have e2 := congrFun h1 i
      rw [homImage_eq] at e1 e2
      rw [Matrix.mulVec_sub, Pi.sub_apply]
      simp only [Pi.zero_apply] at e1 e2 ⊢
      linarith
    exact sub_eq_zero.1 (Matrix.eq_zero_of_mulVec_eq_zero hdet0 h2)
  -- entries
  have ent : ∀ i (j : Fin 3), |fl.val (P i j.castSucc)| ≤ N i := fun i j => by
    rw [← hN i]
    have := abs_coord_le (vrow fl (Mat.removeColumn P 3) i) j
    fin_cases j <;> exact this
  have ent3 : ∀ i, |fl.val (P i 3)| ≤ N i * ρ := fun i => by
    have e1 := congrFun hnull i
    rw [homImage_eq] at e1
    have e2 : (leftBlock PR).mulVec c i = vrow fl (Mat.removeColumn P 3) i ⬝ᵥ c := by
      rw [← removeColumn_three]; rfl
    have e3 : fl.val (P i 3) = - (vrow fl (Mat.removeColumn P 3) i ⬝ᵥ c) := by
      rw [← e2]; simp only [Pi.zero_apply] at e1; linarith
    rw [e3, abs_neg]
    refine (abs_dot_le _ _).trans ?_
    rw [hN]
    exact mul_le_mul_of_nonneg_left (by linarith) (hNp i).le
  have e0 : ∀ i, |fl.val (P i 0)| ≤ N i := fun i => ent i 0
  have e1 : ∀ i, |fl.val (P i 1)| ≤ N i := fun i => ent i 1
  have e2 : ∀ i, |fl.val (P i 2)| ≤ N i := fun i => ent i 2
  have d3 := det3_scaled_near (M := Mat.removeColumn P 3) (ρ := 1) hu hB hr hω lo hi le_rfl (by linarith)
    (fun i j => hf i _) e0 e1 (fun i => by rw [mul_one]; exact e2 i)
  rw [mul_one, ← hD] at d3
  have dX : ∀ k : Fin 3, Near fl (D * ρ) 6 45 (Mat.det3 (Mat.removeColumn P k.castSucc))
      (vmat fl (Mat.removeColumn P k.castSucc)).det := by
    intro k
    have hg := fun h0 h1 h2 => det3_scaled_near (M := Mat.removeColumn P k.castSucc) (ρ := ρ) hu hB hr hω lo hi
      (by linarith) (by linarith) (fun i j => hf i _) h0 h1 h2
    fin_cases k
    · exact hg e1 e2 ent3
    · exact hg e0 e2 ent3
    · exact hg e0 e1 ent3
  -- the quotients
  have div : ∀ {x : R} {X C : ℝ}, Near fl (D * ρ) 6 45 x X → |C| ≤ ρ →
      X = C * -(vmat fl (Mat.removeColumn P 3)).det →
      fl.isFinite (x / -Mat.det3 (Mat.removeColumn P 3)) ∧
      |fl.val (x / -Mat.det3 (Mat.removeColumn P 3)) - C| ≤ 95 * fl.u * ρ / κ := by
    intro x X C hx hC hX
    have hw := d3.neg r
    set w := -Mat.det3 (Mat.removeColumn P 3) with hwdef
    set W := -(vmat fl (Mat.removeColumn P 3)).det with hW
    have hWl : κ * D ≤ |W| := by rw [hW, abs_neg]; exact hdet
    have huD : fl.u * D ≤ κ / 10 ^ 5 * D := mul_le_mul_of_nonneg_right (by linarith) hD0.le
    have hκD : 0 < κ * D := mul_pos hκ hD0
    have hwl : 99 / 100 * (κ * D) ≤ |fl.val w| := by
      have := abs_sub_abs_le_abs_sub W (fl.val w)
      rw [abs_sub_comm] at this
      linarith [hw.err]
    have hw0 : 0 < |fl.val w| := by linarith
    have hw0' : fl.val w ≠ 0 := abs_pos.1 hw0
    have hρ1 : 1 ≤ ρ := by linarith
    have q1 : |fl.val x / fl.val w - C| ≤ 91 * fl.u * ρ / κ := by
      have e : fl.val x / fl.val w - C = ((fl.val x - X) - C * (fl.val w - W)) / fl.val w := by
        rw [hX]; field_simp; ring
      rw [e, abs_div, div_le_div_iff₀ hw0 hκ]
      have n1 : |fl.val x - X - C * (fl.val w - W)| ≤ 90 * (fl.u * D) * ρ := by
        refine (abs_sub _ _).trans ?_
        rw [abs_mul]
        have := mul_le_mul hC hw.err (abs_nonneg _) (by linarith)
        linarith [hx.err]
      calc |fl.val x - X - C * (fl.val w - W)| * κ ≤ 90 * (fl.u * D) * ρ * κ :=
            mul_le_mul_of_nonneg_right n1 hκ.le
        _ = 90 * fl.u * ρ * (κ * D) := by ring
        _ ≤ 91 * fl.u * ρ * (99 / 100 * (κ * D)) := by
          have : 0 ≤ fl.u * ρ * (κ * D) := by positivity
          linarith
        _ ≤ 91 * fl.u * ρ * |fl.val w| := mul_le_mul_of_nonneg_left hwl (by positivity)
    have q2 : 91 * fl.u * ρ / κ ≤ ρ := by
      rw [div_le_iff₀ hκ]
      have : fl.u * ρ ≤ κ / 10 ^ 5 * ρ := mul_le_mul_of_nonneg_right (by linarith) (by linarith)
      have : 0 ≤ κ * ρ := by positivity
      linarith
    have q3 : |fl.val x / fl.val w| ≤ 2 * ρ := by
      have := abs_add_le (fl.val x / fl.val w - C) C
      rw [sub_add_cancel] at this
      linarith
    have hfin : fl.isFinite (x / w) := by
      refine (r.div hx.fin hw.fin hw0' le_rfl (q3.trans (le_trans ?_ hr.top))).1
      have : B ≤ B ^ 4 := le_self_pow₀ hB (by norm_num)
      linarith
    refine ⟨hfin, ?_⟩
    have q4 := ((fl.div hfin).2 hw.fin).2
    have hω1 : fl.ω ≤ ρ := by
      have : fl.ω * 1 ≤ fl.ω * B ^ 3 := mul_le_mul_of_nonneg_left (one_le_pow₀ hB) fl.ω_nonneg
      linarith
    have q5 : fl.u * (|fl.val x / fl.val w| + fl.ω) ≤ fl.u * (3 * ρ) :=
      mul_le_mul_of_nonneg_left (by linarith) hu0
    have q6 : 3 * fl.u * ρ ≤ 3 * fl.u * ρ / κ := le_div_self (by positivity) hκ hκ1
    have q7 := abs_add_le (fl.val (x / w) - fl.val x / fl.val w) (fl.val x / fl.val w - C)
    rw [sub_add_sub_cancel] at q7
    have q8 : 91 * fl.u * ρ / κ + 3 * fl.u * ρ / κ ≤ 95 * fl.u * ρ / κ := by
      rw [← add_div]
      gcongr
      have : 0 ≤ fl.u * ρ := by positivity
      linarith
    linarith
  have hcρ : |c a| ≤ ρ := (abs_coord_le c a).trans (by linarith)
  have hW0 : -(vmat fl (Mat.removeColumn P 3)).det ≠ 0 := by
    rw [hv, det3_eq, removeColumn_three]; exact neg_ne_zero.2 hdet0
  have c0 : c 0 = Mat.det3 (Mat.removeColumn PR 0) / -Mat.det3 (Mat.removeColumn PR 3) := congrFun hcen 0
  have c1 : c 1 = -Mat.det3 (Mat.removeColumn PR 1) / -Mat.det3 (Mat.removeColumn PR 3) := congrFun hcen 1
  have c2 : c 2 = Mat.det3 (Mat.removeColumn PR 2) / -Mat.det3 (Mat.removeColumn PR 3) := congrFun hcen 2
  rw [hv] at hW0
  fin_cases a
  · refine div (dX 0) hcρ ?_
    show _ = c 0 * _
    rw [c0, hv, hv, div_mul_cancel₀ _ hW0]; rfl
  · refine div ((dX 1).neg r) hcρ ?_
    show _ = c 1 * _
    rw [c1, hv, hv, div_mul_cancel₀ _ hW0]; rfl
  · refine div (dX 2) hcρ ?_
    show _ = c 2 * _
    rw [c2, hv, hv, div_mul_cancel₀ _ hW0]; rfl

end CamGeom
