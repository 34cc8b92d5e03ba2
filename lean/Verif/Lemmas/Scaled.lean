import Verif.Lemmas.InRange
import Verif.Lemmas.RoundingView
import Verif.Spec.RoundingQr
import Mathlib.Tactic.NormNum

/-!
# Error calculus with a scale

`Near fl s m c x X`: the finite number `x` approximates `X`, `|X| ≤ m s`, with error at most `c u s`.  The
numbers `m` and `c` are literals, so that the side conditions of the rules are checked by `norm_num`.
-/

namespace CamGeom

variable {R : Type} [Scalar R] {fl : Rounding R}

/-- `x` is finite and within `c u s` of `X`, which is at most `m s`. -/
structure Near (fl : Rounding R) (s m c : ℝ) (x : R) (X : ℝ) : Prop where
  fin : fl.isFinite x
  mag : |X| ≤ m * s
  err : |fl.val x - X| ≤ c * (fl.u * s)

/-- A scale: far from overflow. -/
structure Scale (r : RoundingRange fl) (s : ℝ) : Prop where
  pos : 0 ≤ s
  top : 1000 * s ≤ 2 ^ r.top

namespace Near

variable {r : RoundingRange fl} {s t m m' c c' M C : ℝ} {x y : R} {X Y : ℝ}

theorem exact (h : fl.isFinite x) (hm : |fl.val x| ≤ m * s) : Near fl s m 0 x (fl.val x) :=
  ⟨h, hm, by simp⟩

theorem of_val (h : fl.isFinite x) (e : fl.val x = X) (hm : |X| ≤ m * s) : Near fl s m 0 x X :=
  ⟨h, hm, by simp [e]⟩

theorem mono (h : Near fl s m c x X) (hs : 0 ≤ s) (hm : m ≤ M) (hc : c ≤ C) : Near fl s M C x X := by
  have hu := fl.u_nonneg
  refine ⟨h.fin, h.mag.trans (by gcongr), h.err.trans (by gcongr)⟩

theorem mag' (h : Near fl s m c x X) (hm : |X| ≤ M * s) : Near fl s M c x X := ⟨h.fin, hm, h.err⟩

theorem congr (h : Near fl s m c x X) (e : X = Y) : Near fl s m c x Y := e ▸ h

theorem scale (h : Near fl s m c x X) (e : s = t) : Near fl t m c x X := e ▸ h

theorem abs_val (h : Near fl s m c x X) (hu : fl.u ≤ 1 / 10 ^ 7) (hs : 0 ≤ s) (hc : 0 ≤ c) :
    |fl.val x| ≤ (m + c / 10 ^ 7) * s := by
  have h1 := abs_add_le (fl.val x - X) X
  rw [sub_add_cancel] at h1
  have h2 : c * (fl.u * s) ≤ c * (1 / 10 ^ 7 * s) := by gcongr
  linarith [h.mag, h.err]

theorem err_le (h : Near fl s m c x X) (hu : fl.u ≤ 1 / 10 ^ 7) (hs : 0 ≤ s) (hc : 0 ≤ c) :
    |fl.val x - X| ≤ c / 10 ^ 7 * s := by
  have h2 : c * (fl.u * s) ≤ c * (1 / 10 ^ 7 * s) := by gcongr
  linarith [h.err]

theorem neg (r : RoundingRange fl) (h : Near fl s m c x X) : Near fl s m c (-x) (-X) := by
  have h1 := r.neg h.fin
  refine ⟨h1, by rw [abs_neg]; exact h.mag, ?_⟩
  rw [(fl.neg h1).2, ← neg_add', abs_neg, ← sub_eq_add_neg]
  exact h.err

theorem add (hs : Scale r s) (hu : fl.u ≤ 1 / 10 ^ 7) (hx : Near fl s m c x X)
    (hy : Near fl s m' c' y Y) (hXY : |X + Y| ≤ M * s)
    (hC : c + c' + M + (c + c') / 10 ^ 7 ≤ C := by norm_num)
    (hc : 0 ≤ c + c' := by norm_num) (hM : M + (c + c') / 10 ^ 7 ≤ 1000 := by norm_num) :
    Near fl s M C (x + y) (X + Y) := by
  have hu0 := fl.u_nonneg
  have hs0 := hs.pos
  have hus : 0 ≤ fl.u * s := by positivity
  have h3 : (c + c') * (fl.u * s) ≤ (c + c') * (1 / 10 ^ 7 * s) := by gcongr
  have hf : fl.isFinite (x + y) := by
    refine (r.add hx.fin hy.fin le_rfl (le_trans ?_ hs.top)).1
    have h1 : |fl.val x + fl.val y| ≤ |fl.val x - X| + |fl.val y - Y| + |X + Y| := by
      rw [show fl.val x + fl.val y = (fl.val x - X) + (fl.val y - Y) + (X + Y) by ring]
      exact (abs_add_le _ _).trans (add_le_add_left (abs_add_le _ _) _)
    have h2 := mul_le_mul_of_nonneg_right hM hs0
    linarith [hx.err, hy.err]
  refine ⟨hf, hXY, (CamGeom.add_near hf hx.err hy.err hXY).trans ?_⟩
  have h4 : fl.u * (M * s + c * (fl.u * s) + c' * (fl.u * s)) ≤
      fl.u * (M * s + (c + c') * (1 / 10 ^ 7 * s)) := mul_le_mul_of_nonneg_left (by linarith) hu0
  have h5 := mul_le_mul_of_nonneg_right hC hus
  linarith

theorem sub (hs : Scale r s) (hu : fl.u ≤ 1 / 10 ^ 7) (hx : Near fl s m c x X)
    (hy : Near fl s m' c' y Y) (hXY : |X - Y| ≤ M * s)
    (hC : c + c' + M + (c + c') / 10 ^ 7 ≤ C := by norm_num)
    (hc : 0 ≤ c + c' := by norm_num) (hM : M + (c + c') / 10 ^ 7 ≤ 1000 := by norm_num) :
    Near fl s M C (x - y) (X - Y) := by
  have hu0 := fl.u_nonneg
  have hs0 := hs.pos
  have hus : 0 ≤ fl.u * s := by positivity
  have h3 : (c + c') * (fl.u * s) ≤ (c + c') * (1 / 10 ^ 7 * s) := by gcongr
  have hf : fl.isFinite (x - y) := by
    refine (r.sub hx.fin hy.fin le_rfl (le_trans ?_ hs.top)).1
    have h1 : |fl.val x - fl.val y| ≤ |fl.val x - X| + |fl.val y - Y| + |X - Y| := by
      rw [show fl.val x - fl.val y = (fl.val x - X) - (fl.val y - Y) + (X - Y) by ring]
      exact (abs_add_le _ _).trans (add_le_add_left (abs_sub _ _) _)
    have h2 := mul_le_mul_of_nonneg_right hM hs0
    linarith [hx.err, hy.err]
  refine ⟨hf, hXY, (sub_near hf hx.err hy.err hXY).trans ?_⟩
  have h4 : fl.u * (M * s + c * (fl.u * s) + c' * (fl.u * s)) ≤
      fl.u * (M * s + (c + c') * (1 / 10 ^ 7 * s)) := mul_le_mul_of_nonneg_left (by linarith) hu0
  have h5 := mul_le_mul_of_nonneg_right hC hus
  linarith

theorem mul (hs : 0 ≤ s) (ht : 0 ≤ t) (hst : Scale r (s * t)) (hω : fl.ω ≤ s * t)
    (hu : fl.u ≤ 1 / 10 ^ 7) (hx : Near fl s m c x X) (hy : Near fl t m' c' y Y)
    (hXY : |X * Y| ≤ M * (s * t))
    (hC : c * (m' + c' / 10 ^ 7) + m * c' + ((m + c / 10 ^ 7) * (m' + c' / 10 ^ 7) + 1) ≤ C := by norm_num)
    (hc : 0 ≤ c := by norm_num) (hc' : 0 ≤ c' := by norm_num) (hm : 0 ≤ m := by norm_num)
    (hM : (m + c / 10 ^ 7) * (m' + c' / 10 ^ 7) ≤ 1000 := by norm_num) :
    Near fl (s * t) M C (x * y) (X * Y) := by
  have hu0 := fl.u_nonneg
  have hst0 := hst.pos
  have hus : 0 ≤ fl.u * (s * t) := by positivity
  have ax := hx.abs_val hu hs hc
  have ay := hy.abs_val hu ht hc'
  have hp : |fl.val x * fl.val y| ≤ (m + c / 10 ^ 7) * (m' + c' / 10 ^ 7) * (s * t) := by
    rw [abs_mul]
    calc _ ≤ (m + c / 10 ^ 7) * s * ((m' + c' / 10 ^ 7) * t) :=
          mul_le_mul ax ay (abs_nonneg _) (by positivity)
      _ = _ := by ring
  have hf : fl.isFinite (x * y) := by
    refine (r.mul hx.fin hy.fin le_rfl (hp.trans (le_trans ?_ hst.top))).1
    gcongr
  refine ⟨hf, hXY, ?_⟩
  have h1 := (fl.mul hf).2.2
  have h2 : |fl.val x * fl.val y - X * Y| ≤ (c * (m' + c' / 10 ^ 7) + m * c') * (fl.u * (s * t)) := by
    rw [show fl.val x * fl.val y - X * Y = (fl.val x - X) * fl.val y + X * (fl.val y - Y) by ring]
    refine (abs_add_le _ _).trans ?_
    rw [abs_mul, abs_mul]
    have e1 := mul_le_mul hx.err ay (abs_nonneg _) (by positivity)
    have e2 := mul_le_mul hx.mag hy.err (abs_nonneg _) (by positivity)
    linarith
  have h3 : fl.u * (|fl.val x * fl.val y| + fl.ω) ≤
      fl.u * ((m + c / 10 ^ 7) * (m' + c' / 10 ^ 7) * (s * t) + s * t) := by gcongr
  have h4 := abs_add_le (fl.val (x * y) - fl.val x * fl.val y) (fl.val x * fl.val y - X * Y)
  rw [sub_add_sub_cancel] at h4
  have h5 := mul_le_mul_of_nonneg_right hC hus
  linarith

/-- Division by a number of magnitude at least `l t`. -/
theorem div (l : ℝ) (hs : 0 ≤ s) (ht : 0 < t) (hst : Scale r (s / t)) (hω : fl.ω ≤ s / t)
    (hu : fl.u ≤ 1 / 10 ^ 7) (hx : Near fl s m c x X) (hy : Near fl t m' c' y Y) (hl : l * t ≤ |Y|)
    (hXY : |X / Y| ≤ M * (s / t))
    (hC : (c + M * c') / (l - c' / 10 ^ 7) + ((m + c / 10 ^ 7) / (l - c' / 10 ^ 7) + 1) ≤ C := by norm_num)
    (hc : 0 ≤ c := by norm_num) (hc' : 0 ≤ c' := by norm_num) (hm : 0 ≤ m := by norm_num)
    (hM0 : 0 ≤ M := by norm_num)
    (hl0 : 0 < l - c' / 10 ^ 7 := by norm_num)
    (hM : (m + c / 10 ^ 7) / (l - c' / 10 ^ 7) ≤ 1000 := by norm_num) :
    Near fl (s / t) M C (x / y) (X / Y) := by
  have hu0 := fl.u_nonneg
  have hst0 := hst.pos
  have hus : 0 ≤ fl.u * (s / t) := by positivity
  have ax := hx.abs_val hu hs hc
  have ey := hy.err_le hu ht.le hc'
  have ly : (l - c' / 10 ^ 7) * t ≤ |fl.val y| := by
    have := abs_sub_abs_le_abs_sub Y (fl.val y)
    rw [abs_sub_comm] at this
    linarith
  have hy0 : 0 < |fl.val y| := lt_of_lt_of_le (by positivity) ly
  have hY0 : Y ≠ 0 := by
    have hl1 : 0 < l := by linarith [div_nonneg hc' (by norm_num : (0 : ℝ) ≤ 10 ^ 7)]
    exact abs_pos.1 (lt_of_lt_of_le (by positivity) hl)
  have hv0 : fl.val y ≠ 0 := abs_pos.1 hy0
  have quot : ∀ {a b : ℝ}, |a| ≤ b * s → 0 ≤ b → |a / fl.val y| ≤ b / (l - c' / 10 ^ 7) * (s / t) := by
    intro a b hab hb
    rw [abs_div]
    calc |a| / |fl.val y| ≤ b * s / ((l - c' / 10 ^ 7) * t) :=
          div_le_div₀ (by positivity) hab (by positivity) ly
      _ = _ := by field_simp
  have hp := quot ax (by positivity)
  have hf : fl.isFinite (x / y) := by
    refine (r.div hx.fin hy.fin hv0 le_rfl (hp.trans (le_trans ?_ hst.top))).1
    gcongr
  refine ⟨hf, hXY, ?_⟩
  have h1 := ((fl.div hf).2 hy.fin).2
  have h2 : |fl.val x / fl.val y - X / Y| ≤ (c + M * c') * fl.u / (l - c' / 10 ^ 7) * (s / t) := by
    rw [show fl.val x / fl.val y - X / Y = ((fl.val x - X) - X / Y * (fl.val y - Y)) / fl.val y by
      field_simp; ring]
    refine quot ?_ (by positivity)
    refine (abs_sub _ _).trans ?_
    rw [abs_mul]
    have e2 := mul_le_mul hXY hy.err (abs_nonneg _) (by positivity)
    have e3 : M * (s / t) * (c' * (fl.u * t)) = M * c' * fl.u * s := by field_simp
    linarith [hx.err]
  have h3 : fl.u * (|fl.val x / fl.val y| + fl.ω) ≤
      fl.u * ((m + c / 10 ^ 7) / (l - c' / 10 ^ 7) * (s / t) + s / t) := by gcongr
  have h4 := abs_add_le (fl.val (x / y) - fl.val x / fl.val y) (fl.val x / fl.val y - X / Y)
  rw [sub_add_sub_cancel] at h4
  have h5 := mul_le_mul_of_nonneg_right hC hus
  have h6 : (c + M * c') * fl.u / (l - c' / 10 ^ 7) * (s / t) =
      (c + M * c') / (l - c' / 10 ^ 7) * (fl.u * (s / t)) := by ring
  linarith

/-- Square root of a number of at least `l² s²`. -/
theorem sqrt (k : RoundingMore fl) (l : ℝ) (hs : 0 ≤ s) (hs1 : Scale r s) (hu : fl.u ≤ 1 / 10 ^ 7)
    (hx : Near fl (s * s) m c x X) (hl : (l * s) ^ 2 ≤ X) (hM : X ≤ (M * s) ^ 2)
    (hC : c / l + (M + c / l / 10 ^ 7) ≤ C := by norm_num)
    (hc : 0 ≤ c := by norm_num) (hM0 : 0 ≤ M := by norm_num) (hl0 : 0 < l := by norm_num)
    (hlc : c / 10 ^ 7 ≤ l ^ 2 := by norm_num)
    (hM1 : M + c / l / 10 ^ 7 ≤ 1000 := by norm_num) :
    Near fl s M C (Scalar.sqrt x) (Real.sqrt X) := by
  have hu0 := fl.u_nonneg
  have hus : 0 ≤ fl.u * s := by positivity
  have e := hx.err_le hu (by positivity) hc
  have hX0 : 0 ≤ X := le_trans (sq_nonneg _) hl
  have hx0 : 0 ≤ fl.val x := by
    have h1 : c / 10 ^ 7 * (s * s) ≤ (l * s) ^ 2 := by
      rw [mul_pow, sq s]; gcongr
    linarith [(abs_le.1 e).1]
  set Q := Real.sqrt X with hQ
  set q := Real.sqrt (fl.val x) with hq
  have hQ0 : 0 ≤ Q := Real.sqrt_nonneg _
  have hq0 : 0 ≤ q := Real.sqrt_nonneg _
  have hQl : l * s ≤ Q := Real.le_sqrt_of_sq_le hl
  have hQM : Q ≤ M * s := Real.sqrt_le_iff.2 ⟨by positivity, hM⟩
  have hqq : q ^ 2 = fl.val x := Real.sq_sqrt hx0
  have hQQ : Q ^ 2 = X := Real.sq_sqrt hX0
  have h1 : |q - Q| ≤ c / l * (fl.u * s) := by
    rcases hs.eq_or_lt with h0 | h0
    · have e1 := hx.err
      rw [← h0] at e1 ⊢
      simp only [mul_zero, abs_nonpos_iff] at e1 ⊢
      rw [hq, hQ, sub_eq_zero.1 e1, sub_self]
    · have hp : 0 < l * s := by positivity
      have h2 : |q - Q| * (l * s) ≤ c * (fl.u * (s * s)) := by
        calc |q - Q| * (l * s) ≤ |q - Q| * (q + Q) := by gcongr; linarith
          _ = |q ^ 2 - Q ^ 2| := by
            rw [← abs_of_nonneg (show 0 ≤ q + Q by linarith), ← abs_mul]
            ring_nf
          _ ≤ _ := by rw [hqq, hQQ]; exact hx.err
      rw [← le_div_iff₀ hp] at h2
      refine h2.trans (le_of_eq ?_)
      field_simp
  have h1' : |q - Q| ≤ c / l / 10 ^ 7 * s := by
    have : c / l * (fl.u * s) ≤ c / l * (1 / 10 ^ 7 * s) := by gcongr
    linarith
  have hqM : q ≤ (M + c / l / 10 ^ 7) * s := by linarith [(abs_le.1 h1').2]
  have hf : fl.isFinite (Scalar.sqrt x) := by
    refine (r.sqrt hx.fin hx0 le_rfl (hqM.trans (le_trans ?_ hs1.top))).1
    gcongr
  refine ⟨hf, by rw [abs_of_nonneg hQ0]; exact hQM, ?_⟩
  have h2 := (k.sqrt hf).2.2
  rw [← hq] at h2
  have h3 : fl.u * q ≤ fl.u * ((M + c / l / 10 ^ 7) * s) := by gcongr
  have h4 := abs_add_le (fl.val (Scalar.sqrt x) - q) (q - Q)
  rw [sub_add_sub_cancel] at h4
  have h5 := mul_le_mul_of_nonneg_right hC hus
  linarith

theorem abs (qr : RoundingQr fl) (h : Near fl s m c x X) : Near fl s m c (Scalar.abs x) |X| := by
  obtain ⟨h1, h2⟩ := qr.abs h.fin
  refine ⟨h1, by rw [abs_abs]; exact h.mag, ?_⟩
  rw [h2]
  exact (abs_abs_sub_abs_le _ _).trans h.err

theorem lit_two (fl : Rounding R) : Near fl 1 2 0 (Scalar.lit 2 : R) 2 :=
  of_val fl.lit_two.1 fl.lit_two.2 (by norm_num)

theorem one (fl : Rounding R) : Near fl 1 1 0 (1 : R) 1 := of_val fl.one.1 fl.one.2 (by norm_num)

end Near

end CamGeom
