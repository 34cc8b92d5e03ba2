import Verif.Lemmas.InRange
import Verif.Props.RoundingView
import Verif.Props.Finite

/-!
# The computation of `from_view` does not overflow
-/

namespace CamGeom
open Spec Matrix ExtrinsicParameters Rounding

variable {R : Type} [Scalar R] {fl : Rounding R} {k : ℕ}

/-- The computed length of a vector that is not tiny. -/
theorem norm_inRange (r : RoundingRange fl) {d : V3 R} (hd : ∀ a, InRange fl k (d a))
    (hk : 2 * k + 2 ≤ r.top) (hu1 : fl.u ≤ 1 / 100) (hω : 3 * fl.ω ≤ len (vvec fl d) ^ 2) :
    InRange fl (k + 1) (V3.norm d) := by
  have hu0 := fl.u_nonneg
  have sq : ∀ a, InRange fl (k + k) (d a * d a) := fun a => (hd a).mul r (hd a) (by omega)
  have hs : InRange fl (k + k + 1 + 1) (V3.normSq d) :=
    ((sq 0).add r (sq 1) (by omega)).add r ((sq 2).mono (by omega)) (by omega)
  set L := len (vvec fl d) with hL
  have hq : L ^ 2 = fl.val (d 0) * fl.val (d 0) + fl.val (d 1) * fl.val (d 1) +
      fl.val (d 2) * fl.val (d 2) := by
    rw [hL, len_sq, dotProduct, Fin.sum_univ_three]; rfl
  have hc := (((Comp.exact fl (d 0)).mul (Comp.exact fl (d 0))).add
    ((Comp.exact fl (d 1)).mul (Comp.exact fl (d 1)))).add
    (((Comp.exact fl (d 2)).mul (Comp.exact fl (d 2))).mono (Nat.le_succ _) le_rfl)
  have h4 := (hc hs.1).2
  rw [← hq] at h4
  simp only [abs_mul_abs_self] at h4
  change |fl.val (V3.normSq d) - L ^ 2| ≤ ((1 + fl.u) ^ 3 - 1) * _ at h4
  have h0 : 0 ≤ fl.val (V3.normSq d) := by
    have h6 : (1 + fl.u) ^ 3 - 1 ≤ 1 / 2 := by
      have : (1 + fl.u) ^ 3 ≤ (1 + 1 / 100) ^ 3 := by gcongr
      norm_num at this ⊢
      linarith
    have h8 : fl.val (d 0) * fl.val (d 0) + fl.ω + (fl.val (d 1) * fl.val (d 1) + fl.ω) +
        (fl.val (d 2) * fl.val (d 2) + fl.ω) ≤ 2 * L ^ 2 := by linarith
    have h9 : 0 ≤ fl.val (d 0) * fl.val (d 0) + fl.ω + (fl.val (d 1) * fl.val (d 1) + fl.ω) +
        (fl.val (d 2) * fl.val (d 2) + fl.ω) := by
      have := fl.ω_nonneg
      linarith [mul_self_nonneg (fl.val (d 0)), mul_self_nonneg (fl.val (d 1)),
        mul_self_nonneg (fl.val (d 2))]
    have := mul_le_mul h6 h8 h9 (by norm_num)
    linarith [(abs_le.1 (h4.trans this)).1]
  refine r.sqrt hs.1 h0 (by omega) ?_
  refine Real.sqrt_le_iff.2 ⟨by positivity, ?_⟩
  rw [← pow_mul]
  refine (le_abs_self _).trans (hs.2.trans (le_of_eq ?_))
  congr 1
  omega

/-- The computed unit vector of a computed vector that is not tiny. -/
theorem normalize_inRange (r : RoundingRange fl) (m : RoundingMore fl) {d : V3 R}
    (hd : ∀ a, InRange fl k (d a)) (hk : 2 * k + 2 ≤ r.top) (hu1 : fl.u ≤ 1 / 100) {D : Vec} {e : ℝ}
    (hn : ∀ a, |fl.val (d a) - D a| ≤ e) (hD : D ≠ 0) (he : 20 * e ≤ len D)
    (hωD : 4 * fl.ω ≤ len D ^ 2) :
    InRange fl (k + 1) (V3.norm d) ∧ ∀ a, InRange fl 1 (V3.normalize d a) := by
  have hDp := len_pos.2 hD
  have h1 : len (vvec fl d - D) ≤ 2 * e := len_le_entries hn
  have h2 : 9 / 10 * len D ≤ len (vvec fl d) := by
    have e1 := len_add_le (D - vvec fl d) (vvec fl d)
    rw [sub_add_cancel] at e1
    have e3 : len (D - vvec fl d) = len (vvec fl d - D) := by
      have : D - vvec fl d = (-1 : ℝ) • (vvec fl d - D) := by simp
      rw [this, len_smul]; simp
    linarith
  have h3 : vvec fl d ≠ 0 := len_pos.1 (by linarith)
  have h4 : 3 * fl.ω ≤ len (vvec fl d) ^ 2 := by
    have : (9 / 10 * len D) ^ 2 ≤ len (vvec fl d) ^ 2 := by gcongr
    nlinarith
  have hN := norm_inRange r hd hk hu1 h4
  refine ⟨hN, fun a => ?_⟩
  have h5 := norm_near m le_rfl hu1 d h4 h3 hN.1
  set L := len (vvec fl d) with hL
  have hLp : 0 < L := len_pos.2 h3
  have hNL : 92 / 100 * L ≤ fl.val (V3.norm d) := by
    have := (abs_le.1 h5).1
    nlinarith
  have hNp : 0 < fl.val (V3.norm d) := by linarith
  refine r.div (hd a).1 hN.1 hNp.ne' (by omega) ?_
  rw [abs_div, abs_of_pos hNp, div_le_iff₀ hNp]
  have : |fl.val (d a)| ≤ L := abs_coord_le (vvec fl d) a
  linarith

/-- The denominator of Shepperd's method. -/
theorem denom_inRange (r : RoundingRange fl) (m : RoundingMore fl) {v : R} {T δ : ℝ}
    (hv : InRange fl 4 v) (hk : 10 ≤ r.top) (hu : 40 * fl.u ≤ δ) (hδ : δ ≤ 1 / 200)
    (hω : fl.ω ≤ 1) (hn : |fl.val v - T| ≤ 33 / 10 * δ) (hT : 98 / 100 ≤ T) (hT4 : T ≤ 4) :
    InRange fl 3 (Scalar.sqrt v * Scalar.lit 2) ∧
      1 / 2 ^ 0 ≤ |fl.val (Scalar.sqrt v * Scalar.lit 2)| := by
  have h0 : 0 ≤ fl.val v := by linarith [(abs_le.1 hn).1]
  have hs : InRange fl 2 (Scalar.sqrt v) := r.sqrt hv.1 h0 (by omega)
    (Real.sqrt_le_iff.2 ⟨by positivity, (le_abs_self _).trans (hv.2.trans (by norm_num))⟩)
  have hd := hs.mul r (InRange.lit_two fl) (by omega)
  refine ⟨hd, ?_⟩
  have h := denom_tight m hu hδ hω hn hT hT4 hd.1
  have : 9895 / 10000 ≤ Real.sqrt T := by apply Real.le_sqrt_of_sq_le; norm_num; linarith
  refine le_trans ?_ (le_abs_self _)
  norm_num
  linarith [(abs_le.1 h).1]

/-- The conversion of a matrix near a rotation matrix does not overflow. -/
theorem shepperd_inRange (r : RoundingRange fl) (m : RoundingMore fl) (hquarter : fl.QuarterExact)
    (hk : 10 ≤ r.top) {M : Mat 3 3 R} {T : Mat 3 3 ℝ} (hT : IsRotation T) {δ : ℝ}
    (hM : ∀ a b, |fl.val (M a b) - T a b| ≤ δ) (hu : 40 * fl.u ≤ δ) (hδ : δ ≤ 1 / 200)
    (hω : fl.ω ≤ 1) (hf : ∀ a b, fl.isFinite (M a b)) :
    InRange fl 3 (shepperd M).w ∧ InRange fl 3 (shepperd M).i ∧ InRange fl 3 (shepperd M).j ∧
      InRange fl 3 (shepperd M).k := by
  have hu0 := fl.u_nonneg
  have hδ0 : 0 ≤ δ := by linarith
  have huδ : fl.u * δ ≤ fl.u * (1 / 200) := by gcongr
  have huu : fl.u * fl.u ≤ fl.u * (1 / 200) := by gcongr; linarith
  have hE := rot_entry hT
  have htr := rot_trace hT
  have hr : ∀ a b, InRange fl 1 (M a b) := fun a b => ⟨hf a b, by
    have := abs_add_le (fl.val (M a b) - T a b) (T a b)
    rw [sub_add_cancel] at this
    linarith [hM a b, hE a b]⟩
  have one : |fl.val (Scalar.lit 1) - 1| ≤ 0 := by rw [fl.lit_one.2]; simp
  have lit1 : InRange fl 1 (Scalar.lit 1 : R) := (InRange.lit_one fl).mono (by norm_num)
  have quarter : InRange fl 0 (Scalar.lit (1 / 4) : R) := ⟨hquarter.1, by
    rw [hquarter.2]; norm_num [abs_of_pos]⟩
  have radd : ∀ a b c d, InRange fl 2 (M a b + M c d) := fun a b c d => (hr a b).add r (hr c d) (by omega)
  have rsub : ∀ a b c d, InRange fl 2 (M a b - M c d) := fun a b c d => (hr a b).sub r (hr c d) (by omega)
  have rv : ∀ a b c, InRange fl 4 (Scalar.lit 1 + M a a - M b b - M c c) := fun a b c =>
    (((lit1.add r (hr a a) (by omega)).sub r ((hr b b).mono (by norm_num)) (by omega)).sub r
      ((hr c c).mono (by norm_num)) (by omega))
  have quot : ∀ {d x : R}, InRange fl 3 d ∧ 1 / 2 ^ 0 ≤ |fl.val d| → InRange fl 2 x →
      InRange fl 3 (x / d) := fun hd hx => (hx.div r hd.1.1 hd.2 (by omega)).mono (by norm_num)
  have quart : ∀ {d : R}, InRange fl 3 d ∧ 1 / 2 ^ 0 ≤ |fl.val d| →
      InRange fl 3 (Scalar.lit (1 / 4) * d) := fun hd => (quarter.mul r hd.1 (by omega)).mono (by norm_num)
  -- one plus a diagonal entry minus the others
  have hv : ∀ a b c,
      |fl.val (Scalar.lit 1 + M a a - M b b - M c c) - (1 + T a a - T b b - T c c)| ≤
        33 / 10 * δ := fun a b c => by
    have h := (rv a b c).1
    have h1 := (fl.sub h).1
    have h2 := (fl.sub h1).1
    have e1 := abs_le.1 (hE a a)
    have e2 := abs_le.1 (hE b b)
    have e3 := abs_le.1 (hE c c)
    have n1 := add_near (A := 2) h2 one (hM a a) (abs_le.2 ⟨by linarith, by linarith⟩)
    have n1' : |fl.val (Scalar.lit 1 + M a a) - (1 + T a a)| ≤ δ + 3 * fl.u := by linarith
    have n2 := sub_near (A := 3) h1 n1' (hM b b) (abs_le.2 ⟨by linarith, by linarith⟩)
    have n2' : |fl.val (Scalar.lit 1 + M a a - M b b) - (1 + T a a - T b b)| ≤ 2 * δ + 7 * fl.u := by
      refine n2.trans ?_
      have : fl.u * (3 + (δ + 3 * fl.u) + δ) ≤ fl.u * 4 := by gcongr; linarith
      linarith
    have n3 := sub_near (A := 4) h n2' (hM c c) (abs_le.2 ⟨by linarith, by linarith⟩)
    refine n3.trans ?_
    have : fl.u * (4 + (2 * δ + 7 * fl.u) + δ) ≤ fl.u * 5 := by gcongr; linarith
    linarith
  have c := fun a => abs_le.1 (hE a a)
  have v := fun a => abs_le.1 (hM a a)
  -- the trace
  have rt : InRange fl 3 (M 0 0 + M 1 1 + M 2 2) :=
    ((hr 0 0).add r (hr 1 1) (by omega)).add r ((hr 2 2).mono (by norm_num)) (by omega)
  have ft2 := (fl.add rt.1).1
  have n1 := add_near (A := 2) ft2 (hM 0 0) (hM 1 1)
    (abs_le.2 ⟨by linarith [(c 0).1, (c 1).1], by linarith [(c 0).2, (c 1).2]⟩)
  have n1' : |fl.val (M 0 0 + M 1 1) - (T 0 0 + T 1 1)| ≤ 2 * δ + 3 * fl.u := by linarith
  have n2 := add_near (A := 3) rt.1 n1' (hM 2 2)
    (abs_le.2 ⟨by linarith [(c 0).1, (c 1).1, (c 2).1], by linarith [(c 0).2, (c 1).2, (c 2).2]⟩)
  have n2' : |fl.val (M 0 0 + M 1 1 + M 2 2) - (T 0 0 + T 1 1 + T 2 2)| ≤ 3 * δ + 7 * fl.u := by
    refine n2.trans ?_
    have : fl.u * (3 + (2 * δ + 3 * fl.u) + δ) ≤ fl.u * 4 := by gcongr; linarith
    linarith
  have rt1 : InRange fl 4 (M 0 0 + M 1 1 + M 2 2 + Scalar.lit 1) :=
    rt.add r (lit1.mono (by norm_num)) (by omega)
  have n3 := add_near (A := 4) rt1.1 n2' one
    (abs_le.2 ⟨by linarith, by linarith [(c 0).2, (c 1).2, (c 2).2]⟩)
  have n3' : |fl.val (M 0 0 + M 1 1 + M 2 2 + Scalar.lit 1) - (T 0 0 + T 1 1 + T 2 2 + 1)| ≤
      33 / 10 * δ := by
    refine n3.trans ?_
    have : fl.u * (4 + (3 * δ + 7 * fl.u) + 0) ≤ fl.u * 5 := by gcongr; linarith
    linarith
  unfold shepperd
  dsimp only
  by_cases h1 : Scalar.lt 0 (M 0 0 + M 1 1 + M 2 2) = true
  · rw [if_pos h1]
    have h1' := (m.lt_iff fl.zero.1 rt.1).1 h1
    rw [fl.zero.2] at h1'
    have hd := denom_inRange r m rt1 hk hu hδ hω n3' (by linarith [(abs_le.1 n2').2])
      (by linarith [(c 0).2, (c 1).2, (c 2).2])
    exact ⟨quart hd, quot hd (rsub _ _ _ _), quot hd (rsub _ _ _ _), quot hd (rsub _ _ _ _)⟩
  · rw [if_neg h1]
    have htr2 : T 0 0 + T 1 1 + T 2 2 ≤ 33 / 10 * δ := by
      have h1' : ¬ fl.val 0 < fl.val (M 0 0 + M 1 1 + M 2 2) :=
        fun h => h1 ((m.lt_iff fl.zero.1 rt.1).2 h)
      rw [fl.zero.2] at h1'
      linarith [(abs_le.1 n2').1]
    by_cases h2 : (Scalar.lt (M 1 1) (M 0 0) && Scalar.lt (M 2 2) (M 0 0)) = true
    · rw [if_pos h2]
      rw [Bool.and_eq_true, m.lt_iff (hf 1 1) (hf 0 0), m.lt_iff (hf 2 2) (hf 0 0)] at h2
      have hd := denom_inRange r m (rv 0 1 2) hk hu hδ hω (hv 0 1 2)
        (by linarith [h2.1, h2.2, (v 0).1, (v 0).2, (v 1).1, (v 1).2, (v 2).1, (v 2).2])
        (by linarith [(c 0).2, (c 1).1, (c 2).1])
      exact ⟨quot hd (rsub _ _ _ _), quart hd, quot hd (radd _ _ _ _), quot hd (radd _ _ _ _)⟩
    · rw [if_neg h2]
      rw [Bool.and_eq_true, m.lt_iff (hf 1 1) (hf 0 0), m.lt_iff (hf 2 2) (hf 0 0), not_and, not_lt] at h2
      by_cases h3 : Scalar.lt (M 2 2) (M 1 1) = true
      · rw [if_pos h3]
        rw [m.lt_iff (hf 2 2) (hf 1 1)] at h3
        have h4 : fl.val (M 0 0) ≤ fl.val (M 1 1) := by
          by_contra hc
          have := h2 (not_le.1 hc)
          linarith
        have hd := denom_inRange r m (rv 1 0 2) hk hu hδ hω (hv 1 0 2)
          (by linarith [(v 0).1, (v 0).2, (v 1).1, (v 1).2, (v 2).1, (v 2).2])
          (by linarith [(c 1).2, (c 0).1, (c 2).1])
        exact ⟨quot hd (rsub _ _ _ _), quot hd (radd _ _ _ _), quart hd, quot hd (radd _ _ _ _)⟩
      · rw [if_neg h3]
        rw [m.lt_iff (hf 2 2) (hf 1 1), not_lt] at h3
        have h4 : fl.val (M 0 0) ≤ fl.val (M 2 2) := by
          by_contra hc
          have := h2 (by linarith)
          linarith
        have hd := denom_inRange r m (rv 2 0 1) hk hu hδ hω (hv 2 0 1)
          (by linarith [(v 0).1, (v 0).2, (v 1).1, (v 1).2, (v 2).1, (v 2).2])
          (by linarith [(c 2).2, (c 0).1, (c 1).1])
        exact ⟨quot hd (rsub _ _ _ _), quot hd (radd _ _ _ _), quot hd (radd _ _ _ _), quart hd⟩

/-- The product of two finite quaternions. -/
theorem quat_mul_inRange (r : RoundingRange fl) {a b : Quat R} (hk : 10 ≤ r.top)
    (ha : InRange fl 3 a.w ∧ InRange fl 3 a.i ∧ InRange fl 3 a.j ∧ InRange fl 3 a.k)
    (hb : InRange fl 2 b.w ∧ InRange fl 2 b.i ∧ InRange fl 2 b.j ∧ InRange fl 2 b.k) :
    QFinite fl (a.mul b) := by
  obtain ⟨aw, ai, aj, ak⟩ := ha
  obtain ⟨bw, bi, bj, bk⟩ := hb
  have p : ∀ {x y : R}, InRange fl 3 x → InRange fl 2 y → InRange fl 5 (x * y) :=
    fun hx hy => hx.mul r hy (by omega)
  have p6 : ∀ {x y : R}, InRange fl 3 x → InRange fl 2 y → InRange fl 6 (x * y) :=
    fun hx hy => (p hx hy).mono (by norm_num)
  have p7 : ∀ {x y : R}, InRange fl 3 x → InRange fl 2 y → InRange fl 7 (x * y) :=
    fun hx hy => (p hx hy).mono (by norm_num)
  exact ⟨((((p aw bw).sub r (p ai bi) (by omega)).sub r (p6 aj bj) (by omega)).sub r (p7 ak bk)
      (by omega)).1,
    ((((p aw bi).add r (p ai bw) (by omega)).add r (p6 aj bk) (by omega)).sub r (p7 ak bj)
      (by omega)).1,
    ((((p aw bj).sub r (p ai bk) (by omega)).add r (p6 aj bw) (by omega)).add r (p7 ak bi)
      (by omega)).1,
    ((((p aw bk).add r (p ai bj) (by omega)).sub r (p6 aj bi) (by omega)).add r (p7 ak bw)
      (by omega)).1⟩

/-- All intermediate results of `from_view` are finite. -/
theorem view_finite (r : RoundingRange fl) (m : RoundingMore fl) (vw : RoundingView fl)
    (hω : fl.ω ≤ 1 / 4)
    (hsin : InRange fl 1 (Scalar.sin (Scalar.pi / Scalar.lit 2 : R)))
    (hcos : InRange fl 1 (Scalar.cos (Scalar.pi / Scalar.lit 2 : R))) {c l up : V3 R}
    (hc : ∀ a, InRange fl k (c a)) (hl : ∀ a, InRange fl k (l a)) (hup : ∀ a, InRange fl k (up a))
    (hk : 2 * k + 10 ≤ r.top)
    (dir_big : 4 * fl.ω ≤ len (fl.vec l - fl.vec c) ^ 2) (up_big : fl.ω ≤ len (fl.vec up))
    (cross_big : 4 * fl.ω ≤ (sine (fl.vec l - fl.vec c) (fl.vec up) * len (fl.vec up)) ^ 2)
    {s : ℝ} (hs : s = sine (fl.vec l - fl.vec c) (fl.vec up)) (hs0 : 0 < s) (hsu : 11000 * fl.u ≤ s) :
    ViewInRange fl c l up ∧ QFinite fl (fromView nalgebra c l up).pose.rotation := by
  have hu0 := fl.u_nonneg
  have hω0 := fl.ω_nonneg
  set D := fl.vec l - fl.vec c with hD
  set U := fl.vec up with hU
  have hs1 : s ≤ 1 := hs ▸ sine_le_one D U
  have hu1 : fl.u ≤ 1 / 11000 := by linarith
  have hDU : D ⨯₃ U ≠ 0 := by
    intro h
    rw [hs, sine, h, len_eq_zero.2 rfl, zero_div] at hs0
    exact lt_irrefl _ hs0
  have hD0 : D ≠ 0 := by intro h; apply hDU; rw [h]; simp
  have hDp := len_pos.2 hD0
  obtain ⟨hface, hrot, hz1, hP0, hx1, hP⟩ := faceTowards_real hDU
  set Z := V3.normalize D with hZ
  rw [← hs] at hP
  have hU0 : U ≠ 0 := by intro h; apply hDU; rw [h]; simp
  have hUp := len_pos.2 hU0
  set dir := V3.sub l c with hdir
  set z₁ := V3.normalize dir with hz₁
  set z := V3.normalize z₁ with hz
  set x := V3.normalize (V3.cross up z) with hx
  have rdir : ∀ a, InRange fl (k + 1) (dir a) := fun a => (hl a).sub r (hc a) (by omega)
  have n0 : ∀ a, |fl.val (dir a) - D a| ≤ fl.u * len D := by
    intro a
    refine ((fl.sub (x := l a) (y := c a) (rdir a).1).2.2).trans ?_
    exact mul_le_mul_of_nonneg_left (abs_coord_le D a) hu0
  obtain ⟨fd, rz1⟩ := normalize_inRange r m rdir (by omega) (by linarith) n0 hD0 (by nlinarith) dir_big
  have n1 : ∀ a, |fl.val (z₁ a) - Z a| ≤ 14 * fl.u := by
    intro a
    have := normalize_near' m (by linarith) (by linarith) n0 hD0 (by nlinarith) dir_big fd.1 a (rz1 a).1
    rw [show 3 * (fl.u * len D) / len D = 3 * fl.u by field_simp] at this
    linarith
  have hZ0 : Z ≠ 0 := len_pos.1 (by rw [hz1]; norm_num)
  obtain ⟨fu, rz⟩ := normalize_inRange (k := 1) r m rz1 (by omega) (by linarith) n1 hZ0
    (by rw [hz1]; linarith) (by rw [hz1]; linarith)
  have n2 : ∀ a, |fl.val (z a) - Z a| ≤ 53 * fl.u := by
    intro a
    have := normalize_near' m (by linarith) (by linarith) n1 hZ0 (by rw [hz1]; linarith)
      (by rw [hz1]; linarith) fu.1 a (rz a).1
    rw [hz1, normalize_of_len_one hz1] at this
    linarith
  have hZc : ∀ a, |Z a| ≤ 1 := fun a => hz1 ▸ abs_coord_le Z a
  have hUc : ∀ a, |U a| ≤ len U := abs_coord_le U
  have rc := fun a => InRange.cross r hup rz (by omega) a
  have n3 : ∀ a, |fl.val (V3.cross up z a) - (U ⨯₃ Z) a| ≤ 113 * fl.u * len U := by
    intro a
    have := cross_near (fl := fl) (a := up) (b := z) (A := U) (B := Z) (α := 0) (β := 53 * fl.u)
      (A₁ := len U) (B₁ := 1) (p := 551 / 10 * fl.u * len U) (fun i => by simp [hU, Rounding.vec]) n2 hUc
      hZc (by
        have h2 : (len U + 0) * (1 + 53 * fl.u) + fl.ω ≤ 21 / 10 * len U := by
          have : len U * (53 * fl.u) ≤ len U * (1 / 10) := by gcongr; linarith
          linarith
        have h3 := mul_le_mul_of_nonneg_left h2 hu0
        linarith) a (rc a).1
    refine this.trans ?_
    have h4 : fl.u * (2 * (len U * 1) + 2 * (551 / 10 * fl.u * len U)) ≤ fl.u * (28 / 10 * len U) := by
      apply mul_le_mul_of_nonneg_left _ hu0
      have : 2 * (551 / 10 * fl.u * len U) ≤ 2 * (551 / 10 * (1 / 11000) * len U) := by gcongr
      linarith
    linarith
  obtain ⟨fc, rx⟩ := normalize_inRange r m rc (by omega) (by linarith) n3 hP0 (by rw [hP]; nlinarith)
    (by rw [hP, hs]; exact cross_big)
  have ry := fun a => InRange.cross r rz rx (by omega) a
  have hr : ViewInRange fl c l up := ⟨fd.1, fu.1, fc.1, dir_big, up_big, cross_big⟩
  refine ⟨hr, ?_⟩
  have fM : ∀ a b, fl.isFinite (faceTowardsMatrix z₁ up a b) := by
    intro a b
    fin_cases a <;> fin_cases b
    exacts [(rx 0).1, (ry 0).1, (rz 0).1, (rx 1).1, (ry 1).1, (rz 1).1, (rx 2).1, (ry 2).1, (rz 2).1]
  obtain ⟨-, nM⟩ := face_tight m hω hr hs hs0 hsu fM (fun a => (rz1 a).1)
  have hus : fl.u ≤ fl.u / s := by rw [le_div_iff₀ hs0]; nlinarith
  have hb : fl.u / s ≤ 1 / 11000 := by rw [div_le_iff₀ hs0]; linarith
  obtain ⟨sw, si, sj, sk⟩ := shepperd_inRange r m vw.lit_quarter (by omega) hrot nM (by linarith) (by linarith)
    (by linarith) fM
  refine quat_mul_inRange r (by omega) ⟨sw, si.neg r, sj.neg r, sk.neg r⟩ ⟨hcos.mono (by norm_num), ?_⟩
  exact ⟨(rz1 0).mul r hsin (by omega), (rz1 1).mul r hsin (by omega), (rz1 2).mul r hsin (by omega)⟩

end CamGeom
