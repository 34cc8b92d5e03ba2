import Verif.Lemmas.RayIntersection
import Verif.Lemmas.Pinv

/-!
# The quadratic form of sums of squared distances to lines
-/

namespace CamGeom
open Spec Matrix

variable {F : Type}

theorem unit_dot_le (v : V3 ℝ) : V3.normalize v ⬝ᵥ V3.normalize v ≤ 1 := by
  by_cases h : v = 0
  · subst h; rw [normalize_eq]; simp
  · rw [← len_sq, len_normalize h]; norm_num

theorem unit_dot {v : V3 ℝ} (h : v ≠ 0) : V3.normalize v ⬝ᵥ V3.normalize v = 1 := by
  rw [← len_sq, len_normalize h]; norm_num

theorem dm_mulVec (r : Ray F ℝ) (w : V3 ℝ) :
    dm r *ᵥ w = (V3.normalize r.direction ⬝ᵥ w) • V3.normalize r.direction - w := by
  rw [dm, sub_mulVec, one_mulVec, vecMulVec_mulVec]
  simp

theorem dm_transpose (r : Ray F ℝ) : (dm r).transpose = dm r := by
  rw [dm, transpose_sub, transpose_vecMulVec, transpose_one]

theorem dm_quad (r : Ray F ℝ) (w : V3 ℝ) :
    w ⬝ᵥ (dm r *ᵥ w) = (V3.normalize r.direction ⬝ᵥ w) ^ 2 - w ⬝ᵥ w := by
  rw [dm_mulVec, dotProduct_sub, dotProduct_smul, dotProduct_comm w (V3.normalize r.direction),
    smul_eq_mul, pow_two]

theorem cauchy (a b : V3 ℝ) : (a ⬝ᵥ b) ^ 2 ≤ (a ⬝ᵥ a) * (b ⬝ᵥ b) := by
  simp only [dotProduct, Fin.sum_univ_three]
  nlinarith [sq_nonneg (a 0 * b 1 - a 1 * b 0), sq_nonneg (a 0 * b 2 - a 2 * b 0),
    sq_nonneg (a 1 * b 2 - a 2 * b 1)]

theorem dm_quad_nonpos (r : Ray F ℝ) (w : V3 ℝ) : w ⬝ᵥ (dm r *ᵥ w) ≤ 0 := by
  rw [dm_quad]
  have h1 := cauchy (V3.normalize r.direction) w
  have h2 := unit_dot_le r.direction
  nlinarith [dot_self_nonneg' w]

/-- Squared distance to a line. -/
theorem distTo_line_sq {r : Ray F ℝ} (h : r.direction ≠ 0) (x : V3 ℝ) :
    distTo (line r.center r.direction) x ^ 2 = -((x - r.center) ⬝ᵥ (dm r *ᵥ (x - r.center))) := by
  set u := V3.normalize r.direction with hu
  set w := x - r.center with hw
  have huu : u ⬝ᵥ u = 1 := unit_dot h
  have hd : r.direction = len r.direction • u := by
    rw [hu, normalize_eq, smul_smul, mul_inv_cancel₀ (len_pos.2 h).ne', one_smul]
  have hsq : ∀ t : ℝ, (w - t • u) ⬝ᵥ (w - t • u) = w ⬝ᵥ w - 2 * t * (u ⬝ᵥ w) + t ^ 2 := by
    intro t
    simp only [dotProduct_sub, sub_dotProduct, dotProduct_smul, smul_dotProduct, huu, smul_eq_mul,
      dotProduct_comm w u]
    ring
  have hleast : IsLeast (distance x '' line r.center r.direction) (len (w - (u ⬝ᵥ w) • u)) := by
    constructor
    · refine ⟨r.center + (u ⬝ᵥ w) • u, ⟨(u ⬝ᵥ w) / len r.direction, ?_⟩, ?_⟩
      · conv_rhs => rw [hd]
        rw [smul_smul, len_smul]
        have h1 : len u = 1 := len_normalize h
        rw [h1, mul_one, abs_of_nonneg (len_nonneg _), div_mul_cancel₀ _ (len_pos.2 h).ne']
      · rw [distance, hw]; congr 1; abel
    · rintro _ ⟨y, ⟨t, rfl⟩, rfl⟩
      have e : x - (r.center + t • r.direction) = w - (t * len r.direction) • u := by
        rw [hw, mul_smul, ← hd]; abel
      rw [distance, e, len_eq, len_eq]
      apply Real.sqrt_le_sqrt
      rw [hsq, hsq]
      nlinarith [sq_nonneg (u ⬝ᵥ w - t * len r.direction)]
  rw [distTo, hleast.csInf_eq, len_sq, hsq, dm_quad]
  ring

theorem sMat_cons (r : Ray F ℝ) (l : List (Ray F ℝ)) : sMat (r :: l) = dm r + sMat l := by
  simp [sMat]

theorem cVec_cons (r : Ray F ℝ) (l : List (Ray F ℝ)) :
    cVec (r :: l) = dm r *ᵥ r.center + cVec l := by
  simp [cVec]

theorem sMat_transpose (l : List (Ray F ℝ)) : (sMat l).transpose = sMat l := by
  induction l with
  | nil => simp [sMat]
  | cons r l ih => rw [sMat_cons, transpose_add, dm_transpose, ih]

theorem sMat_quad (l : List (Ray F ℝ)) (w : V3 ℝ) :
    w ⬝ᵥ (sMat l *ᵥ w) = (l.map fun r => w ⬝ᵥ (dm r *ᵥ w)).sum := by
  induction l with
  | nil => simp [sMat]
  | cons r l ih => rw [sMat_cons, add_mulVec, dotProduct_add, ih]; simp

theorem list_sum_nonpos {α : Type} (l : List α) {f : α → ℝ} (h : ∀ a, f a ≤ 0) :
    (l.map f).sum ≤ 0 := by
  induction l with
  | nil => simp
  | cons a l ih => rw [List.map_cons, List.sum_cons]; have := h a; linarith

theorem sMat_quad_nonpos (l : List (Ray F ℝ)) (w : V3 ℝ) : w ⬝ᵥ (sMat l *ᵥ w) ≤ 0 := by
  rw [sMat_quad]
  exact list_sum_nonpos l fun r => dm_quad_nonpos r w

theorem cost_cons (r : Ray F ℝ) (l : List (Ray F ℝ)) (x : V3 ℝ) :
    cost (r :: l) x = distTo (line r.center r.direction) x ^ 2 + cost l x := by
  simp [cost]

/-- Second-order expansion of the cost. -/
theorem cost_add {l : List (Ray F ℝ)} (h : ∀ r ∈ l, r.direction ≠ 0) (x w : V3 ℝ) :
    cost l (x + w) = cost l x + 2 * (w ⬝ᵥ (cVec l - sMat l *ᵥ x)) - w ⬝ᵥ (sMat l *ᵥ w) := by
  induction l with
  | nil => simp [cost, cVec, sMat]
  | cons r l ih =>
    have ih := ih fun r hr => h r (List.mem_cons_of_mem _ hr)
    have hr := h r (List.mem_cons_self ..)
    have hsym : ∀ a b : V3 ℝ, a ⬝ᵥ (dm r *ᵥ b) = b ⬝ᵥ (dm r *ᵥ a) := fun a b => by
      rw [dotProduct_comm, mulVec_dot, dm_transpose]
    rw [cost_cons, cost_cons, ih, distTo_line_sq hr, distTo_line_sq hr, sMat_cons, cVec_cons,
      show x + w - r.center = (x - r.center) + w by abel]
    simp only [mulVec_add, dotProduct_add, add_dotProduct, add_mulVec, mulVec_sub, dotProduct_sub,
      sub_dotProduct]
    have h1 := hsym x w
    have h2 := hsym r.center w
    linarith

/-- The least-squares points are the solutions of the normal equations. -/
theorem leastSquares_iff {l : List (Ray F ℝ)} (h : ∀ r ∈ l, r.direction ≠ 0) (x : V3 ℝ) :
    LeastSquares l x ↔ sMat l *ᵥ x = cVec l := by
  constructor
  · intro hx
    by_contra hne
    set g := cVec l - sMat l *ᵥ x with hg
    have hg0 : g ≠ 0 := fun e => hne (sub_eq_zero.1 e).symm
    have hgg := dot_self_pos hg0
    set K := -(g ⬝ᵥ (sMat l *ᵥ g)) with hK
    have hK0 : 0 ≤ K := by have := sMat_quad_nonpos l g; linarith
    have h1 := hx (x + (-(g ⬝ᵥ g) / (K + g ⬝ᵥ g)) • g)
    rw [cost_add h, ← hg] at h1
    simp only [smul_dotProduct, mulVec_smul, dotProduct_smul, smul_eq_mul] at h1
    have hp : 0 < K + g ⬝ᵥ g := by linarith
    set t := (g ⬝ᵥ g) / (K + g ⬝ᵥ g) with ht
    have ht0 : 0 < t := div_pos hgg hp
    have htK : t * (K + g ⬝ᵥ g) = g ⬝ᵥ g := div_mul_cancel₀ _ hp.ne'
    rw [neg_div, ← ht] at h1
    have h2 : 2 * (-t * (g ⬝ᵥ g)) - -t * (-t * (g ⬝ᵥ (sMat l *ᵥ g))) =
        t * (-2 * (g ⬝ᵥ g) + t * K) := by rw [hK]; ring
    have h3 : t * K < g ⬝ᵥ g := by nlinarith
    have h4 : t * (-2 * (g ⬝ᵥ g) + t * K) < 0 := mul_neg_of_pos_of_neg ht0 (by linarith)
    linarith
  · intro hx y
    have := cost_add h x (y - x)
    rw [hx, sub_self, dotProduct_zero, add_sub_cancel] at this
    have h2 := sMat_quad_nonpos l (y - x)
    linarith

theorem best_ok {trySvd : TrySvd ℝ} (hs : SvdContract trySvd) {rays : List (Ray F ℝ)}
    {pt : Points F ℝ 1} (hb : bestIntersectionOfRays trySvd rays = .ok pt) {x : V3 ℝ}
    (hx : sMat rays *ᵥ x = cVec rays) :
    2 ≤ rays.length ∧ ∃ P, Keep cutoff (sMat rays) P ∧ pt.data 0 = P *ᵥ x := by
  have hlen : 2 ≤ rays.length := by
    by_contra h
    rw [bestIntersectionOfRays, if_pos (by omega)] at hb
    cases hb
  refine ⟨hlen, ?_⟩
  rw [best_eq _ _ hlen] at hb
  cases hp : myPinv trySvd (Matrix.of.symm (sMat rays)) with
  | err e => rw [hp] at hb; cases hb
  | panic => rw [hp] at hb; cases hb
  | ok p =>
    rw [hp] at hb
    simp only [Outcome.bind, Outcome.ok.injEq] at hb
    obtain ⟨P, h1, h2⟩ := myPinv_spec hs hp
    refine ⟨P, h2, ?_⟩
    rw [← hb, ← h1, ← hx, mulVec_mulVec]
    rfl

/-- Two unit vectors and their squared components along `w`. -/
theorem two_dirs {u v w : V3 ℝ} (hu : u ⬝ᵥ u = 1) (hv : v ⬝ᵥ v = 1) :
    (u ⬝ᵥ w) ^ 2 + (v ⬝ᵥ w) ^ 2 ≤ (1 + |u ⬝ᵥ v|) * (w ⬝ᵥ w) := by
  set a := u ⬝ᵥ w
  set b := v ⬝ᵥ w
  set c := u ⬝ᵥ v
  have h1 := cauchy (a • u + b • v) w
  have h2 : (a • u + b • v) ⬝ᵥ w = a ^ 2 + b ^ 2 := by
    simp only [add_dotProduct, smul_dotProduct, smul_eq_mul, a, b]; ring
  have h3 : (a • u + b • v) ⬝ᵥ (a • u + b • v) = a ^ 2 + b ^ 2 + 2 * a * b * c := by
    simp only [add_dotProduct, smul_dotProduct, smul_eq_mul, dotProduct_add, dotProduct_smul, hu, hv,
      dotProduct_comm v u, c]; ring
  rw [h2, h3] at h1
  have h4 : 2 * a * b * c ≤ (a ^ 2 + b ^ 2) * |c| := by
    have : 2 * a * b * c ≤ |2 * a * b| * |c| := by rw [← abs_mul]; exact le_abs_self _
    have h5 : |2 * a * b| ≤ a ^ 2 + b ^ 2 := by
      rw [abs_le]; constructor <;> nlinarith [sq_nonneg (a - b), sq_nonneg (a + b)]
    nlinarith [abs_nonneg c]
  have hw := dot_self_nonneg' w
  by_cases h0 : a ^ 2 + b ^ 2 = 0
  · rw [h0]; exact mul_nonneg (by have := abs_nonneg c; linarith) hw
  · have hpos : 0 < a ^ 2 + b ^ 2 := lt_of_le_of_ne (by positivity) (Ne.symm h0)
    have h6 : (a ^ 2 + b ^ 2) * (a ^ 2 + b ^ 2) ≤ (a ^ 2 + b ^ 2) * ((1 + |c|) * (w ⬝ᵥ w)) := by
      nlinarith
    exact le_of_mul_le_mul_left h6 hpos

theorem sum_le_of_two {l : List (Ray F ℝ)} {f : Ray F ℝ → ℝ} (h0 : ∀ r, f r ≤ 0) {a b : Ray F ℝ}
    (ha : a ∈ l) (hb : b ∈ l) (hab : a ≠ b) : (l.map f).sum ≤ f a + f b := by
  obtain ⟨l', hl⟩ : ∃ l', (a :: l').Perm l := by
    classical exact ⟨_, (List.perm_cons_erase ha).symm⟩
  have hb' : b ∈ l' := by
    rcases List.mem_cons.1 (hl.symm.subset hb) with h | h
    · exact absurd h.symm hab
    · exact h
  have h1 := (hl.map f).sum_eq
  rw [← h1, List.map_cons, List.sum_cons]
  have h2 : (l'.map f).sum ≤ f b := by
    clear h1 hl
    induction l' with
    | nil => simp at hb'
    | cons c l' ih =>
      rw [List.map_cons, List.sum_cons]
      rcases List.mem_cons.1 hb' with h | h
      · subst h
        have := list_sum_nonpos l' h0
        linarith
      · have := ih h; have := h0 c; linarith
  linarith

/-- For spread rays the form is bounded away from zero. -/
theorem spread_quad {l : List (Ray F ℝ)} (h : ∀ r ∈ l, r.direction ≠ 0) (hs : Spread l)
    {w : V3 ℝ} (hw : w ≠ 0) : cutoff * (w ⬝ᵥ w) < -(w ⬝ᵥ (sMat l *ᵥ w)) := by
  obtain ⟨a, ha, b, hb, hab⟩ := hs
  have hna := h a ha
  have hnb := h b hb
  have la := len_pos.2 hna
  have lb := len_pos.2 hnb
  have hcos : |V3.normalize a.direction ⬝ᵥ V3.normalize b.direction| < 1 - cutoff := by
    rw [normalize_eq, normalize_eq, smul_dotProduct, dotProduct_smul, smul_eq_mul, smul_eq_mul,
      abs_mul, abs_mul, abs_of_pos (inv_pos.2 la), abs_of_pos (inv_pos.2 lb), ← mul_assoc,
      ← mul_inv, inv_mul_lt_iff₀ (mul_pos la lb)]
    rw [cutoff]; linarith
  have hne : a ≠ b := by
    rintro rfl
    rw [unit_dot hna, abs_one] at hcos
    have := cutoff_pos; linarith
  rw [sMat_quad]
  have h1 := sum_le_of_two (l := l) (f := fun r => w ⬝ᵥ (dm r *ᵥ w)) (fun r => dm_quad_nonpos r w)
    ha hb hne
  simp only [dm_quad a, dm_quad b] at h1
  have h2 := two_dirs (w := w) (unit_dot hna) (unit_dot hnb)
  have h3 := dot_self_pos hw
  nlinarith

theorem Keep.eq_one {ε : ℝ} {M P : Matrix (Fin 3) (Fin 3) ℝ} (hk : Keep ε M P)
    (h : ∀ w : V3 ℝ, w ≠ 0 → ε ^ 2 * (w ⬝ᵥ w) < (M *ᵥ w) ⬝ᵥ (M *ᵥ w)) (x : V3 ℝ) :
    P *ᵥ x = x := by
  by_contra hne
  have h0 : P *ᵥ (x - P *ᵥ x) = 0 := by rw [mulVec_sub, mulVec_mulVec, hk.idem, sub_self]
  have h1 := hk.small _ h0
  have h2 := h (x - P *ᵥ x) (sub_ne_zero.2 (Ne.symm hne))
  linarith

theorem stretch_of_quad {M : Matrix (Fin 3) (Fin 3) ℝ} {ε : ℝ} (hε : 0 ≤ ε) {w : V3 ℝ} (hw : w ≠ 0)
    (h : ε * (w ⬝ᵥ w) < -(w ⬝ᵥ (M *ᵥ w))) : ε ^ 2 * (w ⬝ᵥ w) < (M *ᵥ w) ⬝ᵥ (M *ᵥ w) := by
  have h1 := cauchy w (M *ᵥ w)
  have h2 := dot_self_pos hw
  have h3 : (ε * (w ⬝ᵥ w)) ^ 2 < (w ⬝ᵥ (M *ᵥ w)) ^ 2 := by
    have := mul_nonneg hε h2.le
    nlinarith
  have h4 : (w ⬝ᵥ w) * (ε ^ 2 * (w ⬝ᵥ w)) < (w ⬝ᵥ w) * ((M *ᵥ w) ⬝ᵥ (M *ᵥ w)) := by nlinarith
  exact lt_of_mul_lt_mul_left h4 h2.le

theorem spread_det {l : List (Ray F ℝ)} (h : ∀ r ∈ l, r.direction ≠ 0) (hs : Spread l) :
    IsUnit (sMat l) := by
  rw [← Matrix.mulVec_injective_iff_isUnit]
  intro x y hxy
  by_contra hne
  have h0 : x - y ≠ 0 := sub_ne_zero.2 hne
  have h1 := spread_quad h hs h0
  have h2 : sMat l *ᵥ (x - y) = 0 := by rw [mulVec_sub]; exact sub_eq_zero.2 hxy
  rw [h2, dotProduct_zero, neg_zero] at h1
  have := mul_pos cutoff_pos (dot_self_pos h0)
  linarith

end CamGeom
