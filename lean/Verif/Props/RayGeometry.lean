import Verif.Props.RayIntersection

/-!
# C58–C61: geometry, composition and sensitivity of `best_intersection_of_rays`

Exact real arithmetic around nalgebra's SVD; C61 allows an inexact SVD.
-/

namespace CamGeom
open Spec Matrix

variable {F : Type}

/-- The matrix of a unit direction `u`: `dm r` for `u` the normalized direction of `r`. -/
theorem dm_foot (r : Ray F ℝ) (x : V3 ℝ) :
    dm r *ᵥ (x - r.center) =
      r.center + (V3.normalize r.direction ⬝ᵥ (x - r.center)) • V3.normalize r.direction - x := by
  rw [dm_mulVec]; abel

theorem foot_mem {r : Ray F ℝ} (t : ℝ) :
    r.center + t • V3.normalize r.direction ∈ line r.center r.direction :=
  ⟨t * (len r.direction)⁻¹, by rw [normalize_eq, smul_smul]⟩

theorem dm_dot_direction {r : Ray F ℝ} (h : r.direction ≠ 0) (w : V3 ℝ) :
    (dm r *ᵥ w) ⬝ᵥ r.direction = 0 := by
  have e : r.direction = len r.direction • V3.normalize r.direction := by
    rw [normalize_eq, smul_smul, mul_inv_cancel₀ (len_pos.2 h).ne', one_smul]
  have h2 := unit_dot h
  rw [dm_mulVec]
  generalize V3.normalize r.direction = u at e h2 ⊢
  rw [e, dotProduct_smul, sub_dotProduct, smul_dotProduct, h2, smul_eq_mul, smul_eq_mul, mul_one,
    dotProduct_comm w u, sub_self, mul_zero]

/-- C58: for two rays the result is the midpoint of their common perpendicular, the shortest segment
between the two lines. -/
theorem c58_midpoint {trySvd : TrySvd ℝ} (hs : SvdContract trySvd) {a b : Ray F ℝ}
    (ha : a.direction ≠ 0) (hb : b.direction ≠ 0) (hspread : Spread [a, b]) {pt : Points F ℝ 1}
    (h : bestIntersectionOfRays trySvd [a, b] = .ok pt) :
    ∃ y ∈ line a.center a.direction, ∃ z ∈ line b.center b.direction,
      pt.data 0 = (1 / 2 : ℝ) • (y + z) ∧
      (y - z) ⬝ᵥ a.direction = 0 ∧ (y - z) ⬝ᵥ b.direction = 0 ∧
      ∀ y' ∈ line a.center a.direction, ∀ z' ∈ line b.center b.direction,
        distance y z ≤ distance y' z' := by
  have h0 : ∀ r ∈ [a, b], r.direction ≠ 0 := by
    intro r hr
    simp only [List.mem_cons, List.not_mem_nil, or_false] at hr
    rcases hr with rfl | rfl <;> assumption
  have hls := (leastSquares_iff h0 _).1 (c31_least_squares hs h0 hspread h).1
  set m := pt.data 0
  set y := a.center + (V3.normalize a.direction ⬝ᵥ (m - a.center)) • V3.normalize a.direction with hy
  set z := b.center + (V3.normalize b.direction ⬝ᵥ (m - b.center)) • V3.normalize b.direction with hz
  have e1 : dm a *ᵥ (m - a.center) = y - m := dm_foot a m
  have e2 : dm b *ᵥ (m - b.center) = z - m := dm_foot b m
  have e3 : (y - m) + (z - m) = 0 := by
    rw [← e1, ← e2, mulVec_sub, mulVec_sub]
    have : sMat [a, b] *ᵥ m - cVec [a, b] = 0 := sub_eq_zero.2 hls
    rw [sMat_cons, sMat_cons, cVec_cons, cVec_cons] at this
    simp only [sMat, cVec, List.map_nil, List.sum_nil, add_zero, add_mulVec] at this
    rw [← this]; abel
  have em : m = (1 / 2 : ℝ) • (y + z) := by
    have : y + z = (2 : ℝ) • m := by
      rw [two_smul]
      have e4 : y + z - (m + m) = 0 := by rw [← e3]; abel
      exact sub_eq_zero.1 e4
    rw [this, smul_smul]; norm_num
  have d1 : y - z = (2 : ℝ) • (y - m) := by
    rw [two_smul]
    have : z - m = -(y - m) := by rw [eq_neg_iff_add_eq_zero, add_comm]; exact e3
    calc y - z = (y - m) - (z - m) := by abel
      _ = _ := by rw [this, sub_neg_eq_add]
  have d2 : y - z = (-2 : ℝ) • (z - m) := by
    have : y - m = -(z - m) := by rw [eq_neg_iff_add_eq_zero]; exact e3
    rw [d1, this, smul_neg, neg_smul]
  have p1 : (y - z) ⬝ᵥ a.direction = 0 := by
    rw [d1, ← e1, smul_dotProduct, dm_dot_direction ha, smul_zero]
  have p2 : (y - z) ⬝ᵥ b.direction = 0 := by
    rw [d2, ← e2, smul_dotProduct, dm_dot_direction hb, smul_zero]
  refine ⟨y, foot_mem _, z, foot_mem _, em, p1, p2, ?_⟩
  rintro y' ⟨s, rfl⟩ z' ⟨t, rfl⟩
  obtain ⟨s0, hs0⟩ : y ∈ line a.center a.direction := foot_mem _
  obtain ⟨t0, ht0⟩ : z ∈ line b.center b.direction := foot_mem _
  set v := (s - s0) • a.direction - (t - t0) • b.direction with hv
  have e5 : a.center + s • a.direction - (b.center + t • b.direction) = (y - z) + v := by
    rw [hs0, ht0, hv, sub_smul, sub_smul]; abel
  have e6 : (y - z) ⬝ᵥ v = 0 := by
    rw [hv, dotProduct_sub, dotProduct_smul, dotProduct_smul, p1, p2]; simp
  rw [distance, distance, e5, len_eq, len_eq]
  apply Real.sqrt_le_sqrt
  rw [dotProduct_add, add_dotProduct, add_dotProduct, e6, dotProduct_comm v, e6]
  have := dot_self_nonneg' v
  linarith

/-- C59: a further ray through the result does not change it. -/
theorem c59_add_through {trySvd : TrySvd ℝ} (hs : SvdContract trySvd) {rays : List (Ray F ℝ)}
    (h0 : ∀ r ∈ rays, r.direction ≠ 0) (hspread : Spread rays) {pt pt' : Points F ℝ 1}
    (hb : bestIntersectionOfRays trySvd rays = .ok pt) {r : Ray F ℝ} (hr : r.direction ≠ 0)
    (hpt : pt.data 0 ∈ line r.center r.direction)
    (hb' : bestIntersectionOfRays trySvd (r :: rays) = .ok pt') : pt'.data 0 = pt.data 0 := by
  have h0' : ∀ r' ∈ r :: rays, r'.direction ≠ 0 := by
    intro r' h
    rcases List.mem_cons.1 h with rfl | h
    · exact hr
    · exact h0 _ h
  have hsp : Spread (r :: rays) := by
    obtain ⟨a, ha, b, hb, hab⟩ := hspread
    exact ⟨a, List.mem_cons_of_mem _ ha, b, List.mem_cons_of_mem _ hb, hab⟩
  by_contra hne
  have h1 := (c31_least_squares hs h0' hsp hb').2 _ (Ne.symm hne)
  rw [cost_cons, cost_cons, distTo_of_mem hpt] at h1
  have h2 := (c31_least_squares hs h0 hspread hb).1 (pt'.data 0)
  have h3 := sq_nonneg (distTo (line r.center r.direction) (pt'.data 0))
  linarith

/-- C59: splitting the rays into two groups with the same result, the union has that result too; in
particular repeating all rays changes nothing. -/
theorem c59_union {trySvd : TrySvd ℝ} (hs : SvdContract trySvd) {rays rays' : List (Ray F ℝ)}
    (h0 : ∀ r ∈ rays, r.direction ≠ 0) (hspread : Spread rays) (h0' : ∀ r ∈ rays', r.direction ≠ 0)
    (hspread' : Spread rays') {pt pt' pt'' : Points F ℝ 1}
    (hb : bestIntersectionOfRays trySvd rays = .ok pt)
    (hb' : bestIntersectionOfRays trySvd rays' = .ok pt') (he : pt.data 0 = pt'.data 0)
    (hb'' : bestIntersectionOfRays trySvd (rays ++ rays') = .ok pt'') :
    pt''.data 0 = pt.data 0 := by
  have h0'' : ∀ r ∈ rays ++ rays', r.direction ≠ 0 := by
    intro r h
    rcases List.mem_append.1 h with h | h
    · exact h0 _ h
    · exact h0' _ h
  have hsp : Spread (rays ++ rays') := by
    obtain ⟨a, ha, b, hb, hab⟩ := hspread
    exact ⟨a, List.mem_append_left _ ha, b, List.mem_append_left _ hb, hab⟩
  have hc : ∀ x, cost (rays ++ rays') x = cost rays x + cost rays' x := by
    intro x; simp [cost]
  by_contra hne
  have h1 := (c31_least_squares hs h0'' hsp hb'').2 _ (Ne.symm hne)
  have h2 := (c31_least_squares hs h0 hspread hb).1 (pt''.data 0)
  have h3 := (c31_least_squares hs h0' hspread' hb').1 (pt''.data 0)
  rw [hc, hc] at h1
  rw [← he] at h3
  linarith

/-- C59: for fixed directions the result is a linear function of the ray centres (no condition on the
directions, any deterministic SVD routine). -/
theorem c59_linear (trySvd : TrySvd ℝ) (l : List (Vec × Vec × Vec)) (s : ℝ)
    {p₁ p₂ : Points F ℝ 1}
    (h₁ : bestIntersectionOfRays trySvd (l.map fun x => (⟨x.2.1, x.1⟩ : Ray F ℝ)) = .ok p₁)
    (h₂ : bestIntersectionOfRays trySvd (l.map fun x => (⟨x.2.2, x.1⟩ : Ray F ℝ)) = .ok p₂) :
    bestIntersectionOfRays trySvd (l.map fun x => (⟨x.2.1 + s • x.2.2, x.1⟩ : Ray F ℝ)) =
      .ok ⟨fun i => p₁.data i + s • p₂.data i⟩ := by
  have hdm : ∀ d c c' : Vec, dm (⟨c, d⟩ : Ray F ℝ) = dm (⟨c', d⟩ : Ray F ℝ) := fun _ _ _ => rfl
  have hS : ∀ f g : Vec × Vec × Vec → Vec, sMat (l.map fun x => (⟨f x, x.1⟩ : Ray F ℝ)) =
      sMat (l.map fun x => (⟨g x, x.1⟩ : Ray F ℝ)) := by
    intro f g; rw [sMat, sMat, List.map_map, List.map_map]; rfl
  have hC : cVec (l.map fun x => (⟨x.2.1 + s • x.2.2, x.1⟩ : Ray F ℝ)) =
      cVec (l.map fun x => (⟨x.2.1, x.1⟩ : Ray F ℝ)) +
        s • cVec (l.map fun x => (⟨x.2.2, x.1⟩ : Ray F ℝ)) := by
    clear h₁ h₂
    induction l with
    | nil => simp [cVec]
    | cons a l ih =>
      have ih := ih (fun f g => by rw [sMat, sMat, List.map_map, List.map_map]; rfl)
      simp only [List.map_cons, cVec_cons]
      rw [ih, mulVec_add, mulVec_smul, smul_add, hdm a.1 (a.2.1 + s • a.2.2) a.2.1,
        hdm a.1 a.2.2 a.2.1]
      abel
  by_cases hl : 2 ≤ l.length
  · rw [best_eq _ _ (by simpa using hl)] at h₁ h₂ ⊢
    rw [hS (fun x => x.2.1 + s • x.2.2) (fun x => x.2.1), hC]
    rw [hS (fun x => x.2.2) (fun x => x.2.1)] at h₂
    cases hp : myPinv trySvd (Matrix.of.symm (sMat (l.map fun x => (⟨x.2.1, x.1⟩ : Ray F ℝ)))) with
    | err e => rw [hp] at h₁; cases h₁
    | panic => rw [hp] at h₁; cases h₁
    | ok p =>
      rw [hp] at h₁ h₂
      simp only [Outcome.bind, Outcome.ok.injEq] at h₁ h₂ ⊢
      rw [← h₁, ← h₂]
      ext1; funext i
      simp only [mulVec_add, mulVec_smul]
  · rw [c30_too_few trySvd _ (by simpa using hl)] at h₁; cases h₁

theorem len_add_le (v w : V3 ℝ) : len (v + w) ≤ len v + len w := by
  have h := cauchy v w
  rw [← len_sq, ← len_sq] at h
  have h1 : v ⬝ᵥ w ≤ len v * len w :=
    le_of_sq_le_sq (by nlinarith) (mul_nonneg (len_nonneg v) (len_nonneg w))
  refine le_of_sq_le_sq ?_ (add_nonneg (len_nonneg v) (len_nonneg w))
  rw [len_sq, dotProduct_add, add_dotProduct, add_dotProduct, dotProduct_comm w v, ← len_sq v,
    ← len_sq w]
  nlinarith

theorem len_neg (v : V3 ℝ) : len (-v) = len v := by
  rw [← neg_one_smul ℝ v, len_smul]; simp

theorem abs_dot_le (v w : V3 ℝ) : |v ⬝ᵥ w| ≤ len v * len w := by
  have h := cauchy v w
  rw [← len_sq, ← len_sq] at h
  exact abs_le_of_sq_le_sq (by nlinarith) (mul_nonneg (len_nonneg v) (len_nonneg w))

/-- The cosine of the angle between two lines, as an absolute value. -/
noncomputable def absCos (d d' : Vec) : ℝ := |d ⬝ᵥ d'| / (len d * len d')

theorem absCos_eq {d d' : Vec} (h : d ≠ 0) (h' : d' ≠ 0) :
    |V3.normalize d ⬝ᵥ V3.normalize d'| = absCos d d' := by
  rw [normalize_eq, normalize_eq, smul_dotProduct, dotProduct_smul, smul_eq_mul, smul_eq_mul,
    abs_mul, abs_mul, abs_of_pos (inv_pos.2 (len_pos.2 h)), abs_of_pos (inv_pos.2 (len_pos.2 h')),
    absCos, div_eq_mul_inv, mul_inv]
  ring

/-- The quadratic form of the normal equations is bounded below by the angle of any two rays. -/
theorem quad_bound {l : List (Ray F ℝ)} {a b : Ray F ℝ} (ha : a ∈ l) (hb : b ∈ l)
    (hna : a.direction ≠ 0) (hnb : b.direction ≠ 0) (hc : absCos a.direction b.direction < 1)
    (w : V3 ℝ) : (1 - absCos a.direction b.direction) * (w ⬝ᵥ w) ≤ -(w ⬝ᵥ (sMat l *ᵥ w)) := by
  have hcos := absCos_eq hna hnb
  have hne : a ≠ b := by
    rintro rfl
    rw [unit_dot hna, abs_one] at hcos
    linarith
  rw [sMat_quad]
  have h1 := sum_le_of_two (l := l) (f := fun r => w ⬝ᵥ (dm r *ᵥ w)) (fun r => dm_quad_nonpos r w)
    ha hb hne
  simp only [dm_quad a, dm_quad b] at h1
  have h2 := two_dirs (w := w) (unit_dot hna) (unit_dot hnb)
  rw [hcos] at h2
  nlinarith

theorem stretch_bound {M : Matrix (Fin 3) (Fin 3) ℝ} {k : ℝ} {w : V3 ℝ}
    (h : k * (w ⬝ᵥ w) ≤ -(w ⬝ᵥ (M *ᵥ w))) : k * len w ≤ len (M *ᵥ w) := by
  by_cases hw : w = 0
  · subst hw
    have : len (0 : V3 ℝ) = 0 := len_eq_zero.2 rfl
    rw [this, mul_zero]; exact len_nonneg _
  · have h1 := abs_dot_le w (M *ᵥ w)
    have h2 := neg_abs_le (w ⬝ᵥ (M *ᵥ w))
    rw [← len_sq] at h
    have h3 := len_pos.2 hw
    have : len w * (k * len w) ≤ len w * len (M *ᵥ w) := by nlinarith
    exact le_of_mul_le_mul_left this h3

theorem len_dm_le (r : Ray F ℝ) (h : r.direction ≠ 0) (w : V3 ℝ) : len (dm r *ᵥ w) ≤ len w := by
  refine le_of_sq_le_sq ?_ (len_nonneg w)
  have h2 := unit_dot h
  rw [len_sq, len_sq, dm_mulVec]
  generalize V3.normalize r.direction = u at h2 ⊢
  simp only [dotProduct_sub, sub_dotProduct, dotProduct_smul, smul_dotProduct, smul_eq_mul, h2,
    dotProduct_comm w u]
  nlinarith [sq_nonneg (u ⬝ᵥ w)]

theorem len_dm_sub_le {r r' : Ray F ℝ} (h : r.direction ≠ 0) (h' : r'.direction ≠ 0) (w : V3 ℝ) :
    len (dm r' *ᵥ w - dm r *ᵥ w) ≤
      2 * distance (V3.normalize r'.direction) (V3.normalize r.direction) * len w := by
  have l1 := len_normalize h
  have l2 := len_normalize h'
  rw [dm_mulVec, dm_mulVec, distance]
  generalize V3.normalize r.direction = u at l1 ⊢
  generalize V3.normalize r'.direction = u' at l2 ⊢
  have e : (u' ⬝ᵥ w) • u' - w - ((u ⬝ᵥ w) • u - w) =
      (u' ⬝ᵥ w) • (u' - u) + ((u' - u) ⬝ᵥ w) • u := by
    rw [smul_sub, sub_dotProduct, sub_smul]; abel
  rw [e]
  have h1 := len_add_le ((u' ⬝ᵥ w) • (u' - u)) (((u' - u) ⬝ᵥ w) • u)
  rw [len_smul, len_smul, l1] at h1
  have h2 := abs_dot_le u' w
  have h3 := abs_dot_le (u' - u) w
  rw [l2] at h2
  have h4 := mul_le_mul_of_nonneg_right h2 (len_nonneg (u' - u))
  linarith

/-- C60: how far the result moves when the rays are disturbed: rays `r` become `r'` for the pairs
`(r, r')` of `l`.  The displacement, times `1 - |cos|` of the angle between any two of the disturbed
rays, is at most the sum of the displacements of the centres and of twice the change of unit direction
times the distance of the centre from the undisturbed result. -/
theorem c60_stability {trySvd : TrySvd ℝ} (hs : SvdContract trySvd) {l : List (Ray F ℝ × Ray F ℝ)}
    (h0 : ∀ x ∈ l, x.1.direction ≠ 0 ∧ x.2.direction ≠ 0) (hspread : Spread (l.map Prod.fst))
    (hspread' : Spread (l.map Prod.snd)) {pt pt' : Points F ℝ 1}
    (hb : bestIntersectionOfRays trySvd (l.map Prod.fst) = .ok pt)
    (hb' : bestIntersectionOfRays trySvd (l.map Prod.snd) = .ok pt') {a b : Ray F ℝ × Ray F ℝ}
    (ha : a ∈ l) (hab : b ∈ l) (hc : absCos a.2.direction b.2.direction < 1) :
    (1 - absCos a.2.direction b.2.direction) * distance (pt'.data 0) (pt.data 0) ≤
      (l.map fun x => distance x.2.center x.1.center +
        2 * distance ((len x.2.direction)⁻¹ • x.2.direction) ((len x.1.direction)⁻¹ • x.1.direction) *
          distance x.1.center (pt.data 0)).sum := by
  have h01 : ∀ r ∈ l.map Prod.fst, r.direction ≠ 0 := by
    intro r hr
    obtain ⟨x, hx, rfl⟩ := List.mem_map.1 hr
    exact (h0 x hx).1
  have h02 : ∀ r ∈ l.map Prod.snd, r.direction ≠ 0 := by
    intro r hr
    obtain ⟨x, hx, rfl⟩ := List.mem_map.1 hr
    exact (h0 x hx).2
  have e1 := (leastSquares_iff h01 _).1 (c31_least_squares hs h01 hspread hb).1
  have e2 := (leastSquares_iff h02 _).1 (c31_least_squares hs h02 hspread' hb').1
  set x := pt.data 0
  set x' := pt'.data 0
  have e3 : sMat (l.map Prod.snd) *ᵥ (x' - x) =
      (cVec (l.map Prod.snd) - sMat (l.map Prod.snd) *ᵥ x) -
        (cVec (l.map Prod.fst) - sMat (l.map Prod.fst) *ᵥ x) := by
    rw [e1, sub_self, sub_zero, mulVec_sub, e2]
  have e4 : ∀ l : List (Ray F ℝ × Ray F ℝ),
      (∀ x ∈ l, x.1.direction ≠ 0 ∧ x.2.direction ≠ 0) →
      len ((cVec (l.map Prod.snd) - sMat (l.map Prod.snd) *ᵥ x) -
        (cVec (l.map Prod.fst) - sMat (l.map Prod.fst) *ᵥ x)) ≤
      (l.map fun y => distance y.2.center y.1.center +
        2 * distance ((len y.2.direction)⁻¹ • y.2.direction) ((len y.1.direction)⁻¹ • y.1.direction) *
          distance y.1.center x).sum := by
    intro l
    induction l with
    | nil =>
      intro _
      simp [cVec, sMat, len_eq]
    | cons y l ih =>
      intro h
      have ih := ih fun z hz => h z (List.mem_cons_of_mem _ hz)
      obtain ⟨hy1, hy2⟩ := h y (List.mem_cons_self ..)
      simp only [List.map_cons, List.sum_cons, cVec_cons, sMat_cons, add_mulVec]
      have e5 : dm y.2 *ᵥ y.2.center + cVec (l.map Prod.snd) -
            (dm y.2 *ᵥ x + sMat (l.map Prod.snd) *ᵥ x) -
          (dm y.1 *ᵥ y.1.center + cVec (l.map Prod.fst) -
            (dm y.1 *ᵥ x + sMat (l.map Prod.fst) *ᵥ x)) =
          (dm y.2 *ᵥ (y.2.center - y.1.center) +
            (dm y.2 *ᵥ (y.1.center - x) - dm y.1 *ᵥ (y.1.center - x))) +
          ((cVec (l.map Prod.snd) - sMat (l.map Prod.snd) *ᵥ x) -
            (cVec (l.map Prod.fst) - sMat (l.map Prod.fst) *ᵥ x)) := by
        simp only [mulVec_sub]; abel
      rw [e5]
      refine (len_add_le _ _).trans (add_le_add ((len_add_le _ _).trans (add_le_add ?_ ?_)) ih)
      · exact len_dm_le _ hy2 _
      · rw [← normalize_eq, ← normalize_eq]
        exact len_dm_sub_le hy1 hy2 _
  have h1 := stretch_bound (quad_bound (List.mem_map.2 ⟨a, ha, rfl⟩) (List.mem_map.2 ⟨b, hab, rfl⟩)
    (h0 a ha).2 (h0 b hab).2 hc (x' - x))
  rw [e3] at h1
  exact h1.trans (e4 l h0)

/-- An inexact singular value decomposition: `U` and `Vᵀ` orthogonal, `σ` nonnegative, and
`U diag(σ) Vᵀ` within `η` of the given matrix. -/
def SvdContractApprox (η : ℝ) (trySvd : TrySvd ℝ) : Prop :=
  ∀ (M : Mat 3 3 ℝ) (eps : ℝ) (k : ℕ) (d : SVD ℝ), trySvd M true true eps k = some d →
    ∃ U Vt : Mat 3 3 ℝ, d.u = some U ∧ d.vT = some Vt ∧
      (Matrix.of U).transpose * Matrix.of U = 1 ∧ Matrix.of Vt * (Matrix.of Vt).transpose = 1 ∧
      (∀ i, 0 ≤ d.singularValues i) ∧
      ∀ w : Vec, len ((Matrix.of U * Matrix.diagonal d.singularValues * Matrix.of Vt) *ᵥ w -
        Matrix.of M *ᵥ w) ≤ η * len w

/-- The exact contract is the case `η = 0`. -/
theorem svdContractApprox_zero (trySvd : TrySvd ℝ) :
    SvdContractApprox 0 trySvd ↔ SvdContract trySvd := by
  refine forall_congr' fun M => forall_congr' fun eps => forall_congr' fun k =>
    forall_congr' fun d => forall_congr' fun _ => exists_congr fun U => exists_congr fun Vt => ?_
  refine and_congr_right fun _ => and_congr_right fun _ => and_congr_right fun _ =>
    and_congr_right fun _ => and_congr_right fun _ => ?_
  constructor
  · intro h
    apply Matrix.ext_of_mulVec_single
    intro i
    have := h (Pi.single i 1)
    rw [zero_mul] at this
    exact sub_eq_zero.1 (len_eq_zero.1 (le_antisymm this (len_nonneg _)))
  · intro h w
    rw [h, sub_self, zero_mul]
    exact (len_eq_zero.2 rfl).le

/-- `my_pinv` depends on the decomposition only: it returns what it would return for the matrix the
decomposition really belongs to. -/
theorem myPinv_approx {η : ℝ} {trySvd : TrySvd ℝ} (hs : SvdContractApprox η trySvd) {M p : Mat 3 3 ℝ}
    (hp : myPinv trySvd M = .ok p) :
    ∃ M' : Matrix (Fin 3) (Fin 3) ℝ, (∀ w : Vec, len (M' *ᵥ w - Matrix.of M *ᵥ w) ≤ η * len w) ∧
      ∃ P, Matrix.of p * M' = P ∧ Keep cutoff M' P := by
  have hlit : (Scalar.lit (1 / 10000000) : ℝ) = cutoff := by rw [lit_real]; norm_num [cutoff]
  cases hd : trySvd M true true cutoff 100 with
  | none => rw [myPinv, hlit, hd] at hp; simp [Outcome.okOr, bind, Outcome.bind] at hp
  | some d =>
    obtain ⟨U, V, hu, hv, hU, hV, h0, hM⟩ := hs M cutoff 100 d hd
    refine ⟨_, hM, ?_⟩
    set M' := Matrix.of U * Matrix.diagonal d.singularValues * Matrix.of V with hM'
    let svd' : TrySvd ℝ := fun N _ _ _ _ => if N = Matrix.of.symm M' then some d else none
    have hs' : SvdContract svd' := by
      intro N eps k d' hd'
      simp only [svd'] at hd'
      split at hd'
      · injection hd' with hd'
        subst hd'
        rename_i hN
        exact ⟨U, V, hu, hv, hU, hV, h0, by rw [hN]; rfl⟩
      · cases hd'
    have hp' : myPinv svd' (Matrix.of.symm M') = .ok p := by
      unfold myPinv at hp ⊢
      rw [hlit] at hp ⊢
      rw [hd] at hp
      rw [show svd' (Matrix.of.symm M') true true cutoff 100 = some d from if_pos rfl]
      exact hp
    obtain ⟨P, h1, h2⟩ := myPinv_spec hs' hp'
    exact ⟨P, h1, h2⟩

/-- C61: with an inexact SVD the result is still close to the least-squares point `x`: the relative
error is at most `η / (1 - |cos| - η)`, for the angle between any two of the rays, if that angle is not
too small. -/
theorem c61_inexact_svd {η : ℝ} {trySvd : TrySvd ℝ} (hs : SvdContractApprox η trySvd)
    {rays : List (Ray F ℝ)} (h0 : ∀ r ∈ rays, r.direction ≠ 0) {a b : Ray F ℝ} (ha : a ∈ rays)
    (hb : b ∈ rays) (hc : 1 / 10000000 < 1 - absCos a.direction b.direction - η) (hη : 0 ≤ η) {x : Vec}
    (hx : LeastSquares rays x) {pt : Points F ℝ 1}
    (h : bestIntersectionOfRays trySvd rays = .ok pt) :
    distance (pt.data 0) x ≤ η / (1 - absCos a.direction b.direction - η) * len x := by
  have hlen : 2 ≤ rays.length := by
    by_contra hl
    rw [c30_too_few _ _ (by omega)] at h
    cases h
  have hcos : absCos a.direction b.direction < 1 := by
    have : (0 : ℝ) < 1 / 10000000 := by norm_num
    linarith
  have hn := (leastSquares_iff h0 x).1 hx
  rw [best_eq _ _ hlen] at h
  cases hp : myPinv trySvd (Matrix.of.symm (sMat rays)) with
  | err e => rw [hp] at h; cases h
  | panic => rw [hp] at h; cases h
  | ok p =>
    rw [hp] at h
    simp only [Outcome.bind, Outcome.ok.injEq] at h
    obtain ⟨M', hM', P, hP, hk⟩ := myPinv_approx hs hp
    have hM'' : ∀ w : Vec, len (M' *ᵥ w - sMat rays *ᵥ w) ≤ η * len w := hM'
    -- `M'` stretches every vector
    have hst : ∀ w : Vec, (1 - absCos a.direction b.direction - η) * len w ≤ len (M' *ᵥ w) := by
      intro w
      have h1 := stretch_bound (quad_bound ha hb (h0 a ha) (h0 b hb) hcos w)
      have h2 := len_add_le (M' *ᵥ w) (-(M' *ᵥ w - sMat rays *ᵥ w))
      rw [len_neg, neg_sub, add_sub_cancel] at h2
      have := hM'' w
      linarith
    have hk1 := hk.eq_one (fun w hw => by
      have h1 := hst w
      have h2 := len_pos.2 hw
      rw [← len_sq, ← len_sq, ← mul_pow]
      refine pow_lt_pow_left₀ ?_ (mul_nonneg cutoff_pos.le h2.le) two_ne_zero
      refine lt_of_lt_of_le (mul_lt_mul_of_pos_right ?_ h2) h1
      rw [cutoff]; exact hc)
    have hd : pt.data 0 = x - (Matrix.of p) *ᵥ (M' *ᵥ x - sMat rays *ᵥ x) := by
      have e1 : Matrix.of p *ᵥ (M' *ᵥ x) = x := by rw [mulVec_mulVec, hP]; exact hk1 x
      rw [mulVec_sub, e1, sub_sub_cancel, hn, ← h]
    have hpos : 0 < 1 - absCos a.direction b.direction - η :=
      lt_trans (by norm_num) hc
    -- `p` is the inverse of `M'`
    have hpM : Matrix.of p * M' = 1 := by
      rw [hP]; apply Matrix.ext_of_mulVec_single; intro i; rw [one_mulVec]; exact hk1 _
    have hMp : M' * Matrix.of p = 1 := mul_eq_one_comm.1 hpM
    rw [distance, hd, sub_sub_cancel_left, len_neg, div_mul_eq_mul_div, le_div_iff₀ hpos, mul_comm]
    refine (hst _).trans ?_
    rw [mulVec_mulVec, hMp, one_mulVec]
    exact hM'' x

theorem exSvd_approx {η : ℝ} (hη : 0 ≤ η) : SvdContractApprox η exSvd := by
  intro M eps k d hd
  obtain ⟨U, V, h1, h2, h3, h4, h5, h6⟩ := (svdContractApprox_zero exSvd).2 exSvd_contract M eps k d hd
  exact ⟨U, V, h1, h2, h3, h4, h5, fun w => (h6 w).trans
    (by rw [zero_mul]; exact mul_nonneg hη (len_nonneg w))⟩

/-- A decomposition that is really inexact. -/
example {η : ℝ} (hη : 0 ≤ η) : SvdContractApprox η fun M a b eps k =>
    exSvd (fun i j => M i j + if i = j then η else 0) a b eps k := by
  intro M eps k d hd
  obtain ⟨U, V, h1, h2, h3, h4, h5, h6⟩ := exSvd_contract _ eps k d hd
  refine ⟨U, V, h1, h2, h3, h4, h5, fun w => ?_⟩
  have e : Matrix.of (fun i j => M i j + if i = j then η else 0) =
      Matrix.of M + η • (1 : Matrix (Fin 3) (Fin 3) ℝ) := by
    ext i j; simp [Matrix.one_apply]
  rw [h6, e, add_mulVec, smul_mulVec, one_mulVec, add_sub_cancel_left, len_smul, abs_of_nonneg hη]

/-- Non-vacuity: perpendicular skew rays. -/
example : Spread (F := WorldFrame) [⟨![0, 0, 0], ![2, 0, 0]⟩, ⟨![0, 0, 1], ![0, 3, 0]⟩] ∧
    absCos ![2, 0, 0] ![0, 3, 0] = 0 ∧
    ∃ pt, bestIntersectionOfRays exSvd ([⟨![0, 0, 0], ![2, 0, 0]⟩, ⟨![0, 0, 1], ![0, 3, 0]⟩] :
      List (Ray WorldFrame ℝ)) = .ok pt := by
  refine ⟨⟨⟨![0, 0, 0], ![2, 0, 0]⟩, by simp, ⟨![0, 0, 1], ![0, 3, 0]⟩, by simp, ?_⟩, ?_,
    exSvd_ok _ (by simp)⟩
  · have h1 : 0 < len ![(2 : ℝ), 0, 0] := len_pos.2 fun h => by simpa using congrFun h 0
    have h2 : 0 < len ![(0 : ℝ), 3, 0] := len_pos.2 fun h => by simpa using congrFun h 1
    have h3 := mul_pos h1 h2
    simp only [dotProduct, Fin.sum_univ_three, Matrix.cons_val]
    norm_num
    exact h3
  · simp [absCos, dotProduct, Fin.sum_univ_three]

end CamGeom
