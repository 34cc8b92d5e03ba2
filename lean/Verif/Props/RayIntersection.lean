import Verif.Lemmas.LeastSquares
import Verif.Lemmas.SvdWitness
import Verif.Props.CameraRays

/-!
# C30–C38: `best_intersection_of_rays`

`hs : SvdContract trySvd` is the contract of nalgebra's SVD; it is satisfied by `exSvd`
(`exSvd_contract`), which always converges.
-/

namespace CamGeom
open Spec Matrix

section protocol
variable {R F : Type} [Scalar R] [Scalar F] [F64Conv R F] {Coords : Type}

/-- C30: fewer than two rays. -/
theorem c30_too_few (trySvd : TrySvd F) (rays : List (Ray Coords R)) (h : rays.length < 2) :
    bestIntersectionOfRays trySvd rays = .err .minimumTwoRaysNeeded := by
  rw [bestIntersectionOfRays, if_pos h]

omit [Scalar R] in
theorem sumAsF64_ok (hc : ∀ x : R, (F64Conv.toF64 x : Option F).isSome) {n : ℕ} (x : Fin n → R) :
    ∃ s : F, sumAsF64 x = .ok s := by
  have h : ∀ l : List R, ∃ l', l.mapM (F64Conv.toF64 (R := R) (F := F)) = some l' := by
    intro l
    induction l with
    | nil => exact ⟨[], rfl⟩
    | cons a l ih =>
      obtain ⟨l', hl⟩ := ih
      obtain ⟨b, hb⟩ := Option.isSome_iff_exists.1 (hc a)
      exact ⟨b :: l', by simp [List.mapM_cons, hl, hb]⟩
  obtain ⟨l', hl⟩ := h (List.ofFn x)
  unfold sumAsF64
  rw [hl]
  exact ⟨_, rfl⟩

/-- C30: two or more rays.  One 3x3 matrix, depending on the rays only, is handed to the SVD, whose
convergence decides between `Err(SvdFailed)` and `Ok`. -/
theorem c30_two_or_more (hc : ∀ x : R, (F64Conv.toF64 x : Option F).isSome)
    (heps : Scalar.lt (Scalar.lit (1 / 10000000) : F) 0 = false)
    (rays : List (Ray Coords R)) (h : 2 ≤ rays.length) :
    ∃ S : Mat 3 3 F, ∀ trySvd : TrySvd F,
      (∀ M eps k d, trySvd M true true eps k = some d → d.u.isSome ∧ d.vT.isSome) →
      (bestIntersectionOfRays trySvd rays = .err .svdFailed ↔
        trySvd S true true (Scalar.lit (1 / 10000000)) 100 = none) ∧
      ((∃ pt, bestIntersectionOfRays trySvd rays = .ok pt) ↔
        ∃ d, trySvd S true true (Scalar.lit (1 / 10000000)) 100 = some d) := by
  obtain ⟨g, hg⟩ : ∃ g : (Fin rays.length → R) → F, ∀ x, sumAsF64 x = .ok (g x) :=
    Classical.axiomOfChoice fun x => sumAsF64_ok hc x
  have hlt : ¬ rays.length < 2 := by omega
  have hbind : ∀ {α β : Type} (a : α) (f : α → Outcome β), Outcome.bind (.ok a) f = f a :=
    fun _ _ => rfl
  have key : ∀ (trySvd : TrySvd F)
      (_ : ∀ M eps k d, trySvd M true true eps k = some d → d.u.isSome ∧ d.vT.isSome)
      (S : Mat 3 3 F) (k : Mat 3 3 F → Outcome (Points Coords R 1)),
      (∀ a, ∃ pt, k a = .ok pt) →
        (Outcome.bind (myPinv trySvd S) k = .err .svdFailed ↔
          trySvd S true true (Scalar.lit (1 / 10000000)) 100 = none) ∧
        ((∃ pt, Outcome.bind (myPinv trySvd S) k = .ok pt) ↔
          ∃ d, trySvd S true true (Scalar.lit (1 / 10000000)) 100 = some d) := by
    intro trySvd hsvd S k hk
    cases hS : trySvd S true true (Scalar.lit (1 / 10000000)) 100 with
    | none => simp [-one_div, myPinv, hS, Outcome.okOr, bind, Outcome.bind]
    | some d =>
      obtain ⟨hu, hv⟩ := hsvd _ _ _ _ hS
      obtain ⟨u, hu⟩ := Option.isSome_iff_exists.1 hu
      obtain ⟨v, hv⟩ := Option.isSome_iff_exists.1 hv
      have hp : ∃ p, myPinv trySvd S = .ok p := by
        simp [-one_div, myPinv, hS, Outcome.okOr, bind, Outcome.bind, SVD.pseudoInverse, heps,
          SVD.recompose, hu, hv, Except.bind, Outcome.unwrapResult, pure, Except.pure]
      obtain ⟨p, hp⟩ := hp
      obtain ⟨pt, hpt⟩ := hk p
      have e : Outcome.bind (myPinv trySvd S) k = .ok pt := by rw [hp]; exact hpt
      rw [e]
      exact ⟨⟨nofun, nofun⟩, ⟨fun _ => ⟨d, rfl⟩, fun _ => ⟨pt, rfl⟩⟩⟩
  simp only [bestIntersectionOfRays, if_neg hlt, bind, hg, hbind]
  exact ⟨_, fun trySvd hsvd => key trySvd hsvd _ _ fun a => ⟨_, rfl⟩⟩

/-- C30: either one point or one of the two documented errors. -/
theorem c30_outcomes (hc : ∀ x : R, (F64Conv.toF64 x : Option F).isSome)
    (heps : Scalar.lt (Scalar.lit (1 / 10000000) : F) 0 = false) (trySvd : TrySvd F)
    (hsvd : ∀ M eps k d, trySvd M true true eps k = some d → d.u.isSome ∧ d.vT.isSome)
    (rays : List (Ray Coords R)) (h : 2 ≤ rays.length) :
    (∃ pt, bestIntersectionOfRays trySvd rays = .ok pt) ∨
      bestIntersectionOfRays trySvd rays = .err .svdFailed := by
  obtain ⟨S, hS⟩ := c30_two_or_more hc heps rays h
  obtain ⟨h1, h2⟩ := hS trySvd hsvd
  cases hd : trySvd S true true (Scalar.lit (1 / 10000000)) 100 with
  | none => exact .inr (h1.2 hd)
  | some d => exact .inl (h2.2 ⟨d, hd⟩)

/-- C30: never a panic. -/
theorem c30_no_panic (hc : ∀ x : R, (F64Conv.toF64 x : Option F).isSome)
    (heps : Scalar.lt (Scalar.lit (1 / 10000000) : F) 0 = false) (trySvd : TrySvd F)
    (hsvd : ∀ M eps k d, trySvd M true true eps k = some d → d.u.isSome ∧ d.vT.isSome)
    (rays : List (Ray Coords R)) : bestIntersectionOfRays trySvd rays ≠ .panic := by
  by_cases h : rays.length < 2
  · rw [c30_too_few _ _ h]; nofun
  · obtain ⟨pt, h⟩ | h := c30_outcomes hc heps trySvd hsvd rays (by omega) <;> rw [h] <;> nofun

end protocol

variable {F : Type}

/-- With a converging SVD the exact function returns `Ok` for two or more rays. -/
theorem exSvd_ok (rays : List (Ray F ℝ)) (h : 2 ≤ rays.length) :
    ∃ pt, bestIntersectionOfRays exSvd rays = .ok pt := by
  obtain ⟨S, hS⟩ := c30_two_or_more (R := ℝ) (F := ℝ) (fun x => rfl)
    (by rw [lt_real, decide_eq_false_iff_not]; simp) rays h
  exact (hS exSvd (by
      intro M eps k d hd
      obtain ⟨U, V, hu, hv, -⟩ := exSvd_contract M eps k d hd
      rw [hu, hv]; exact ⟨rfl, rfl⟩)).2.2 ⟨_, rfl⟩

/-- C31: the result is the unique least-squares point. -/
theorem c31_least_squares {trySvd : TrySvd ℝ} (hs : SvdContract trySvd) {rays : List (Ray F ℝ)}
    (h0 : ∀ r ∈ rays, r.direction ≠ 0) (hspread : Spread rays) {pt : Points F ℝ 1}
    (hb : bestIntersectionOfRays trySvd rays = .ok pt) :
    LeastSquares rays (pt.data 0) ∧ ∀ y, y ≠ pt.data 0 → cost rays (pt.data 0) < cost rays y := by
  have hu := spread_det h0 hspread
  obtain ⟨x, hx⟩ := (Matrix.mulVec_surjective_iff_isUnit.2 hu) (cVec rays)
  obtain ⟨-, P, hP, hpt⟩ := best_ok hs hb hx
  rw [hP.eq_one fun w hw => stretch_of_quad cutoff_pos.le hw (spread_quad h0 hspread hw)] at hpt
  rw [hpt]
  refine ⟨(leastSquares_iff h0 x).2 hx, fun y hy => ?_⟩
  have h1 := cost_add h0 x (y - x)
  rw [hx, sub_self, dotProduct_zero, add_sub_cancel] at h1
  have hne : y - x ≠ 0 := sub_ne_zero.2 hy
  have h2 := spread_quad h0 hspread hne
  have h3 := mul_pos cutoff_pos (dot_self_pos hne)
  linarith

theorem distTo_nonneg (s : Set Vec) (x : Vec) : 0 ≤ distTo s x :=
  Real.sInf_nonneg (by rintro _ ⟨y, -, rfl⟩; exact len_nonneg _)

theorem distTo_of_mem {s : Set Vec} {x : Vec} (h : x ∈ s) : distTo s x = 0 := by
  apply le_antisymm _ (distTo_nonneg s x)
  have hb : BddBelow (distance x '' s) := ⟨0, by rintro _ ⟨y, -, rfl⟩; exact len_nonneg _⟩
  have h1 : distance x x ∈ distance x '' s := ⟨x, h, rfl⟩
  have h2 : distance x x = 0 := by rw [distance, sub_self]; exact len_eq_zero.2 rfl
  rw [← h2]
  exact csInf_le hb h1

theorem cost_nonneg (rays : List (Ray F ℝ)) (x : Vec) : 0 ≤ cost rays x := by
  apply List.sum_nonneg
  intro y hy
  obtain ⟨r, -, rfl⟩ := List.mem_map.1 hy
  exact sq_nonneg _

theorem cost_eq_zero {rays : List (Ray F ℝ)} {x : Vec}
    (h : ∀ r ∈ rays, x ∈ line r.center r.direction) : cost rays x = 0 := by
  apply List.sum_eq_zero
  intro y hy
  obtain ⟨r, hr, rfl⟩ := List.mem_map.1 hy
  rw [distTo_of_mem (h r hr)]; norm_num

/-- C32: rays through a common point. -/
theorem c32_common_point {trySvd : TrySvd ℝ} (hs : SvdContract trySvd) {rays : List (Ray F ℝ)}
    (h0 : ∀ r ∈ rays, r.direction ≠ 0) (hspread : Spread rays) {x : Vec}
    (hx : ∀ r ∈ rays, x ∈ line r.center r.direction) {pt : Points F ℝ 1}
    (hb : bestIntersectionOfRays trySvd rays = .ok pt) : pt.data 0 = x := by
  by_contra hne
  have h1 := (c31_least_squares hs h0 hspread hb).2 x (Ne.symm hne)
  rw [cost_eq_zero hx] at h1
  exact absurd (cost_nonneg rays (pt.data 0)) (not_le.2 h1)

/-- C33: the order of the rays is irrelevant, error results included. -/
theorem c33_order (trySvd : TrySvd ℝ) {rays rays' : List (Ray F ℝ)} (h : rays.Perm rays') :
    bestIntersectionOfRays trySvd rays = bestIntersectionOfRays trySvd rays' := by
  by_cases hl : 2 ≤ rays.length
  · rw [best_eq _ _ hl, best_eq _ _ (h.length_eq ▸ hl)]
    rw [show sMat rays = sMat rays' from (h.map _).sum_eq,
      show cVec rays = cVec rays' from (h.map _).sum_eq]
  · rw [c30_too_few _ _ (by omega), c30_too_few _ _ (by rw [← h.length_eq]; omega)]

/-- Two rays on the same line. -/
def SameLine (r r' : Ray F ℝ) : Prop :=
  r.direction ≠ 0 ∧ r'.direction ≠ 0 ∧ line r.center r.direction = line r'.center r'.direction

theorem sameLine_params {r r' : Ray F ℝ} (h : SameLine r r') :
    ∃ k t : ℝ, k ≠ 0 ∧ r'.direction = k • r.direction ∧ r'.center = r.center + t • r.direction := by
  obtain ⟨h0, h0', hl⟩ := h
  have h1 : r'.center ∈ line r.center r.direction := by rw [hl]; exact ⟨0, by simp⟩
  have h2 : r'.center + r'.direction ∈ line r.center r.direction := by
    rw [hl]; exact ⟨1, by simp⟩
  obtain ⟨t, ht⟩ := h1
  obtain ⟨s, hs⟩ := h2
  have hk : r'.direction = (s - t) • r.direction := by
    rw [ht, add_assoc, add_right_inj] at hs
    rw [sub_smul, ← hs, add_sub_cancel_left]
  refine ⟨s - t, t, ?_, hk, ht⟩
  intro h
  rw [h, zero_smul] at hk
  exact h0' hk

theorem dm_sameLine {r r' : Ray F ℝ} (h : SameLine r r') :
    dm r' = dm r ∧ dm r' *ᵥ r'.center = dm r *ᵥ r.center := by
  obtain ⟨k, t, hk, hd, hc⟩ := sameLine_params h
  have hl := len_pos.2 h.1
  have hn : V3.normalize r'.direction = (k / |k|) • V3.normalize r.direction := by
    rw [normalize_eq, normalize_eq, hd, len_smul, smul_smul, smul_smul]
    congr 1
    have := abs_pos.2 hk
    field_simp
  have hk2 : k / |k| * (k / |k|) = 1 := by
    rw [div_mul_div_comm, abs_mul_abs_self, div_self (mul_self_ne_zero.2 hk)]
  have hdm : dm r' = dm r := by
    rw [dm, dm, hn, smul_vecMulVec, vecMulVec_smul, smul_smul, hk2, one_smul]
  refine ⟨hdm, ?_⟩
  rw [hdm, hc, mulVec_add, mulVec_smul]
  have hz : dm r *ᵥ r.direction = 0 := by
    have e : r.direction = len r.direction • V3.normalize r.direction := by
      rw [normalize_eq, smul_smul, mul_inv_cancel₀ hl.ne', one_smul]
    have h2 := unit_dot h.1
    rw [dm_mulVec]
    generalize V3.normalize r.direction = u at e h2 ⊢
    rw [e, dotProduct_smul, h2, smul_eq_mul, mul_one, sub_self]
  rw [hz, smul_zero, add_zero]

/-- C34: the result depends only on the lines, error results included. -/
theorem c34_lines_only (trySvd : TrySvd ℝ) {rays rays' : List (Ray F ℝ)}
    (h : List.Forall₂ SameLine rays rays') :
    bestIntersectionOfRays trySvd rays' = bestIntersectionOfRays trySvd rays := by
  have hS : sMat rays' = sMat rays ∧ cVec rays' = cVec rays := by
    induction h with
    | nil => exact ⟨rfl, rfl⟩
    | cons hr _ ih =>
      obtain ⟨h1, h2⟩ := dm_sameLine hr
      rw [sMat_cons, sMat_cons, cVec_cons, cVec_cons, h1, ih.1, ih.2, ← h1, h2, h1]
      exact ⟨rfl, rfl⟩
  have hlen := h.length_eq
  by_cases hl : 2 ≤ rays.length
  · rw [best_eq _ _ hl, best_eq _ _ (hlen ▸ hl), hS.1, hS.2]
  · rw [c30_too_few trySvd rays (by omega), c30_too_few _ _ (by rw [← hlen]; omega)]

/-- Non-vacuity of `SameLine`: reversed direction and another origin, e.g. one behind which the
result lies. -/
example : SameLine (F := WorldFrame) ⟨![0, 0, 0], ![1, 2, 3]⟩ ⟨![2, 4, 6], ![-3, -6, -9]⟩ := by
  refine ⟨fun h => by simpa using congrFun h 0, fun h => by simpa using congrFun h 0, ?_⟩
  ext y
  constructor
  · rintro ⟨t, rfl⟩
    refine ⟨(2 - t) / 3, ?_⟩
    funext i; fin_cases i <;> simp <;> ring
  · rintro ⟨t, rfl⟩
    refine ⟨2 - 3 * t, ?_⟩
    funext i; fin_cases i <;> simp <;> ring

/-- A ray moved by the rigid motion `x ↦ M x + t`. -/
def moveRay (M : Matrix (Fin 3) (Fin 3) ℝ) (t : Vec) (r : Ray F ℝ) : Ray F ℝ :=
  ⟨M *ᵥ r.center + t, M *ᵥ r.direction⟩

theorem len_orth {M : Matrix (Fin 3) (Fin 3) ℝ} (hM : M.transpose * M = 1) (v : Vec) :
    len (M *ᵥ v) = len v := by
  rw [len_eq, len_eq, orth_dot hM]

theorem cost_move {M : Matrix (Fin 3) (Fin 3) ℝ} (hM : M.transpose * M = 1) (t : Vec)
    (rays : List (Ray F ℝ)) (x : Vec) : cost (rays.map (moveRay M t)) (M *ᵥ x + t) = cost rays x := by
  unfold cost
  rw [List.map_map]
  congr 1
  apply List.map_congr_left
  intro r _
  simp only [Function.comp, moveRay, distTo]
  congr 2
  ext v
  constructor
  · rintro ⟨_, ⟨s, rfl⟩, rfl⟩
    refine ⟨r.center + s • r.direction, ⟨s, rfl⟩, ?_⟩
    rw [distance, distance, ← len_orth hM, mulVec_sub, mulVec_add, mulVec_smul]
    congr 1; abel
  · rintro ⟨_, ⟨s, rfl⟩, rfl⟩
    refine ⟨M *ᵥ r.center + t + s • (M *ᵥ r.direction), ⟨s, rfl⟩, ?_⟩
    rw [distance, distance, ← len_orth hM (x - _), mulVec_sub, mulVec_add, mulVec_smul]
    congr 1; abel

/-- C35: commutes with rigid motions (rotations, and reflections too). -/
theorem c35_rigid {trySvd : TrySvd ℝ} (hs : SvdContract trySvd) {rays : List (Ray F ℝ)}
    (h0 : ∀ r ∈ rays, r.direction ≠ 0) (hspread : Spread rays)
    {M : Matrix (Fin 3) (Fin 3) ℝ} (hM : M.transpose * M = 1) (t : Vec) {pt pt' : Points F ℝ 1}
    (hb : bestIntersectionOfRays trySvd rays = .ok pt)
    (hb' : bestIntersectionOfRays trySvd (rays.map (moveRay M t)) = .ok pt') :
    pt'.data 0 = M *ᵥ pt.data 0 + t := by
  have h0' : ∀ r ∈ rays.map (moveRay M t), r.direction ≠ 0 := by
    intro r hr
    obtain ⟨a, ha, rfl⟩ := List.mem_map.1 hr
    intro hz
    apply h0 a ha
    rw [← len_eq_zero, ← len_orth hM, len_eq_zero]
    exact hz
  have hsp : Spread (rays.map (moveRay M t)) := by
    obtain ⟨a, ha, b, hb, hab⟩ := hspread
    refine ⟨_, List.mem_map.2 ⟨a, ha, rfl⟩, _, List.mem_map.2 ⟨b, hb, rfl⟩, ?_⟩
    simpa only [moveRay, len_orth hM, orth_dot hM] using hab
  by_contra hne
  have h1 := (c31_least_squares hs h0' hsp hb').2 _ (Ne.symm hne)
  rw [cost_move hM] at h1
  have hMM : M * M.transpose = 1 := mul_eq_one_comm.1 hM
  have h2 := (c31_least_squares hs h0 hspread hb).1 (M.transpose *ᵥ (pt'.data 0 - t))
  rw [← cost_move hM t rays (M.transpose *ᵥ _), mulVec_mulVec, hMM, one_mulVec, sub_add_cancel] at h2
  linarith

/-- Least-squares points exist for every list of rays. -/
theorem leastSquares_exists {rays : List (Ray F ℝ)} (h0 : ∀ r ∈ rays, r.direction ≠ 0) :
    ∃ x, LeastSquares rays x := by
  -- pseudo-inverse with an arbitrarily small cut-off: solve on the complement of the kernel
  obtain ⟨U, V, σ, hU, hV, hσ, hM⟩ := exists_svd (sMat rays)
  have hk := keep_of_svd le_rfl hU hV hσ hM
  set P := V.transpose * diagonal (fun i => if 0 < σ i then (1 : ℝ) else 0) * V with hP
  have hV' : V.transpose * V = 1 := mul_eq_one_comm.1 hV
  let p := V.transpose * diagonal (fun i => (σ i)⁻¹) * U.transpose
  -- `cVec` is orthogonal to the kernel of `sMat`
  have hker : ∀ w, sMat rays *ᵥ w = 0 → w ⬝ᵥ cVec rays = 0 := by
    intro w hw
    have hq : ∀ r ∈ rays, dm r *ᵥ w = 0 := by
      have hsum : (rays.map fun r => w ⬝ᵥ (dm r *ᵥ w)).sum = 0 := by
        rw [← sMat_quad, hw, dotProduct_zero]
      have hall : ∀ r ∈ rays, w ⬝ᵥ (dm r *ᵥ w) = 0 := by
        clear hk h0 hw hM
        induction rays with
        | nil => simp
        | cons a l ih =>
          rw [List.map_cons, List.sum_cons] at hsum
          have h1 := dm_quad_nonpos a w
          have h2 := list_sum_nonpos l (f := fun r => w ⬝ᵥ (dm r *ᵥ w)) fun r => dm_quad_nonpos r w
          intro r hr
          rcases List.mem_cons.1 hr with h | h
          · subst h; linarith
          · exact ih (by linarith) r h
      intro r hr
      have h1 := hall r hr
      rw [dm_quad, sub_eq_zero] at h1
      have h2 := unit_dot (h0 r hr)
      rw [← dotProduct_self_eq_zero, dm_mulVec]
      simp only [dotProduct_sub, sub_dotProduct, dotProduct_smul, smul_dotProduct, smul_eq_mul, h2,
        dotProduct_comm w (V3.normalize r.direction)]
      nlinarith
    have hind : ∀ l : List (Ray F ℝ), (∀ r ∈ l, dm r *ᵥ w = 0) → w ⬝ᵥ cVec l = 0 := by
      intro l
      induction l with
      | nil => intro _; simp [cVec]
      | cons a l ih =>
        intro h
        rw [cVec_cons, dotProduct_add, ih fun r hr => h r (List.mem_cons_of_mem _ hr), add_zero,
          dotProduct_comm, mulVec_dot, dm_transpose, h a (List.mem_cons_self ..), dotProduct_zero]
    exact hind rays hq
  -- the residual of the pseudo-inverse solution is in the kernel of the (symmetric) matrix
  refine ⟨p *ᵥ cVec rays, (leastSquares_iff h0 _).2 ?_⟩
  set c := cVec rays
  have hres : (sMat rays).transpose *ᵥ (c - sMat rays *ᵥ (p *ᵥ c)) = 0 := by
    have h1 : (sMat rays).transpose * (sMat rays * p) = (sMat rays).transpose := by
      rw [← hM]
      simp only [transpose_mul, diagonal_transpose, p]
      calc V.transpose * (diagonal σ * U.transpose) *
            (U * diagonal σ * V * (V.transpose * diagonal (fun i => (σ i)⁻¹) * U.transpose))
          = V.transpose * (diagonal σ * (U.transpose * U) * diagonal σ * (V * V.transpose) *
              diagonal (fun i => (σ i)⁻¹)) * U.transpose := by simp only [mul_assoc]
        _ = V.transpose * diagonal σ * U.transpose := by
            rw [hU, hV, mul_one, mul_one, diagonal_mul_diagonal, diagonal_mul_diagonal]
            congr 3
            funext i
            by_cases h : σ i = 0
            · simp [h]
            · field_simp
        _ = _ := by rw [mul_assoc]
    rw [mulVec_sub, mulVec_mulVec, mulVec_mulVec, mul_assoc, h1, sub_self]
  rw [sMat_transpose] at hres
  have h2 := hker _ hres
  set w := c - sMat rays *ᵥ (p *ᵥ c) with hw
  have h3 : w ⬝ᵥ w = 0 := by
    conv_lhs => rw [hw]
    rw [← hw, sub_dotProduct, dotProduct_comm c, h2, zero_sub, neg_eq_zero, mulVec_dot,
      sMat_transpose, hres, dotProduct_zero]
  have h4 := dotProduct_self_eq_zero.1 h3
  rw [hw, sub_eq_zero] at h4
  exact h4.symm

/-- The projection shortens. -/
theorem Keep.dot_le {ε : ℝ} {M P : Matrix (Fin 3) (Fin 3) ℝ} (hk : Keep ε M P) (x : V3 ℝ) :
    (P *ᵥ x) ⬝ᵥ (P *ᵥ x) + (x - P *ᵥ x) ⬝ᵥ (x - P *ᵥ x) = x ⬝ᵥ x := by
  have h : (P *ᵥ x) ⬝ᵥ (P *ᵥ x) = x ⬝ᵥ (P *ᵥ x) := by
    rw [mulVec_dot, hk.sym, mulVec_mulVec, hk.idem]
  simp only [dotProduct_sub, sub_dotProduct, h, dotProduct_comm (P *ᵥ x) x]
  ring

/-- C36: for any rays, parallel or not, a least-squares point exists, the result is no longer than
any of them, and nearly as good. -/
theorem c36_bounded {trySvd : TrySvd ℝ} (hs : SvdContract trySvd) {rays : List (Ray F ℝ)}
    (h0 : ∀ r ∈ rays, r.direction ≠ 0) {pt : Points F ℝ 1}
    (hb : bestIntersectionOfRays trySvd rays = .ok pt) :
    (∃ x, LeastSquares rays x) ∧ ∀ x, LeastSquares rays x →
      len (pt.data 0) ≤ len x ∧
      cost rays (pt.data 0) ≤ cost rays x + 1 / 10000000 * len x ^ 2 := by
  refine ⟨leastSquares_exists h0, fun x hx => ?_⟩
  have hn := (leastSquares_iff h0 x).1 hx
  obtain ⟨-, P, hP, hpt⟩ := best_ok hs hb hn
  have hle := hP.dot_le x
  have hnn := dot_self_nonneg' (x - P *ᵥ x)
  have hnn2 := dot_self_nonneg' (P *ᵥ x)
  rw [hpt]
  constructor
  · rw [len_eq, len_eq]
    exact Real.sqrt_le_sqrt (by linarith)
  · have h1 := cost_add h0 x (P *ᵥ x - x)
    rw [hn, sub_self, dotProduct_zero, add_sub_cancel] at h1
    have hz : P *ᵥ (P *ᵥ x - x) = 0 := by rw [mulVec_sub, mulVec_mulVec, hP.idem, sub_self]
    have h2 := hP.small _ hz
    have h3 := cauchy (P *ᵥ x - x) (sMat rays *ᵥ (P *ᵥ x - x))
    have h4 : (P *ᵥ x - x) ⬝ᵥ (P *ᵥ x - x) = (x - P *ᵥ x) ⬝ᵥ (x - P *ᵥ x) := by
      rw [← neg_sub x, neg_dotProduct, dotProduct_neg, neg_neg]
    set w := P *ᵥ x - x
    have h5 : -(w ⬝ᵥ (sMat rays *ᵥ w)) ≤ cutoff * (w ⬝ᵥ w) := by
      apply abs_le_of_sq_le_sq' _ (mul_nonneg cutoff_pos.le (dot_self_nonneg' w)) |>.2
      have : (w ⬝ᵥ w) * ((sMat rays *ᵥ w) ⬝ᵥ (sMat rays *ᵥ w)) ≤
          (w ⬝ᵥ w) * (cutoff ^ 2 * (w ⬝ᵥ w)) := mul_le_mul_of_nonneg_left h2 (dot_self_nonneg' w)
      nlinarith
    have h6 : w ⬝ᵥ w ≤ x ⬝ᵥ x := by linarith
    rw [h1, len_sq]
    have h7 : cutoff * (w ⬝ᵥ w) ≤ cutoff * (x ⬝ᵥ x) := mul_le_mul_of_nonneg_left h6 cutoff_pos.le
    rw [cutoff] at h5 h7
    linarith

/-- C36: exactly parallel rays: the result is the least-squares point closest to the origin. -/
theorem c36_parallel {trySvd : TrySvd ℝ} (hs : SvdContract trySvd) {rays : List (Ray F ℝ)}
    (h0 : ∀ r ∈ rays, r.direction ≠ 0) {d : Vec}
    (hpar : ∀ r ∈ rays, ∃ k : ℝ, r.direction = k • d) {pt : Points F ℝ 1}
    (hb : bestIntersectionOfRays trySvd rays = .ok pt) :
    LeastSquares rays (pt.data 0) ∧
      ∀ x, LeastSquares rays x → x ≠ pt.data 0 → len (pt.data 0) < len x := by
  obtain ⟨x, hx⟩ := leastSquares_exists h0
  have hdm : ∀ r ∈ rays, dm r = vecMulVec (V3.normalize d) (V3.normalize d) - 1 := by
    intro r hr
    obtain ⟨k, hk⟩ := hpar r hr
    have hk0 : k ≠ 0 := by rintro rfl; exact h0 r hr (by rw [hk, zero_smul])
    have hn : V3.normalize r.direction = (k / |k|) • V3.normalize d := by
      rw [normalize_eq, normalize_eq, hk, len_smul, smul_smul, smul_smul]
      congr 1
      have := abs_pos.2 hk0
      field_simp
    have hk2 : k / |k| * (k / |k|) = 1 := by
      rw [div_mul_div_comm, abs_mul_abs_self, div_self (mul_self_ne_zero.2 hk0)]
    rw [dm, hn, smul_vecMulVec, vecMulVec_smul, smul_smul, hk2, one_smul]
  set D := vecMulVec (V3.normalize d) (V3.normalize d) - 1 with hD
  have hSD : sMat rays = (rays.length : ℝ) • D := by
    rw [sMat, List.map_congr_left hdm, List.map_const', List.sum_replicate, Nat.cast_smul_eq_nsmul]
  have hlen : 2 ≤ rays.length := (best_ok hs hb ((leastSquares_iff h0 x).1 hx)).1
  have hd0 : d ≠ 0 := by
    rintro rfl
    obtain ⟨r, hr⟩ := List.exists_mem_of_length_pos (by omega : 0 < rays.length)
    obtain ⟨k, hk⟩ := hpar r hr
    exact h0 r hr (by rw [hk, smul_zero])
  have hu := unit_dot hd0
  have hDD : ∀ w, D *ᵥ w = (V3.normalize d ⬝ᵥ w) • V3.normalize d - w := by
    intro w
    rw [hD, sub_mulVec, one_mulVec, vecMulVec_mulVec]; simp
  have hstretch : ∀ w, (D *ᵥ w) ⬝ᵥ (D *ᵥ w) = w ⬝ᵥ w - (V3.normalize d ⬝ᵥ w) ^ 2 := by
    intro w
    rw [hDD]
    simp only [dotProduct_sub, sub_dotProduct, dotProduct_smul, smul_dotProduct, smul_eq_mul, hu,
      dotProduct_comm w (V3.normalize d)]
    ring
  -- directions that are cut off are in the kernel
  have hcut : ∀ x, LeastSquares rays x → sMat rays *ᵥ (pt.data 0) = cVec rays ∧
      (pt.data 0) ⬝ᵥ (pt.data 0) + (x - pt.data 0) ⬝ᵥ (x - pt.data 0) = x ⬝ᵥ x := by
    intro x hx
    have hn := (leastSquares_iff h0 x).1 hx
    obtain ⟨-, P, hP, hpt⟩ := best_ok hs hb hn
    have hz : P *ᵥ (x - P *ᵥ x) = 0 := by rw [mulVec_sub, mulVec_mulVec, hP.idem, sub_self]
    set w := x - P *ᵥ x with hw
    have hc := hP.comm
    have hDsym : D.transpose = D := by rw [hD, transpose_sub, transpose_vecMulVec, transpose_one]
    have hDidem : D * D = -D := by
      apply Matrix.ext_of_mulVec_single
      intro i
      rw [← mulVec_mulVec, hDD (D *ᵥ _), neg_mulVec]
      have : V3.normalize d ⬝ᵥ (D *ᵥ Pi.single i 1) = 0 := by
        rw [hDD, dotProduct_sub, dotProduct_smul, hu]; simp
      rw [this, zero_smul, zero_sub]
    -- `D w` is also cut off, and there the stretch is `n ≥ 2`
    have hn2 : (2 : ℝ) ≤ rays.length := by exact_mod_cast hlen
    have hPD : P * D = D * P := by
      rw [hSD, transpose_smul, hDsym, smul_mul_smul_comm, hDidem, mul_smul_comm, smul_mul_assoc,
        mul_neg, neg_mul] at hc
      have hne : (rays.length : ℝ) * rays.length ≠ 0 := by positivity
      exact neg_injective (smul_right_injective _ hne hc)
    have hz2 : P *ᵥ (D *ᵥ w) = 0 := by
      rw [mulVec_mulVec, hPD, ← mulVec_mulVec, hz, mulVec_zero]
    have h2 := hP.small _ hz2
    rw [hSD, smul_mulVec, mulVec_mulVec, hDidem, neg_mulVec, smul_dotProduct, dotProduct_smul,
      neg_dotProduct, dotProduct_neg, neg_neg, smul_eq_mul, smul_eq_mul] at h2
    have h3 : D *ᵥ w = 0 := by
      by_contra hne
      have := dot_self_pos hne
      rw [cutoff] at h2
      have h5 : (4 : ℝ) ≤ (rays.length : ℝ) * rays.length := by nlinarith
      nlinarith [mul_le_mul_of_nonneg_right h5 this.le]
    have h4 : sMat rays *ᵥ w = 0 := by rw [hSD, smul_mulVec, h3, smul_zero]
    constructor
    · rw [hpt, ← hn]
      rw [hw, mulVec_sub, sub_eq_zero] at h4
      exact h4.symm
    · rw [hpt]; exact hP.dot_le x
  refine ⟨(leastSquares_iff h0 _).2 (hcut x hx).1, fun y hy hne => ?_⟩
  have h1 := (hcut y hy).2
  have h2 := dot_self_pos (sub_ne_zero.2 hne)
  rw [len_eq, len_eq]
  exact Real.sqrt_lt_sqrt (dot_self_nonneg' _) (by linarith)

end CamGeom
