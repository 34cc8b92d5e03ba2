import Verif.Props.RoundingRays
import Verif.Lemmas.InRange
import Verif.Lemmas.FloatRange
import Verif.Spec.RoundingForward

/-!
# No overflow in `best_intersection_of_rays`
-/

namespace CamGeom
open Spec Matrix Rounding

section
variable {R : Type} [Scalar R] {fl : Rounding R} {Coords : Type} {k : ℕ} {r : Ray Coords R}

theorem SafeRay.good (g : RoundingRange fl) {u : ℝ} (hu : fl.u ≤ u) (hu1 : u ≤ 1 / 100)
    (hk : 2 * k + 2 ≤ g.top) (h : SafeRay fl k r) : GoodRay fl r := by
  refine ⟨?_, h.big, ?_⟩
  · obtain ⟨a, ha⟩ := h.ne
    intro h0
    exact ha (congrFun h0 a)
  · have m : ∀ a, InRange fl (k + k) (r.direction a * r.direction a) := fun a =>
      (h.direction a).mul g (h.direction a) (by omega)
    have s1 := (m 0).add g (m 1) (by omega)
    have s2 : InRange fl (k + k + 1 + 1) (V3.normSq r.direction) :=
      s1.add g ((m 2).mono (by omega)) (by omega)
    have h1 := normSq_near hu hu1 r.direction h.big s2.1
    have hu0 := fl.u_nonneg.trans hu
    have h2 : 0 ≤ fl.val (V3.normSq r.direction) := by
      have h3 := (abs_le.1 h1).1
      have h4 := sq_nonneg (len (vvec fl r.direction))
      nlinarith
    refine (g.sqrt (k := k + k + 2) s2.1 h2 (by omega) ?_).1
    rw [Real.sqrt_le_left (by positivity)]
    have h3 := (le_abs_self _).trans s2.2
    refine h3.trans ?_
    rw [← pow_mul]
    exact pow_le_pow_right₀ (by norm_num) (by omega)

/-- The computed unit direction is finite. -/
theorem normalize_finite (m : RoundingMore fl) (g : RoundingRange fl) {u : ℝ} (hu : fl.u ≤ u) (hu1 : u ≤ 1 / 100)
    (ht : 2 ≤ g.top) (h : SafeRay fl k r) (hg : GoodRay fl r) (a : Fin 3) :
    fl.isFinite (V3.normalize r.direction a) := by
  have h3 := norm_near m hu hu1 r.direction hg.big hg.ne hg.norm
  set L := len (vvec fl r.direction) with hL
  have hLp : 0 < L := len_pos.2 hg.ne
  have hNL : 92 / 100 * L ≤ fl.val (V3.norm r.direction) := by
    have := (abs_le.1 h3).1
    nlinarith
  have hNp : 0 < fl.val (V3.norm r.direction) := by linarith
  have hD : |fl.val (r.direction a)| ≤ L := abs_coord_le (vvec fl r.direction) a
  refine (g.div (k := 1) (h.direction a).1 hg.norm hNp.ne' (by omega) ?_).1
  rw [abs_div, abs_of_pos hNp, div_le_iff₀ hNp]
  linarith

/-- The entries contributed by a ray are finite. -/
theorem mhat_finite {F : Type} [Scalar F] [F64Conv R F] {flF : Rounding F} (m : RoundingMore fl)
    {g : RoundingRange fl} (w : RoundingForward g flF) {u : ℝ} (hu : fl.u ≤ u)
    (hu1 : u ≤ 1 / 100) (hω : fl.ω ≤ 1) (ht : 3 ≤ g.top) (h : SafeRay fl k r) (hg : GoodRay fl r) (a b : Fin 3) :
    fl.isFinite (mhat (V3.normalize r.direction) a b) := by
  have hu0 := fl.u_nonneg.trans hu
  have hf := normalize_finite m g hu hu1 (by omega) h hg
  have hn : ∀ a, |fl.val (V3.normalize r.direction a)| ≤ 111 / 100 := by
    intro a
    have h1 := normalize_near m hu hu1 hω r.direction hg.big hg.ne hg.norm a (hf a)
    have h2 := normalize_coord hg.ne a
    have := abs_add_le (fl.val (V3.normalize r.direction a) - V3.normalize (vvec fl r.direction) a)
      (V3.normalize (vvec fl r.direction) a)
    rw [sub_add_cancel] at this
    linarith
  generalize V3.normalize r.direction = n at *
  have hp : ∀ a b, |fl.val (n a) * fl.val (n b)| ≤ 2 := by
    intro a b
    rw [abs_mul]
    have := mul_le_mul (hn a) (hn b) (abs_nonneg _) (by norm_num)
    linarith
  have off : ∀ a b, fl.isFinite (n a * n b) := fun a b =>
    (g.mul (k := 1) (hf a) (hf b) (by omega) (by simpa using hp a b)).1
  have diag : ∀ a, fl.isFinite (Scalar.powi (n a) 2 + Scalar.lit (-1)) := by
    intro a
    have h1 := w.powi_two (k := 1) (hf a) (by omega) (by simpa using hp a a)
    have h2 := (m.powi_two h1).2
    have h3 := hp a a
    have h4 : fl.u * (|fl.val (n a) * fl.val (n a)| + fl.ω) ≤ 1 / 100 * (2 + 1) := by
      have := fl.ω_nonneg
      gcongr
      linarith
    have h5 := abs_add_le (fl.val (Scalar.powi (n a) 2) - fl.val (n a) * fl.val (n a)) (fl.val (n a) * fl.val (n a))
    rw [sub_add_cancel] at h5
    refine (g.add (k := 2) h1 m.lit_neg_one.1 (by omega) ?_).1
    rw [m.lit_neg_one.2]
    have h6 := abs_add_le (fl.val (Scalar.powi (n a) 2)) (-1)
    rw [abs_neg, abs_one] at h6
    linarith
  fin_cases a <;> fin_cases b
  all_goals first
    | exact diag _
    | exact off _ _

/-- The terms of the right-hand side are finite. -/
theorem cterm_finite {F : Type} [Scalar F] [F64Conv R F] {flF : Rounding F} (m : RoundingMore fl)
    {g : RoundingRange fl} (w : RoundingForward g flF) {u : ℝ} (hu : fl.u ≤ u) (hu1 : u ≤ 1 / 100)
    (hω : fl.ω ≤ 1) (hk : k + 3 ≤ g.top) (h : SafeRay fl k r) (hg : GoodRay fl r) (a : Fin 3) :
    InRange fl (k + 3) (r.center 0 * mhat (V3.normalize r.direction) a 0 +
      r.center 1 * mhat (V3.normalize r.direction) a 1 +
      r.center 2 * mhat (V3.normalize r.direction) a 2) := by
  have hu0 := fl.u_nonneg.trans hu
  have e : ∀ b, InRange fl 1 (mhat (V3.normalize r.direction) a b) := by
    intro b
    have h1 := mhat_finite m w hu hu1 hω (by omega) h hg a b
    refine ⟨h1, ?_⟩
    have h2 := mhat_near m hu hu1 hω hg a b h1
    have h3 := dm_abs_le (r := vray fl r) hg.ne a b
    have := abs_add_le (fl.val (mhat (V3.normalize r.direction) a b) - dm (vray fl r) a b) (dm (vray fl r) a b)
    rw [sub_add_cancel] at this
    linarith
  have t : ∀ b, InRange fl (k + 1) (r.center b * mhat (V3.normalize r.direction) a b) := fun b =>
    (h.center b).mul g (e b) (by omega)
  exact ((t 0).add g (t 1) (by omega)).add g ((t 2).mono (by omega)) (by omega)

end

section
variable {R F : Type} [Scalar R] [Scalar F] [F64Conv R F] {flR : Rounding R} {flF : Rounding F} {Coords : Type}

/-- Sums of finite terms do not panic. -/
theorem sums_ok (cv : RoundingConv flR flF) {n : ℕ} {x : Fin n → R} (hx : ∀ i, flR.isFinite (x i)) :
    ∃ s : F, sumAsF64 x = .ok s := by
  have h : ∀ l : List R, (∀ a ∈ l, flR.isFinite a) → ∃ l' : List F, l.mapM (F64Conv.toF64 (F := F)) = some l' := by
    intro l
    induction l with
    | nil => exact fun _ => ⟨[], rfl⟩
    | cons a l ih =>
      intro hl
      obtain ⟨y, hy, -⟩ := cv.toF_finite (hl a (by simp))
      obtain ⟨l', hl'⟩ := ih fun b hb => hl b (by simp [hb])
      exact ⟨y :: l', by rw [List.mapM_cons, hy, hl']; rfl⟩
  obtain ⟨l', hl'⟩ := h (List.ofFn x) fun a ha => by
    obtain ⟨i, rfl⟩ := (List.mem_ofFn ..).1 ha
    exact hx i
  exact ⟨_, by unfold sumAsF64; rw [hl']⟩

theorem bind_exists {α β : Type} {x : Outcome α} {f : α → Outcome β} {a : α} {P : β → Prop} (h : x = .ok a)
    (g : ∃ b, f a = .ok b ∧ P b) : ∃ b, (x >>= f) = .ok b ∧ P b := by
  subst h
  exact g

/-- The result, given the sums and the pseudo-inverse. -/
theorem best_of_sums {trySvd : TrySvd F} {rays : List (Ray Coords R)} (h : 2 ≤ rays.length) {S p : Mat 3 3 F}
    {C : V3 F}
    (hS : ∀ a b, sumAsF64 (fun i => mhat (V3.normalize (rays.get i).direction) a b) = .ok (S a b))
    (hC : ∀ a, sumAsF64 (fun i => (rays.get i).center 0 * mhat (V3.normalize (rays.get i).direction) a 0 +
      (rays.get i).center 1 * mhat (V3.normalize (rays.get i).direction) a 1 +
      (rays.get i).center 2 * mhat (V3.normalize (rays.get i).direction) a 2) = .ok (C a))
    (hp : myPinv trySvd S = .ok p) :
    ∃ pt, bestIntersectionOfRays trySvd rays = .ok pt ∧
      ∀ j, pt.data 0 j = F64Conv.ofF64 (p j 0) * F64Conv.ofF64 (C 0) +
        F64Conv.ofF64 (p j 1) * F64Conv.ofF64 (C 1) + F64Conv.ofF64 (p j 2) * F64Conv.ofF64 (C 2) := by
  have hSm : S = ![![S 0 0, S 0 1, S 0 2], ![S 0 1, S 1 1, S 1 2], ![S 0 2, S 1 2, S 2 2]] := by
    have sy : ∀ a b, S a b = S b a := by
      intro a b
      have h1 := hS a b
      have h2 := hS b a
      have : ∀ n : V3 R, mhat n a b = mhat n b a := by
        intro n
        fin_cases a <;> fin_cases b <;> rfl
      simp only [this] at h1
      rw [h1] at h2
      exact Outcome.ok.inj h2
    funext i j
    fin_cases i <;> fin_cases j <;> first | rfl | exact sy _ _
  unfold bestIntersectionOfRays
  rw [if_neg (by omega)]
  simp only [zipLoop_eq, lineDirs_eq, linePoints_eq]
  rw [hSm] at hp
  refine bind_exists (hS 0 0) (bind_exists (hS 1 1) (bind_exists (hS 2 2) (bind_exists (hS 0 1)
    (bind_exists (hS 0 2) (bind_exists (hS 1 2) (bind_exists (hC 0) (bind_exists (hC 1) (bind_exists (hC 2)
    (bind_exists hp ⟨_, rfl, ?_⟩)))))))))
  intro j
  dsimp only
  rw [forRange_set_row]
  simp only [if_true]
  match j with
  | 0 => rfl
  | 1 => rfl
  | 2 => rfl

/-- The inverted singular values: those that are not above the cutoff are replaced by zero. -/
def invSigma (d : SVD F) (k : Fin 3) : F :=
  if Scalar.lt (Scalar.lit (1 / 10000000)) (d.singularValues k) then 1 / d.singularValues k else 0

/-- The pseudo-inverse of any decomposition. -/
theorem pinv_general {fl : Rounding F} (m : RoundingMore fl) (hu1 : fl.u ≤ 1 / 100) {trySvd : TrySvd F}
    {S U Vt : Mat 3 3 F} {d : SVD F} (hd : trySvd S true true (Scalar.lit (1 / 10000000)) 100 = some d)
    (hU : d.u = some U) (hV : d.vT = some Vt) :
    myPinv trySvd S = .ok fun i j => U j 0 * invSigma d 0 * Vt 0 i + U j 1 * invSigma d 1 * Vt 1 i +
      U j 2 * invSigma d 2 * Vt 2 i := by
  have hu0 := fl.u_nonneg
  have hcut := m.lit_cutoff
  unfold myPinv
  rw [hd]
  have h5 : fl.u * (1 / 10000000) ≤ 1 / 100 * (1 / 10000000) := by gcongr
  have hev0 : 0 ≤ fl.val (Scalar.lit (1 / 10000000) : F) := by
    have := (abs_le.1 hcut.2).1
    linarith
  have hlt0 : Scalar.lt (Scalar.lit (1 / 10000000)) (0 : F) ≠ true := by
    rw [ne_eq, m.lt_iff hcut.1 fl.zero.1, fl.zero.2]; linarith
  have hloop : (forRange 3 d.singularValues fun i s =>
      let val := s i
      if Scalar.lt (Scalar.lit (1 / 10000000)) val then Function.update s i (1 / val) else Function.update s i 0) =
      invSigma d := by
    unfold forRange
    rw [finRange3]
    simp only [List.foldl]
    funext k
    have e : ∀ (c : Bool) (s : V3 F) (i : Fin 3) (a b : F),
        (if c = true then Function.update s i a else Function.update s i b) =
          Function.update s i (if c = true then a else b) := by intro c s i a b; cases c <;> rfl
    simp only [e]
    fin_cases k <;> simp [Function.update, invSigma]
  show Outcome.unwrapResult (d.pseudoInverse _) = _
  simp only [SVD.pseudoInverse]
  rw [if_neg hlt0, hloop]
  simp only [SVD.recompose, hU, hV, bind, Except.bind, Outcome.unwrapResult, pure, Except.pure]
  rfl

/-- The pseudo-inverse never overflows. -/
theorem pinv_bounded {fl : Rounding F} (m : RoundingMore fl) (g : RoundingRange fl) (ht : 28 ≤ g.top)
    (hu1 : fl.u ≤ 1 / 100) {ρ : ℝ} (hρ : ρ ≤ 1 / 100) {trySvd : TrySvd F}
    {S U Vt : Mat 3 3 F} {U' V' : Matrix (Fin 3) (Fin 3) ℝ} {d : SVD F}
    (hd : trySvd S true true (Scalar.lit (1 / 10000000)) 100 = some d) (hU : d.u = some U) (hV : d.vT = some Vt)
    (hUn : ∀ i j, fl.isFinite (U i j) ∧ |fl.val (U i j) - U' i j| ≤ ρ)
    (hVn : ∀ i j, fl.isFinite (Vt i j) ∧ |fl.val (Vt i j) - V' i j| ≤ ρ)
    (hσ : ∀ i, fl.isFinite (d.singularValues i)) (hU' : U'.transpose * U' = 1) (hV' : V' * V'.transpose = 1) :
    ∃ p, myPinv trySvd S = .ok p ∧ ∀ i j, InRange fl 28 (p i j) := by
  refine ⟨_, pinv_general m hu1 hd hU hV, fun i j => ?_⟩
  have near : ∀ {x : F} {X : ℝ}, fl.isFinite x ∧ |fl.val x - X| ≤ ρ → |X| ≤ 1 → InRange fl 1 x := by
    intro x X hx hX
    refine ⟨hx.1, ?_⟩
    have := abs_add_le (fl.val x - X) X
    rw [sub_add_cancel] at this
    linarith [hx.2]
  have s : ∀ k, InRange fl 24 (invSigma d k) := by
    intro k
    unfold invSigma
    split
    · rename_i hlt
      have hcut := m.lit_cutoff
      have h1 := (m.lt_iff hcut.1 (hσ k)).1 hlt
      have h2 := (abs_le.1 hcut.2).1
      have h5 : fl.u * (1 / 10000000) ≤ 1 / 100 * (1 / 10000000) := by gcongr
      have hp : 99 / 1000000000 < fl.val (d.singularValues k) := by linarith
      have hp0 : 0 < fl.val (d.singularValues k) := by linarith
      refine g.div fl.one.1 (hσ k) hp0.ne' (by omega) ?_
      rw [fl.one.2, abs_of_pos (by positivity), div_le_iff₀ hp0]
      norm_num
      linarith
    · refine ⟨fl.zero.1, ?_⟩
      rw [fl.zero.2, abs_zero]
      positivity
  have t : ∀ k, InRange fl 26 (U j k * invSigma d k * Vt k i) := fun k =>
    ((near (hUn j k) (orth_entry hU' j k)).mul g (s k) (by omega)).mul g (near (hVn k i) (orth_entry' hV' k i))
      (by omega)
  exact ((t 0).add g (t 1) (by omega)).add g ((t 2).mono (by omega)) (by omega)

/-- A conversion from `f64` is of about the same magnitude. -/
theorem ofF_inRange {gR : RoundingRange flR} (w : RoundingForward gR flF) (cv : RoundingConv flR flF)
    (hu1 : flR.u ≤ 1 / 100) (hω : flR.ω ≤ 1) {y : F} {k : ℕ} (hk : k ≤ gR.top) (h : InRange flF k y) :
    InRange flR (k + 1) (F64Conv.ofF64 y : R) := by
  have h1 := w.ofF h.1 hk h.2
  refine ⟨h1, ?_⟩
  have h2 := (cv.ofF h1).2
  have h3 := abs_add_le (flR.val (F64Conv.ofF64 y : R) - flF.val y) (flF.val y)
  rw [sub_add_cancel] at h3
  have h4 := h.2
  have h5 : (1 : ℝ) ≤ 2 ^ k := one_le_pow₀ (by norm_num)
  have h6 : flR.u * (|flF.val y| + flR.ω) ≤ 1 / 100 * (2 ^ k + 2 ^ k) := by
    have := flR.ω_nonneg
    gcongr
    linarith
  rw [pow_succ]
  linarith

/-- The sums over the rays: they exist, are finite and the matrix is accurate. -/
theorem sums_run (mR : RoundingMore flR) (mF : RoundingMore flF) (cv : RoundingConv flR flF)
    {gR : RoundingRange flR} (w : RoundingForward gR flF) {u L : ℝ} (huR : flR.u ≤ u) (hωR : flR.ω ≤ 1)
    (hL2 : 2 ≤ L) (hLu : L * u ≤ 1 / 100) {rays : List (Ray Coords R)} (h2 : 2 ≤ rays.length)
    (hN : rays.length * flF.u ≤ L * u) {k : ℕ} (hk : 2 * k + 2 ≤ gR.top) (hk' : k + 3 ≤ gR.top)
    (hlen : (rays.length : ℝ) ≤ 2 ^ 30) (hbig : 2 ^ (k + 34) ≤ mF.big) (hr : ∀ r ∈ rays, SafeRay flR k r) :
    (∀ r ∈ rays, GoodRay flR r) ∧ ∃ (S : Mat 3 3 F) (C : V3 F),
      (∀ a b, sumAsF64 (fun i => mhat (V3.normalize (rays.get i).direction) a b) = .ok (S a b)) ∧
      (∀ a, sumAsF64 (fun i => (rays.get i).center 0 * mhat (V3.normalize (rays.get i).direction) a 0 +
        (rays.get i).center 1 * mhat (V3.normalize (rays.get i).direction) a 1 +
        (rays.get i).center 2 * mhat (V3.normalize (rays.get i).direction) a 2) = .ok (C a)) ∧
      (∀ i j, flF.isFinite (S i j)) ∧ (∀ a, InRange flF (k + 34) (C a)) ∧
      ∀ w : Vec, len (Matrix.of (fun i j => flF.val (S i j)) *ᵥ w - sMat (rays.map (vray flR)) *ᵥ w) ≤
        48 * (rays.length * L) * u * len w := by
  have hu0 : 0 ≤ u := flR.u_nonneg.trans huR
  have hu1 : u ≤ 1 / 200 := by nlinarith
  have hN' : rays.length * flF.u ≤ 1 / 100 := hN.trans hLu
  have hg : ∀ r ∈ rays, GoodRay flR r := fun r h => (hr r h).good gR huR (by linarith) hk
  refine ⟨hg, ?_⟩
  have hmf : ∀ i a b, flR.isFinite (mhat (V3.normalize (rays.get i).direction) a b) := fun i a b =>
    mhat_finite mR w huR (by linarith) hωR (by omega) (hr _ (List.get_mem _ _)) (hg _ (List.get_mem _ _)) a b
  have hcf := fun i a => cterm_finite mR w huR (by linarith) hωR hk' (hr (rays.get i) (List.get_mem _ _))
    (hg _ (List.get_mem _ _)) a
  choose S hS using fun a b => sums_ok cv fun i => hmf i a b
  choose C hC using fun a => sums_ok cv fun i => (hcf i a).1
  have hk0 : (1 : ℝ) ≤ 2 ^ k := one_le_pow₀ (by norm_num)
  have hb : (2 : ℝ) ^ (k + 34) = 16 * 2 ^ k * 2 ^ 30 := by rw [pow_add]; norm_num; ring
  have hlk : (rays.length : ℝ) * 2 ^ k ≤ 2 ^ 30 * 2 ^ k := by gcongr
  have hSf : ∀ a b, flF.isFinite (S a b) := by
    intro a b
    refine sum_finite cv mF le_rfl hN' (hS a b) (fun i => hmf i a b) (K := 2) (fun i => ?_) ?_
    · have := abs_add_le (flR.val (mhat (V3.normalize (rays.get i).direction) a b) -
        dm (vray flR (rays.get i)) a b) (dm (vray flR (rays.get i)) a b)
      rw [sub_add_cancel] at this
      have h1 := mhat_near mR huR (by linarith) hωR (hg _ (List.get_mem _ _)) a b (hmf i a b)
      have h2 := dm_abs_le (r := vray flR (rays.get i)) (hg _ (List.get_mem _ _)).ne a b
      linarith
    · refine le_trans ?_ hbig
      rw [hb]
      nlinarith
  refine ⟨S, C, hS, hC, hSf, fun a => ?_,
    smat_near mR cv huR hu1 hωR hL2 hLu h2 hN hg hS hSf hmf⟩
  have e8 : (2 : ℝ) ^ (k + 3) = 8 * 2 ^ k := by rw [pow_add]; norm_num; ring
  have hCf : flF.isFinite (C a) := by
    refine sum_finite cv mF le_rfl hN' (hC a) (fun i => (hcf i a).1) (K := 2 ^ (k + 3)) (fun i => (hcf i a).2) ?_
    refine le_trans ?_ hbig
    rw [hb, e8]
    linarith
  refine ⟨hCf, ?_⟩
  have h1 := (sum_near cv le_rfl hN' (hC a) hCf (e := 0) (X := fun i => _)
    (fun i _ => by rw [sub_self, abs_zero]) (fun i => (hcf i a).2)).2
  have h3 := Finset.abs_sum_le_sum_abs (fun i : Fin rays.length => flR.val ((rays.get i).center 0 *
    mhat (V3.normalize (rays.get i).direction) a 0 +
        (rays.get i).center 1 * mhat (V3.normalize (rays.get i).direction) a 1 +
        (rays.get i).center 2 * mhat (V3.normalize (rays.get i).direction) a 2)) Finset.univ
  have h4 := Finset.sum_le_sum (s := Finset.univ) fun i _ => (hcf i a).2
  simp only [Finset.sum_const, Finset.card_univ, Fintype.card_fin, nsmul_eq_mul] at h4
  rw [e8] at h1 h4
  set X := ∑ i : Fin rays.length, flR.val ((rays.get i).center 0 *
    mhat (V3.normalize (rays.get i).direction) a 0 +
        (rays.get i).center 1 * mhat (V3.normalize (rays.get i).direction) a 1 +
        (rays.get i).center 2 * mhat (V3.normalize (rays.get i).direction) a 2)
  have h5 := abs_add_le (flF.val (C a) - X) X
  rw [sub_add_cancel] at h5
  have h6 : 102 / 100 * (rays.length * flF.u) * (rays.length * (8 * 2 ^ k + 0)) ≤
      102 / 100 * (1 / 100) * (rays.length * (8 * 2 ^ k + 0)) := by gcongr
  rw [hb]
  linarith

/-- The computed matrix stretches every vector. -/
theorem stretch_near {rays : List (Ray Coords R)} (hg : ∀ r ∈ rays, GoodRay flR r) {a b : Ray Coords R}
    (ha : a ∈ rays) (hb : b ∈ rays) (hc : absCos (vray flR a).direction (vray flR b).direction < 1) {δ : ℝ}
    {T : Matrix (Fin 3) (Fin 3) ℝ}
    (h : ∀ w : Vec, len (T *ᵥ w - sMat (rays.map (vray flR)) *ᵥ w) ≤ δ * len w) (w : Vec) :
    (1 - absCos (vray flR a).direction (vray flR b).direction - δ) * len w ≤ len (T *ᵥ w) := by
  have e1 := stretch_bound (quad_bound (List.mem_map_of_mem ha) (List.mem_map_of_mem hb)
    (hg a ha).ne (hg b hb).ne hc w)
  have e2 := len_add_le (T *ᵥ w) (-(T *ᵥ w - sMat (rays.map (vray flR)) *ᵥ w))
  rw [len_neg, neg_sub, add_sub_cancel] at e2
  have e3 := h w
  linarith

end

end CamGeom
