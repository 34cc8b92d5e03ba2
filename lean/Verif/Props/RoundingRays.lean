import Verif.Lemmas.RoundingPinv
import Verif.Lemmas.Fp64

/-!
# C69: rounding error of `best_intersection_of_rays`
-/

namespace CamGeom
open Spec Matrix Rounding

section
variable {R F : Type} [Scalar R] [Scalar F] [F64Conv R F] {Coords : Type}

/-- What a successful run computed. -/
theorem best_ok_float {trySvd : TrySvd F} {rays : List (Ray Coords R)} {pt : Points Coords R 1}
    (h : bestIntersectionOfRays trySvd rays = .ok pt) :
    2 ≤ rays.length ∧ ∃ (S p : Mat 3 3 F) (C : V3 F),
      (∀ a b, sumAsF64 (fun i => mhat (V3.normalize (rays.get i).direction) a b) = .ok (S a b)) ∧
      (∀ a, sumAsF64 (fun i => (rays.get i).center 0 * mhat (V3.normalize (rays.get i).direction) a 0 +
        (rays.get i).center 1 * mhat (V3.normalize (rays.get i).direction) a 1 +
        (rays.get i).center 2 * mhat (V3.normalize (rays.get i).direction) a 2) = .ok (C a)) ∧
      myPinv trySvd S = .ok p ∧
      ∀ j, pt.data 0 j = F64Conv.ofF64 (p j 0) * F64Conv.ofF64 (C 0) +
        F64Conv.ofF64 (p j 1) * F64Conv.ofF64 (C 1) + F64Conv.ofF64 (p j 2) * F64Conv.ofF64 (C 2) := by
  unfold bestIntersectionOfRays at h
  split at h
  · cases h
  rename_i hlen
  refine ⟨by omega, ?_⟩
  simp only [zipLoop_eq, lineDirs_eq, linePoints_eq] at h
  obtain ⟨SXX, h1, h⟩ := outcome_bind_ok h
  obtain ⟨SYY, h2, h⟩ := outcome_bind_ok h
  obtain ⟨SZZ, h3, h⟩ := outcome_bind_ok h
  obtain ⟨SXY, h4, h⟩ := outcome_bind_ok h
  obtain ⟨SXZ, h5, h⟩ := outcome_bind_ok h
  obtain ⟨SYZ, h6, h⟩ := outcome_bind_ok h
  obtain ⟨CX, hX, h⟩ := outcome_bind_ok h
  obtain ⟨CY, hY, h⟩ := outcome_bind_ok h
  obtain ⟨CZ, hZ, h⟩ := outcome_bind_ok h
  obtain ⟨p, hp, h⟩ := outcome_bind_ok h
  refine ⟨![![SXX, SXY, SXZ], ![SXY, SYY, SYZ], ![SXZ, SYZ, SZZ]], p, ![CX, CY, CZ], ?_, ?_, hp, ?_⟩
  · intro a b
    match a, b with
    | 0, 0 => exact h1
    | 0, 1 => exact h4
    | 0, 2 => exact h5
    | 1, 0 => exact h4
    | 1, 1 => exact h2
    | 1, 2 => exact h6
    | 2, 0 => exact h5
    | 2, 1 => exact h6
    | 2, 2 => exact h3
  · intro a
    match a with
    | 0 => exact hX
    | 1 => exact hY
    | 2 => exact hZ
  · intro j
    cases h
    rw [forRange_set_row]
    simp only [if_true]
    match j with
    | 0 => rfl
    | 1 => rfl
    | 2 => rfl

theorem sMat_map_apply (fl : Rounding R) (rays : List (Ray Coords R)) (a b : Fin 3) :
    sMat (rays.map (vray fl)) a b = ∑ i : Fin rays.length, dm (vray fl (rays.get i)) a b := by
  rw [sum_get rays fun r => dm (vray fl r) a b]
  unfold sMat
  induction rays with
  | nil => rfl
  | cons r l ih => simp only [List.map_cons, List.sum_cons, Matrix.add_apply, ih]

theorem cVec_map_apply (fl : Rounding R) (rays : List (Ray Coords R)) (a : Fin 3) :
    cVec (rays.map (vray fl)) a =
      ∑ i : Fin rays.length, (dm (vray fl (rays.get i)) *ᵥ vvec fl (rays.get i).center) a := by
  rw [sum_get rays fun r => (dm (vray fl r) *ᵥ vvec fl r.center) a]
  unfold cVec
  rw [list_sum_apply, List.map_map]
  rfl

theorem len_sMat_le {l : List (Ray Coords ℝ)} (h : ∀ r ∈ l, r.direction ≠ 0) (w : Vec) :
    len (sMat l *ᵥ w) ≤ l.length * len w := by
  induction l with
  | nil => simp [sMat, len_eq]
  | cons r l ih =>
    rw [sMat_cons, add_mulVec]
    refine (len_add_le _ _).trans ?_
    have h1 := len_dm_le r (h r (by simp)) w
    have h2 := ih fun r hr => h r (by simp [hr])
    push_cast [List.length_cons]
    linarith

variable {flR : Rounding R} {flF : Rounding F}

/-- One term of the right-hand side. -/
theorem cterm_near (mR : RoundingMore flR) {u M : ℝ} (hu : flR.u ≤ u) (hu1 : u ≤ 1 / 200)
    (hω : flR.ω ≤ 1) (hωM : flR.ω ≤ M) {r : Ray Coords R} (hr : GoodRay flR r)
    (hc : ∀ a, |flR.val (r.center a)| ≤ M) (a : Fin 3)
    (hf : flR.isFinite (r.center 0 * mhat (V3.normalize r.direction) a 0 +
      r.center 1 * mhat (V3.normalize r.direction) a 1 +
      r.center 2 * mhat (V3.normalize r.direction) a 2)) :
    (∀ b, flR.isFinite (mhat (V3.normalize r.direction) a b)) ∧
    |flR.val (r.center 0 * mhat (V3.normalize r.direction) a 0 +
      r.center 1 * mhat (V3.normalize r.direction) a 1 +
      r.center 2 * mhat (V3.normalize r.direction) a 2) -
      (dm (vray flR r) *ᵥ vvec flR r.center) a| ≤ 100 * u * M ∧
    |(dm (vray flR r) *ᵥ vvec flR r.center) a| ≤ 3 * M := by
  have hu0 := flR.u_nonneg
  have hω0 := flR.ω_nonneg
  have hu0' : 0 ≤ u := hu0.trans hu
  have hM : 0 ≤ M := hω0.trans hωM
  obtain ⟨f01, f2, -⟩ := flR.add hf
  obtain ⟨f0, f1, -⟩ := flR.add f01
  have g : ∀ b, flR.isFinite (mhat (V3.normalize r.direction) a b) := by
    intro b
    match b with
    | 0 => exact (flR.mul f0).2.1
    | 1 => exact (flR.mul f1).2.1
    | 2 => exact (flR.mul f2).2.1
  have near := fun b => mhat_near mR hu (by linarith) hω hr a b (g b)
  have db := fun b => dm_abs_le (r := vray flR r) hr.ne a b
  have hX : ∀ b, |flR.val (r.center b) * dm (vray flR r) a b| ≤ M := by
    intro b
    rw [abs_mul]
    calc _ ≤ M * 1 := mul_le_mul (hc b) (db b) (abs_nonneg _) hM
      _ = M := _root_.mul_one _
  have t : ∀ b, flR.isFinite (r.center b * mhat (V3.normalize r.direction) a b) →
      |flR.val (r.center b * mhat (V3.normalize r.direction) a b) -
        flR.val (r.center b) * dm (vray flR r) a b| ≤ 31 * u * M := by
    intro b hfb
    have h1 := mul_near hfb (show |flR.val (r.center b) - flR.val (r.center b)| ≤ 0 by simp) (near b)
      (hc b) (db b)
    refine h1.trans ?_
    have e1 : flR.u * ((M + 0) * (1 + 28 * u) + flR.ω) ≤ u * ((M + 0) * (1 + 28 * u) + M) := by
      gcongr
    have e2 : u * M * u ≤ u * M * (1 / 200) := by gcongr
    have e3 : 0 ≤ u * M := by positivity
    nlinarith
  have hS : (dm (vray flR r) *ᵥ vvec flR r.center) a =
      flR.val (r.center 0) * dm (vray flR r) a 0 + flR.val (r.center 1) * dm (vray flR r) a 1 +
      flR.val (r.center 2) * dm (vray flR r) a 2 := by
    simp only [mulVec, dotProduct, Fin.sum_univ_three, vvec]
    ring
  rw [hS]
  have e2 : u * M * u ≤ u * M * (1 / 200) := by gcongr
  have e3 : 0 ≤ u * M := by positivity
  have h1 := add_near f01 (t 0 f0) (t 1 f1) ((abs_add_le _ _).trans (add_le_add (hX 0) (hX 1)))
  have h1' : |flR.val (r.center 0 * mhat (V3.normalize r.direction) a 0 +
      r.center 1 * mhat (V3.normalize r.direction) a 1) - (flR.val (r.center 0) * dm (vray flR r) a 0 +
      flR.val (r.center 1) * dm (vray flR r) a 1)| ≤ 65 * u * M := by
    refine h1.trans ?_
    have : flR.u * (M + M + 31 * u * M + 31 * u * M) ≤ u * (M + M + 31 * u * M + 31 * u * M) := by gcongr
    nlinarith
  have h3M := (abs_add_three _ _ _).trans (add_le_add (add_le_add (hX 0) (hX 1)) (hX 2))
  have h2 := add_near hf h1' (t 2 f2) h3M
  refine ⟨g, h2.trans ?_, by linarith⟩
  have : flR.u * (M + M + M + 65 * u * M + 31 * u * M) ≤ u * (M + M + M + 65 * u * M + 31 * u * M) := by
    gcongr
  nlinarith

/-- One row of the final matrix-vector product. -/
theorem row_near {u η M N Z : ℝ} (hu : flR.u ≤ u) (hu1 : u ≤ 1 / 200) (hη0 : 0 ≤ η) (hη : η ≤ 1 / 100)
    (hωM : flR.ω ≤ M) (hN0 : 0 ≤ N) (hZN : 1 ≤ Z * N) {x y : V3 R} {P : Vec}
    (hP : ∀ k, |flR.val (x k) - P k| ≤ Z * (7 * η + 30 * u)) (hPe : ∀ k, |P k| ≤ Z)
    (hy : ∀ k, |flR.val (y k)| ≤ 4 * N * M) (hf : flR.isFinite (x 0 * y 0 + x 1 * y 1 + x 2 * y 2)) :
    |flR.val (x 0 * y 0 + x 1 * y 1 + x 2 * y 2) -
      (P 0 * flR.val (y 0) + P 1 * flR.val (y 1) + P 2 * flR.val (y 2))| ≤
      Z * (N * M) * (84 * η + 403 * u) := by
  have hu0 := flR.u_nonneg
  have hω0 := flR.ω_nonneg
  have hu0' : 0 ≤ u := hu0.trans hu
  have hM0 : 0 ≤ M := hω0.trans hωM
  have hZ0 : 0 ≤ Z := (abs_nonneg _).trans (hPe 0)
  set Q := Z * (N * M) with hQ
  have hQ0 : 0 ≤ Q := by positivity
  have hMQ : M ≤ Q := by
    have := mul_le_mul_of_nonneg_right hZN hM0
    linarith
  have tm : ∀ k, flR.isFinite (x k * y k) →
      |flR.val (x k * y k) - P k * flR.val (y k)| ≤ Q * (28 * η + 126 * u) := by
    intro k hfk
    have e1 := mul_near hfk (hP k) (show |flR.val (y k) - flR.val (y k)| ≤ 0 by simp) (hPe k) (hy k)
    refine e1.trans ?_
    have e2 : flR.u * ((Z + Z * (7 * η + 30 * u)) * (4 * N * M + 0) + flR.ω) ≤
        u * ((Z + Z * (7 * η + 30 * u)) * (4 * N * M + 0) + Q) := by
      gcongr
      exact hωM.trans hMQ
    have e3 : u * (4 * (1 + (7 * η + 30 * u)) + 1) ≤ u * 6 := by
      gcongr; linarith
    have e4 := mul_le_mul_of_nonneg_left e3 hQ0
    calc _ ≤ Z * (7 * η + 30 * u) * (4 * N * M + 0) + Z * 0 +
          u * ((Z + Z * (7 * η + 30 * u)) * (4 * N * M + 0) + Q) := by linarith
      _ = Q * (28 * η + 120 * u) + Q * (u * (4 * (1 + (7 * η + 30 * u)) + 1)) := by rw [hQ]; ring
      _ ≤ Q * (28 * η + 120 * u) + Q * (u * 6) := by linarith
      _ = _ := by ring
  have tb : ∀ k, |P k * flR.val (y k)| ≤ 4 * Q := by
    intro k
    rw [abs_mul]
    calc _ ≤ Z * (4 * N * M) := mul_le_mul (hPe k) (hy k) (abs_nonneg _) hZ0
      _ = _ := by rw [hQ]; ring
  obtain ⟨f01, f2, -⟩ := flR.add hf
  obtain ⟨f0, f1, -⟩ := flR.add f01
  have hδ1 : 28 * η + 126 * u ≤ 95 / 100 := by linarith
  have hδ0 : 0 ≤ 28 * η + 126 * u := by positivity
  have e6 : Q * (84 * η + 403 * u) =
      3 * (Q * (28 * η + 126 * u)) + 25 * (Q * u) := by ring
  rw [e6]
  clear_value Q
  generalize 28 * η + 126 * u = δ at *
  have e1 := add_near f01 (tm 0 f0) (tm 1 f1) ((abs_add_le _ _).trans (add_le_add (tb 0) (tb 1)))
  have e1' : |flR.val (x 0 * y 0 + x 1 * y 1) - (P 0 * flR.val (y 0) + P 1 * flR.val (y 1))| ≤
      Q * (2 * δ + 10 * u) := by
    refine e1.trans ?_
    have : flR.u * (4 * Q + 4 * Q + Q * δ + Q * δ) ≤ u * (4 * Q + 4 * Q + Q * δ + Q * δ) := by gcongr
    have e3 : u * (8 + 2 * δ) ≤ u * 10 := by gcongr; linarith
    have e4 := mul_le_mul_of_nonneg_left e3 hQ0
    linarith
  have e2 := add_near hf e1' (tm 2 f2)
    ((abs_add_three _ _ _).trans (add_le_add (add_le_add (tb 0) (tb 1)) (tb 2)))
  refine e2.trans ?_
  have : flR.u * (4 * Q + 4 * Q + 4 * Q + Q * (2 * δ + 10 * u) + Q * δ) ≤
      u * (4 * Q + 4 * Q + 4 * Q + Q * (2 * δ + 10 * u) + Q * δ) := by gcongr
  have e3 : u * (12 + 3 * δ + 10 * u) ≤ u * 15 := by
    gcongr
    linarith
  have e4 := mul_le_mul_of_nonneg_left e3 hQ0
  have e5 : 0 ≤ Q * u := by positivity
  linarith

/-- The computed matrix is near the matrix of the normal equations. -/
theorem smat_near (mR : RoundingMore flR) (cv : RoundingConv flR flF) {u L : ℝ} (huR : flR.u ≤ u)
    (hu1 : u ≤ 1 / 200) (hωR : flR.ω ≤ 1) (hL2 : 2 ≤ L) (hLu : L * u ≤ 1 / 100) {rays : List (Ray Coords R)}
    (h2 : 2 ≤ rays.length) (hN : rays.length * flF.u ≤ L * u) (hgood : ∀ r ∈ rays, GoodRay flR r) {S : Mat 3 3 F}
    (hS : ∀ a b, sumAsF64 (fun i => mhat (V3.normalize (rays.get i).direction) a b) = .ok (S a b))
    (hSf : ∀ k l, flF.isFinite (S k l))
    (hmf : ∀ i k l, flR.isFinite (mhat (V3.normalize (rays.get i).direction) k l)) (w : Vec) :
    len (Matrix.of (fun i j => flF.val (S i j)) *ᵥ w - sMat (rays.map (vray flR)) *ᵥ w) ≤
      48 * (rays.length * L) * u * len w := by
  have hu0 : 0 ≤ u := flR.u_nonneg.trans huR
  set N : ℝ := (rays.length : ℝ) with hNd
  have hN2 : 2 ≤ N := by rw [hNd]; exact_mod_cast h2
  set K := N * L with hK
  have hN2u : N * u ≤ K * u / 2 := by
    rw [hK]
    have : 0 ≤ N * u := by positivity
    nlinarith
  have hN' : N * flF.u ≤ 1 / 100 := hN.trans hLu
  have mn := fun i k l => mhat_near mR huR (by linarith) hωR (hgood (rays.get i) (List.get_mem _ _)) k l
    (hmf i k l)
  have db := fun i k l => dm_abs_le (r := vray flR (rays.get i)) (hgood _ (List.get_mem _ _)).ne k l
  have hS1 : ∀ k l, |flF.val (S k l) - sMat (rays.map (vray flR)) k l| ≤ 16 * K * u := by
    intro k l
    rw [sMat_map_apply]
    refine (sum_near cv le_rfl hN' (hS k l) (hSf k l) (fun i _ => mn i k l) (fun i => db i k l)).2.trans ?_
    rw [← hNd]
    have e2 : 1 + 28 * u ≤ 114 / 100 := by linarith
    have e3 : N * flF.u * (N * (1 + 28 * u)) ≤ L * u * (N * (114 / 100)) := by gcongr
    have e5 : L * u * (N * (114 / 100)) = 114 / 100 * (K * u) := by rw [hK]; ring
    have e4 : 0 ≤ K * u := by positivity
    nlinarith
  rw [← sub_mulVec]
  refine (len_mulVec_entries (e := 16 * K * u) (fun k l => ?_) w).trans (le_of_eq (by ring))
  rw [Matrix.sub_apply]
  exact hS1 k l

set_option maxHeartbeats 2000000 in
/-- A finite result: the matrix and the vector of the sums are accurate, and so is the final product with whatever
matrix `P` the computed pseudo-inverse is near to. -/
theorem rays_parts {flR : Rounding R} {flF : Rounding F} (mR : RoundingMore flR)
    (mF : RoundingMore flF) (cv : RoundingConv flR flF) {u ρ M L : ℝ} (huR : flR.u ≤ u)
    {trySvd : TrySvd F} (hρ0 : 0 ≤ ρ) (hρ : ρ ≤ 1 / 100) (hωR : flR.ω ≤ 1) (hωM : flR.ω ≤ M)
    {rays : List (Ray Coords R)} (hL2 : 2 ≤ L) (hLu : L * u ≤ 1 / 100)
    (hN : rays.length * flF.u ≤ L * u) (hbig : 4 * rays.length ≤ mF.big)
    (hgood : ∀ r ∈ rays, GoodRay flR r) (hM : ∀ r ∈ rays, ∀ a, |flR.val (r.center a)| ≤ M)
    {pt : Points Coords R 1}
    (h : bestIntersectionOfRays trySvd rays = .ok pt) (hf : ∀ j, flR.isFinite (pt.data 0 j)) :
    ∃ (S p : Mat 3 3 F) (Ĉ : Vec), 2 ≤ rays.length ∧ (∀ i j, flF.isFinite (S i j)) ∧
      (∀ w : Vec, len (Matrix.of (fun i j => flF.val (S i j)) *ᵥ w - sMat (rays.map (vray flR)) *ᵥ w) ≤
        48 * (rays.length * L) * u * len w) ∧
      myPinv trySvd S = .ok p ∧ (∀ i j, flF.isFinite (p i j)) ∧
      (∀ k, |Ĉ k - cVec (rays.map (vray flR)) k| ≤ 57 * (rays.length * L) * u * M) ∧
      ∀ (P : Matrix (Fin 3) (Fin 3) ℝ) (Z : ℝ), flR.ω ≤ Z → 1 ≤ Z * rays.length → (∀ i j, |P i j| ≤ Z) →
        (∀ i j, |flF.val (p i j) - P i j| ≤ Z * (66 / 10 * ρ + 27 * u)) →
        ∀ j, |flR.val (pt.data 0 j) - (P *ᵥ Ĉ) j| ≤ Z * (rays.length * M) * (84 * ρ + 403 * u) := by
  have huR0 := flR.u_nonneg
  have hωR0 := flR.ω_nonneg
  have hu0 : 0 ≤ u := huR0.trans huR
  have hM0 : 0 ≤ M := hωR0.trans hωM
  obtain ⟨h2, S, p, C, hS, hC, hp, hpt⟩ := best_ok_float h
  set N : ℝ := (rays.length : ℝ) with hNd
  have hN2 : 2 ≤ N := by rw [hNd]; exact_mod_cast h2
  have hu1 : u ≤ 1 / 200 := by nlinarith
  have hNu : 0 ≤ N * u := by positivity
  set K := N * L with hK
  have hN2u : N * u ≤ K * u / 2 := by rw [hK]; nlinarith
  have hNNu : K * u ≤ N / 100 := by
    rw [hK, mul_assoc]
    have := mul_le_mul_of_nonneg_left hLu (show 0 ≤ N by linarith)
    linarith
  have hK0 : 0 ≤ K := by positivity
  have hN' : N * flF.u ≤ 1 / 100 := hN.trans hLu
  -- everything involved is finite
  have hfj : ∀ j k, flR.isFinite (F64Conv.ofF64 (p j k) : R) ∧ flR.isFinite (F64Conv.ofF64 (C k) : R) := by
    intro j k
    have h1 := hf j
    rw [hpt] at h1
    obtain ⟨f01, f2, -⟩ := flR.add h1
    obtain ⟨f0, f1, -⟩ := flR.add f01
    match k with
    | 0 => exact ⟨(flR.mul f0).1, (flR.mul f0).2.1⟩
    | 1 => exact ⟨(flR.mul f1).1, (flR.mul f1).2.1⟩
    | 2 => exact ⟨(flR.mul f2).1, (flR.mul f2).2.1⟩
  have hCf : ∀ k, flF.isFinite (C k) := fun k => (cv.ofF (hfj 0 k).2).1
  have ct := fun i => cterm_near mR huR hu1 hωR hωM (hgood (rays.get i) (List.get_mem _ _))
    (hM (rays.get i) (List.get_mem _ _))
  have hsumC := fun k => sum_near cv le_rfl hN' (hC k) (hCf k) (fun i hi => (ct i k hi).2.1)
    (A := 3 * M) (e := 100 * u * M)
  have hAbs : ∀ k i, |(dm (vray flR (rays.get i)) *ᵥ vvec flR (rays.get i).center) k| ≤ 3 * M := by
    intro k i
    obtain ⟨y, hy, e⟩ := sumAsF64_spec (hC k)
    obtain ⟨-, h1, -⟩ := foldl_err flF _ _ (e ▸ hCf k)
    exact (ct i k (cv.toF (hy i) (h1 _ (by rw [List.mem_ofFn]; exact ⟨i, rfl⟩))).1).2.2
  have hC1 : ∀ k, |flF.val (C k) - cVec (rays.map (vray flR)) k| ≤ 54 * K * u * M := by
    intro k
    rw [cVec_map_apply]
    refine (hsumC k (hAbs k)).2.trans ?_
    rw [← hNd]
    have e1 : N * (100 * u * M) ≤ 50 * K * u * M := by
      have := mul_le_mul_of_nonneg_right hN2u hM0
      nlinarith
    have e2 : 3 * M + 100 * u * M ≤ 35 / 10 * M := by nlinarith
    have e3 : N * flF.u * (N * (3 * M + 100 * u * M)) ≤ L * u * (N * (35 / 10 * M)) := by gcongr
    have e5 : L * u * (N * (35 / 10 * M)) = 35 / 10 * (K * u * M) := by rw [hK]; ring
    have e4 : 0 ≤ K * u * M := by positivity
    nlinarith
  have hcV : ∀ k, |cVec (rays.map (vray flR)) k| ≤ 3 * N * M := by
    intro k
    rw [cVec_map_apply]
    refine (Finset.abs_sum_le_sum_abs _ _).trans ((Finset.sum_le_sum fun i _ => hAbs k i).trans ?_)
    simp only [Finset.sum_const, Finset.card_univ, Fintype.card_fin, nsmul_eq_mul]
    rw [← hNd]; linarith
  have hmf : ∀ i k l, flR.isFinite (mhat (V3.normalize (rays.get i).direction) k l) := fun i k l =>
    (ct i k ((hsumC k (hAbs k)).1 i)).1 l
  -- the matrix
  have mn := fun i k l => mhat_near mR huR (by linarith) hωR (hgood (rays.get i) (List.get_mem _ _)) k l
    (hmf i k l)
  have db := fun i k l => dm_abs_le (r := vray flR (rays.get i)) (hgood _ (List.get_mem _ _)).ne k l
  have hSf : ∀ k l, flF.isFinite (S k l) := by
    intro k l
    refine sum_finite cv mF le_rfl hN' (hS k l) (fun i => hmf i k l) (K := 2) (fun i => ?_) ?_
    · have := abs_add_le (flR.val (mhat (V3.normalize (rays.get i).direction) k l) -
        dm (vray flR (rays.get i)) k l) (dm (vray flR (rays.get i)) k l)
      rw [sub_add_cancel] at this
      have h1 := mn i k l
      have h2 := db i k l
      linarith
    · linarith
  set Ŝ : Matrix (Fin 3) (Fin 3) ℝ := Matrix.of fun i j => flF.val (S i j) with hŜ
  set S₀ := sMat (rays.map (vray flR)) with hS₀
  have hŜ1 : ∀ w : Vec, len (Ŝ *ᵥ w - S₀ *ᵥ w) ≤ 48 * K * u * len w :=
    smat_near mR cv huR hu1 hωR hL2 hLu h2 hN hgood hS hSf hmf
  -- the right-hand side
  have hCt : ∀ k, |flR.val (F64Conv.ofF64 (C k) : R) - cVec (rays.map (vray flR)) k| ≤
      57 * K * u * M ∧ |flR.val (F64Conv.ofF64 (C k) : R)| ≤ 4 * N * M := by
    intro k
    have e1 := (cv.ofF (hfj 0 k).2).2
    have e2 := hC1 k
    have e3 := hcV k
    have e4 : 54 * K * u * M ≤ 54 / 100 * N * M := by
      have := mul_le_mul_of_nonneg_right hNNu hM0
      nlinarith
    have hNM : 2 * M ≤ N * M := by gcongr
    have e5 : |flF.val (C k)| ≤ 354 / 100 * N * M := by
      have := abs_add_le (flF.val (C k) - cVec (rays.map (vray flR)) k) (cVec (rays.map (vray flR)) k)
      rw [sub_add_cancel] at this
      linarith
    have e6 : flR.u * (|flF.val (C k)| + flR.ω) ≤ u * (6 * N * M) := by
      gcongr
      linarith
    have e7 : u * (6 * N * M) ≤ 3 * K * u * M := by
      have := mul_le_mul_of_nonneg_right hN2u hM0
      nlinarith
    have e8 := abs_sub_le (flR.val (F64Conv.ofF64 (C k) : R)) (flF.val (C k))
      (cVec (rays.map (vray flR)) k)
    have e9 : 57 * K * u * M ≤ 57 / 100 * N * M := by
      have := mul_le_mul_of_nonneg_right hNNu hM0
      nlinarith
    refine ⟨by linarith, ?_⟩
    have := abs_add_le (flR.val (F64Conv.ofF64 (C k) : R) - cVec (rays.map (vray flR)) k)
      (cVec (rays.map (vray flR)) k)
    rw [sub_add_cancel] at this
    have : 0 ≤ N * M := by positivity
    linarith
  refine ⟨S, p, fun k => flR.val (F64Conv.ofF64 (C k) : R), h2, hSf, hŜ1, hp,
    fun i j => (cv.ofF (hfj i j).1).1, fun k => (hCt k).1, fun P Z hωZ hZN hPe hpP => ?_⟩
  have hZ0 : 0 ≤ Z := (abs_nonneg _).trans (hPe 0 0)
  have hPt : ∀ i j, |flR.val (F64Conv.ofF64 (p i j) : R) - P i j| ≤ Z * (7 * ρ + 30 * u) := by
    intro i j
    have e1 := (cv.ofF (hfj i j).1).2
    have e2 := hpP i j
    have e3 : |flF.val (p i j)| ≤ Z * (66 / 10 * ρ + 27 * u) + Z := by
      have := abs_add_le (flF.val (p i j) - P i j) (P i j)
      rw [sub_add_cancel] at this
      have := hPe i j
      linarith
    have e4 : flR.u * (|flF.val (p i j)| + flR.ω) ≤ u * (Z * (66 / 10 * ρ + 27 * u) + Z + Z) := by
      gcongr
    have e5 := abs_sub_le (flR.val (F64Conv.ofF64 (p i j) : R)) (flF.val (p i j)) (P i j)
    have e6 : u * (66 / 10 * ρ + 27 * u + 2) ≤ u * (24 / 10) := by
      gcongr; linarith
    have e7 := mul_le_mul_of_nonneg_left e6 hZ0
    nlinarith
  set Ĉ : Vec := fun k => flR.val (F64Conv.ofF64 (C k) : R) with hĈ
  intro j
  have h1 := hf j
  rw [hpt] at h1 ⊢
  have hPC : (P *ᵥ Ĉ) j = P j 0 * Ĉ 0 + P j 1 * Ĉ 1 + P j 2 * Ĉ 2 := by
    simp only [mulVec, dotProduct, Fin.sum_univ_three]
  rw [hPC]
  exact row_near huR hu1 hρ0 hρ hωM (by linarith) hZN
    (x := fun k => F64Conv.ofF64 (p j k)) (y := fun k => F64Conv.ofF64 (C k)) (P := fun k => P j k)
    (hPt j) (hPe j) (fun k => (hCt k).2) h1

set_option maxHeartbeats 2000000 in
/-- The rounding error of `best_intersection_of_rays`, given that the decomposition of the one matrix computed
from the rays is backward stable. -/
theorem rays_rounding {flR : Rounding R} {flF : Rounding F} (mR : RoundingMore flR)
    (mF : RoundingMore flF) (cv : RoundingConv flR flF) {u ρ η M L : ℝ} (huR : flR.u ≤ u) (huF : flF.u ≤ u)
    {trySvd : TrySvd F} (hρ0 : 0 ≤ ρ) (hρ : ρ ≤ 1 / 100) (hη0 : 0 ≤ η)
    (hωR : flR.ω ≤ 1) (hωF : flF.ω ≤ 1) (hωM : flR.ω ≤ M)
    {rays : List (Ray Coords R)} (hL2 : 2 ≤ L) (hLu : L * u ≤ 1 / 100)
    (hN : rays.length * flF.u ≤ L * u) (hbig : 4 * rays.length ≤ mF.big)
    (hgood : ∀ r ∈ rays, GoodRay flR r) (hM : ∀ r ∈ rays, ∀ a, |flR.val (r.center a)| ≤ M)
    {a b : Ray Coords R} (ha : a ∈ rays) (hb : b ∈ rays)
    (hκ : 101 / 1000000000 < 1 - absCos (vray flR a).direction (vray flR b).direction -
      48 * (rays.length * L) * u - 2 * rays.length * η)
    (hsvd : ∀ (S : Mat 3 3 F) (d : SVD F), 2 ≤ rays.length → (∀ i j, flF.isFinite (S i j)) →
      (∀ w : Vec, len (Matrix.of (fun i j => flF.val (S i j)) *ᵥ w - sMat (rays.map (vray flR)) *ᵥ w) ≤
        48 * (rays.length * L) * u * len w) →
      (∀ w : Vec, len (Matrix.of (fun i j => flF.val (S i j)) *ᵥ w) ≤ 2 * rays.length * len w) →
      (∀ w : Vec, η * (2 * rays.length) * len w ≤ len (Matrix.of (fun i j => flF.val (S i j)) *ᵥ w)) →
      trySvd S true true (Scalar.lit (1 / 10000000)) 100 = some d → SvdStableAt flF ρ η (2 * rays.length) S d)
    {x : Vec} (hx : LeastSquares (rays.map (vray flR)) x) {pt : Points Coords R 1}
    (h : bestIntersectionOfRays trySvd rays = .ok pt) (hf : ∀ j, flR.isFinite (pt.data 0 j)) :
    distance (fun j => flR.val (pt.data 0 j)) x ≤
      (520 * (rays.length * L) * u + 168 * rays.length * ρ + 2 * rays.length * η) /
        (1 - absCos (vray flR a).direction (vray flR b).direction - 48 * (rays.length * L) * u -
          2 * rays.length * η) * (M + len x) := by
  have huR0 := flR.u_nonneg
  have hωR0 := flR.ω_nonneg
  have hu0 : 0 ≤ u := huR0.trans huR
  have hM0 : 0 ≤ M := hωR0.trans hωM
  obtain ⟨S, p, Ĉ, h2, hSf, hŜ1, hp, hpf, hCt, hrow⟩ := rays_parts mR mF cv huR hρ0 hρ hωR hωM hL2 hLu hN hbig hgood
    hM h hf
  set N : ℝ := (rays.length : ℝ) with hNd
  have hN2 : 2 ≤ N := by rw [hNd]; exact_mod_cast h2
  have hu1 : u ≤ 1 / 200 := by nlinarith
  have hNu : 0 ≤ N * u := by positivity
  set K := N * L with hK
  have hN2u : N * u ≤ K * u / 2 := by rw [hK]; nlinarith
  have hNNu : K * u ≤ N / 100 := by
    rw [hK, mul_assoc]
    have := mul_le_mul_of_nonneg_left hLu (show 0 ≤ N by linarith)
    linarith
  have hK0 : 0 ≤ K := by positivity
  set Ŝ : Matrix (Fin 3) (Fin 3) ℝ := Matrix.of fun i j => flF.val (S i j) with hŜ
  set S₀ := sMat (rays.map (vray flR)) with hS₀
  set c := absCos (vray flR a).direction (vray flR b).direction with hcd
  have hne : ∀ r ∈ rays.map (vray flR), r.direction ≠ 0 := by
    intro r hr
    obtain ⟨r', hr', rfl⟩ := List.mem_map.1 hr
    exact (hgood r' hr').ne
  have hμ : ∀ w : Vec, len (Ŝ *ᵥ w) ≤ 2 * N * len w := by
    intro w
    have e1 := len_sMat_le hne w
    rw [List.length_map, ← hNd, ← hS₀] at e1
    have e2 := len_add_le (Ŝ *ᵥ w - S₀ *ᵥ w) (S₀ *ᵥ w)
    rw [sub_add_cancel] at e2
    have e3 := hŜ1 w
    have e4 : 48 * K * u * len w ≤ N * len w := by
      have := len_nonneg w
      gcongr
      linarith
    linarith
  have hc0 : 0 ≤ c := by
    rw [hcd, absCos]
    exact div_nonneg (abs_nonneg _) (mul_nonneg (len_nonneg _) (len_nonneg _))
  set κ := 1 - c - 48 * K * u - 2 * N * η with hκd
  have hp1 : 0 ≤ 48 * K * u := by positivity
  have hp2 : 0 ≤ 2 * N * η := by positivity
  have hκ1 : κ ≤ 1 := by rw [hκd]; linarith
  have hκ0 : 0 < κ := by linarith
  have hst : ∀ w : Vec, (κ + η * (2 * N)) * len w ≤ len (Ŝ *ᵥ w) := by
    intro w
    have e1 := stretch_bound (quad_bound (List.mem_map_of_mem ha) (List.mem_map_of_mem hb)
      (hne _ (List.mem_map_of_mem ha)) (hne _ (List.mem_map_of_mem hb))
      (show c < 1 by linarith) w)
    rw [← hcd, ← hS₀] at e1
    have e2 := len_add_le (Ŝ *ᵥ w) (-(Ŝ *ᵥ w - S₀ *ᵥ w))
    rw [len_neg, neg_sub, add_sub_cancel] at e2
    have e3 := hŜ1 w
    rw [hκd]
    linarith
  obtain ⟨M', P, hPM, hM', hP, hpP⟩ := pinv_near mF huF (by linarith) hρ hωF hp
    (fun d => hsvd S d h2 hSf hŜ1 hμ fun w => le_trans (by
      have := mul_nonneg hκ0.le (len_nonneg w)
      linarith) (hst w)) hst hκ hκ1
  set Z := 1 / κ with hZ
  have hZ1 : 1 ≤ Z := by rw [hZ, le_div_iff₀ hκ0]; linarith
  have hZ0 : 0 ≤ Z := by linarith
  -- the entries of the inverse
  have hPe : ∀ i j, |P i j| ≤ Z := by
    intro i j
    have e1 := hP (Pi.single j 1)
    rw [len_single _ _ zero_le_one, _root_.mul_one] at e1
    have e2 := abs_coord_le (P *ᵥ Pi.single j 1) i
    have e3 : (P *ᵥ Pi.single j 1) i = P i j := by simp
    rw [e3] at e2
    exact e2.trans e1
  have hr := hrow P Z (hωR.trans hZ1) (by nlinarith) hPe fun i j => hpP i j (hpf i j)
  set Q := Z * (N * M) with hQ
  -- putting things together
  have hxn : S₀ *ᵥ x = cVec (rays.map (vray flR)) := (leastSquares_iff hne x).1 hx
  have hL0 := len_nonneg x
  have d1 : len ((fun j => flR.val (pt.data 0 j)) - P *ᵥ Ĉ) ≤ 2 * (Q * (84 * ρ + 403 * u)) :=
    len_le_entries fun j => hr j
  have d2 : len (Ĉ - cVec (rays.map (vray flR))) ≤ 2 * (57 * K * u * M) :=
    len_le_entries fun k => hCt k
  have d3 : len (Ĉ - M' *ᵥ x) ≤ 114 * K * u * M + (48 * K * u + 2 * N * η) * len x := by
    have e1 : Ĉ - M' *ᵥ x = (Ĉ - cVec (rays.map (vray flR))) +
        (-(Ŝ *ᵥ x - S₀ *ᵥ x) + -(M' *ᵥ x - Ŝ *ᵥ x)) := by rw [← hxn]; abel
    rw [e1]
    refine (len_add_le _ _).trans ?_
    have e2 := len_add_le (-(Ŝ *ᵥ x - S₀ *ᵥ x)) (-(M' *ᵥ x - Ŝ *ᵥ x))
    rw [len_neg, len_neg] at e2
    have e3 := hŜ1 x
    have e4 := hM' x
    linarith
  have d4 : len (P *ᵥ Ĉ - x) ≤ Z * (114 * K * u * M + (48 * K * u + 2 * N * η) * len x) := by
    have e1 : P *ᵥ Ĉ - x = P *ᵥ (Ĉ - M' *ᵥ x) := by
      rw [mulVec_sub, mulVec_mulVec, hPM, one_mulVec]
    rw [e1]
    exact (hP _).trans (mul_le_mul_of_nonneg_left d3 hZ0)
  have d5 : distance (fun j => flR.val (pt.data 0 j)) x ≤
      Z * (114 * K * u * M + (48 * K * u + 2 * N * η) * len x) +
        2 * (Q * (84 * ρ + 403 * u)) := by
    have e1 := len_add_le ((fun j => flR.val (pt.data 0 j)) - P *ᵥ Ĉ) (P *ᵥ Ĉ - x)
    rw [sub_add_sub_cancel] at e1
    rw [distance]
    linarith
  refine d5.trans ?_
  have e1 : (520 * K * u + 168 * N * ρ + 2 * N * η) / κ * (M + len x) =
      Z * ((520 * K * u + 168 * N * ρ + 2 * N * η) * (M + len x)) := by rw [hZ]; ring
  rw [e1, hQ]
  have e2 : Z * (114 * K * u * M + (48 * K * u + 2 * N * η) * len x) +
      2 * (Z * (N * M) * (84 * ρ + 403 * u)) =
      Z * (114 * K * u * M + (48 * K * u + 2 * N * η) * len x +
        (168 * N * ρ * M + 806 * (N * u) * M)) := by ring
  rw [e2]
  refine mul_le_mul_of_nonneg_left ?_ hZ0
  have e3 := mul_le_mul_of_nonneg_right hN2u hM0
  have e4 : 0 ≤ N * η * len x := by positivity
  have e5 : 0 ≤ K * u * len x := by positivity
  have e6 : 0 ≤ N * η * M := by positivity
  have e6' : 0 ≤ N * ρ * M := by positivity
  have e4' : 0 ≤ N * ρ * len x := by positivity
  have e7 : 0 ≤ K * u * M := by positivity
  nlinarith

/-- C69: rounding error bound of `best_intersection_of_rays`.

`N` rays, unit roundoffs of both the scalar type and `f64` at most `u`, centre coordinates at most `M` in
magnitude, a singular value decomposition that is backward stable with error `η`, and two rays of angle
`θ`: a finite result is within
`(520 N² u + 170 N η) / (1 - |cos θ| - 48 N² u - 2 N η) * (M + |x|)`
of the exact least-squares intersection `x` of the given rays.  The directions must not be so long or
short that their squared lengths overflow or underflow (`GoodRay`). -/
theorem c69_rounding_bound {flR : Rounding R} {flF : Rounding F} (mR : RoundingMore flR)
    (mF : RoundingMore flF) (cv : RoundingConv flR flF) {u η M : ℝ} (huR : flR.u ≤ u) (huF : flF.u ≤ u)
    {trySvd : TrySvd F} (hsvd : SvdBackwardStable flF η trySvd) (hη0 : 0 ≤ η) (hη : η ≤ 1 / 100)
    (hωR : flR.ω ≤ 1) (hωF : flF.ω ≤ 1) (hωM : flR.ω ≤ M)
    {rays : List (Ray Coords R)} (hN : rays.length * u ≤ 1 / 100) (hbig : 4 * rays.length ≤ mF.big)
    (hgood : ∀ r ∈ rays, GoodRay flR r) (hM : ∀ r ∈ rays, ∀ a, |flR.val (r.center a)| ≤ M)
    {a b : Ray Coords R} (ha : a ∈ rays) (hb : b ∈ rays)
    (hκ : 101 / 1000000000 < 1 - absCos (vray flR a).direction (vray flR b).direction -
      48 * rays.length ^ 2 * u - 2 * rays.length * η)
    {x : Vec} (hx : LeastSquares (rays.map (vray flR)) x) {pt : Points Coords R 1}
    (h : bestIntersectionOfRays trySvd rays = .ok pt) (hf : ∀ j, flR.isFinite (pt.data 0 j)) :
    distance (fun j => flR.val (pt.data 0 j)) x ≤
      (520 * rays.length ^ 2 * u + 170 * rays.length * η) /
        (1 - absCos (vray flR a).direction (vray flR b).direction - 48 * rays.length ^ 2 * u -
          2 * rays.length * η) * (M + len x) := by
  have hN2 : (2 : ℝ) ≤ rays.length := by exact_mod_cast (best_ok_float h).1
  refine (rays_rounding mR mF cv huR huF hη0 hη hη0 hωR hωF hωM hN2 hN (by gcongr) hbig hgood hM ha hb
    (by rwa [← sq]) ?_ hx h hf).trans_eq (by ring)
  exact fun S d _ hS _ hμ _ hd => hsvd S _ _ d _ hd hS hμ

end

/-! ## The hypotheses are satisfiable -/

namespace Fp64

theorem rnd_neg_two : rnd (-2) = -2 := by
  unfold rnd ulp
  rw [show |(-2 : ℝ)| = ((2 : ℕ) : ℝ) ^ (1 : ℤ) by norm_num, Int.log_zpow (by norm_num)]
  rw [show (-2 : ℝ) / 2 ^ ((1 : ℤ) - 52) = ((-2 ^ 52 : ℤ) : ℝ) by norm_num, round_intCast]
  norm_num

theorem rnd_half : rnd (1 / 2) = 1 / 2 := by
  unfold rnd ulp
  rw [show |(1 / 2 : ℝ)| = ((2 : ℕ) : ℝ) ^ (-1 : ℤ) by norm_num, Int.log_zpow (by norm_num)]
  rw [show (1 / 2 : ℝ) / 2 ^ ((-1 : ℤ) - 52) = ((2 ^ 52 : ℤ) : ℝ) by norm_num, round_intCast]
  norm_num

theorem rnd_neg_half : rnd (-1 / 2) = -1 / 2 := by
  unfold rnd ulp
  rw [show |(-1 / 2 : ℝ)| = ((2 : ℕ) : ℝ) ^ (-1 : ℤ) by norm_num, Int.log_zpow (by norm_num)]
  rw [show (-1 / 2 : ℝ) / 2 ^ ((-1 : ℤ) - 52) = ((-2 ^ 52 : ℤ) : ℝ) by norm_num, round_intCast]
  norm_num

theorem fl_neg_two : fl (-2) = some (-2) := by rw [fl_finite (by norm_num), rnd_neg_two]
theorem fl_half : fl (1 / 2) = some (1 / 2) := by rw [fl_finite (by norm_num [abs_le]), rnd_half]
theorem fl_neg_half : fl (-1 / 2) = some (-1 / 2) := by
  rw [fl_finite (by norm_num [abs_le]), rnd_neg_half]

/-- The remaining laws hold as well. -/
noncomputable def roundingMore : RoundingMore rounding where
  big := 100
  sqrt := by
    rintro (x | _) h
    · change Finite' (if x < 0 then none else fl (Real.sqrt x)) at h
      refine ⟨trivial, ?_⟩
      by_cases hx : x < 0
      · rw [if_pos hx] at h; exact h.elim
      · rw [if_neg hx] at h
        refine ⟨not_lt.1 hx, ?_⟩
        change |val (if x < 0 then none else fl (Real.sqrt x)) - Real.sqrt x| ≤ 2⁻¹ ^ 53 * Real.sqrt x
        rw [if_neg hx]
        have := fl_err h
        rwa [abs_of_nonneg (Real.sqrt_nonneg x)] at this
    · exact h.elim
  powi_two := by
    rintro (x | _) h
    · refine ⟨trivial, ?_⟩
      have := fl_err (x := x ^ (2 : ℤ)) h
      change |val (fl (x ^ (2 : ℤ))) - x * x| ≤ 2⁻¹ ^ 53 * (|x * x| + 0)
      rw [_root_.add_zero, ← zpow_two]
      exact this
    · exact h.elim
  lit_neg_one := ⟨trivial, by simp [Scalar.lit, rounding, val]⟩
  lit_cutoff := ⟨trivial, by
    change |((1 / 10000000 : ℚ) : ℝ) - 1 / 10000000| ≤ 2⁻¹ ^ 53 * (1 / 10000000)
    push_cast
    rw [sub_self, abs_zero]; positivity⟩
  lt_iff := by
    rintro (x | _) (y | _) hx hy
    · change decide (x < y) = true ↔ x < y
      exact decide_eq_true_iff
    all_goals first | exact hx.elim | exact hy.elim
  add_finite := by
    rintro (x | _) (y | _) hx hy h
    · change Finite' ((some x : Fp64) + (some y : Fp64))
      rw [add_some]
      split_ifs
      · trivial
      · trivial
      · rw [fl_finite (x := x + y) h]; trivial
    all_goals first | exact hx.elim | exact hy.elim

/-- `Fp64` is also its own `f64`. -/
instance : F64Conv Fp64 Fp64 := ⟨Option.some, id⟩

theorem roundingConv : RoundingConv rounding rounding where
  toF_finite h := ⟨_, rfl, h⟩
  toF := by
    intro x y h hf
    cases h
    exact ⟨hf, rfl⟩
  ofF := by
    intro y h
    refine ⟨h, ?_⟩
    change |val y - val y| ≤ 2⁻¹ ^ 53 * (|val y| + 0)
    rw [sub_self, abs_zero]; positivity

/-- The matrix of the example. -/
noncomputable def exS : Mat 3 3 Fp64 :=
  ![![some (-1), some 0, some 0], ![some 0, some (-1), some 0], ![some 0, some 0, some (-2)]]

/-- Its decomposition. -/
noncomputable def exD : SVD Fp64 where
  u := Option.some ![![some (-1), some 0, some 0], ![some 0, some (-1), some 0], ![some 0, some 0, some (-1)]]
  vT := Option.some ![![some 1, some 0, some 0], ![some 0, some 1, some 0], ![some 0, some 0, some 1]]
  singularValues := ![some 1, some 1, some 2]

open Classical in
/-- A decomposition that succeeds on that matrix. -/
noncomputable def exFpSvd : TrySvd Fp64 := fun M _ _ _ _ => if M = exS then Option.some exD else Option.none

theorem exFpSvd_stable : SvdBackwardStable rounding 0 exFpSvd := by
  intro M eps k d μ h _ _
  unfold exFpSvd at h
  split_ifs at h with hM
  cases h
  subst hM
  refine ⟨_, _, -1, 1, rfl, rfl, ?_, ?_, ?_, by simp, by simp, ?_⟩
  · intro i j
    fin_cases i <;> fin_cases j <;> exact ⟨trivial, by simp [rounding, val]⟩
  · intro i j
    fin_cases i <;> fin_cases j <;> exact ⟨trivial, by simp [rounding, val]⟩
  · intro i
    fin_cases i <;> exact ⟨trivial, by simp [rounding, val, exD]⟩
  · intro w
    have : (-1 * diagonal (fun i => rounding.val (exD.singularValues i)) * 1 : Matrix (Fin 3) (Fin 3) ℝ) =
        Matrix.of fun i j => rounding.val (exS i j) := by
      ext i j
      fin_cases i <;> fin_cases j <;> simp [rounding, val, exD, exS]
    rw [this, sub_self]
    have : len (0 : Vec) = 0 := len_eq_zero.2 rfl
    rw [this]; simp

/-- The rays of the example: along the x axis, and parallel to the y axis through `(0, 0, 1)`. -/
noncomputable def exRays : List (Ray WorldFrame Fp64) :=
  [⟨![some 0, some 0, some 0], ![some 1, some 0, some 0]⟩,
   ⟨![some 0, some 0, some 1], ![some 0, some 1, some 0]⟩]

theorem exRays_norm : ∀ r ∈ exRays, V3.norm r.direction = some 1 := by
  intro r hr
  simp only [exRays, List.mem_cons, List.not_mem_nil, or_false] at hr
  have e : (Scalar.sqrt (some 1) : Fp64) = some 1 := by
    change (if (1 : ℝ) < 0 then none else fl (Real.sqrt 1)) = _
    rw [if_neg (by norm_num), Real.sqrt_one, fl_one]
  rcases hr with rfl | rfl <;> simp [V3.norm, V3.normSq, mul_some, add_some, e]

theorem exRays_normalize : ∀ r ∈ exRays, V3.normalize r.direction = r.direction := by
  intro r hr
  unfold V3.normalize
  rw [exRays_norm r hr]
  simp only [exRays, List.mem_cons, List.not_mem_nil, or_false] at hr
  funext a
  rcases hr with rfl | rfl <;> fin_cases a <;> simp [div_some]

theorem sum2 (x : Fin exRays.length → Fp64) :
    (sumAsF64 x : Outcome Fp64) = .ok (some 0 + x ⟨0, by decide⟩ + x ⟨1, by decide⟩) := rfl

theorem exRays_ok : ∃ pt, bestIntersectionOfRays exFpSvd exRays = .ok pt ∧
    ∀ j, rounding.isFinite (pt.data 0 j) := by
  have hd : ∀ i, V3.normalize (exRays.get i).direction = (exRays.get i).direction := fun i =>
    exRays_normalize _ (List.get_mem _ _)
  have bd : ∀ {α β : Type} (a : α) (f : α → Outcome β), (Outcome.ok a >>= f) = f a := fun _ _ => rfl
  have g0 : exRays.get ⟨0, by decide⟩ = ⟨![some 0, some 0, some 0], ![some 1, some 0, some 0]⟩ := rfl
  have g1 : exRays.get ⟨1, by decide⟩ = ⟨![some 0, some 0, some 1], ![some 0, some 1, some 0]⟩ := rfl
  have p1 : (Scalar.powi (some 1 : Fp64) 2) = some 1 := by
    change fl ((1 : ℝ) ^ (2 : ℤ)) = _
    rw [_root_.one_zpow, fl_one]
  have p0 : (Scalar.powi (some 0 : Fp64) 2) = some 0 := by
    change fl ((0 : ℝ) ^ (2 : ℤ)) = _
    rw [_root_.zero_zpow _ (by norm_num), fl_zero]
  have l1 : (Scalar.lit (-1) : Fp64) = some (-1) := by
    change some (((-1 : ℚ)) : ℝ) = _
    push_cast; rfl
  have lc : (Scalar.lit (1 / 10000000) : Fp64) = some (1 / 10000000) := by
    change some (((1 / 10000000 : ℚ)) : ℝ) = _
    push_cast; rfl
  have lt0 : ∀ x y : ℝ, Scalar.lt (some x) (some y) = decide (x < y) := fun _ _ => rfl
  have z : (0 : Fp64) = some 0 := rfl
  have o : (1 : Fp64) = some 1 := rfl
  have nt : (-1 + -1 : ℝ) = -2 := by norm_num
  have pv : exD.pseudoInverse (Scalar.lit (1 / 10000000)) = .ok
      ![![some (-1), some 0, some 0], ![some 0, some (-1), some 0], ![some 0, some 0, some (-1 / 2)]] := by
    have hlt : ∀ k, Scalar.lt (some (1 / 10000000)) (exD.singularValues k) = true := by
      intro k
      fin_cases k <;> simp [exD, lt0] <;> norm_num
    have h2 : (some 1 : Fp64) / some 2 = some (1 / 2) := by rw [div_some]; norm_num [fl_half]
    have h3 : fl (-2⁻¹) = some (-1 / 2) := by
      rw [show (-2⁻¹ : ℝ) = -1 / 2 by norm_num, fl_neg_half]
    have h4 : (some 1 : Fp64) / some 1 = some 1 := by rw [div_some]; norm_num
    have hm : (-1 : ℝ) ≠ 1 := by norm_num
    have hm' : (-1 / 2 : ℝ) ≠ 1 := by norm_num
    simp only [SVD.pseudoInverse]
    have h5 := pinv_loop_float hlt
    simp only [z, o] at h5
    rw [lc, z, lt0, if_neg (by norm_num), o, h5]
    simp only [exD, SVD.recompose]
    refine congrArg Except.ok ?_
    funext i j
    fin_cases i <;> fin_cases j <;>
      simp [Mat.mul3, Mat.transpose', h2, h3, h4, mul_some, add_some, hm, hm']
  unfold bestIntersectionOfRays
  rw [if_neg (by decide)]
  simp only [zipLoop_eq, lineDirs_eq, linePoints_eq, hd, sum2, g0, g1, bd]
  simp [p1, p0, l1, add_some, mul_some, nt, fl_neg_two]
  have hp : myPinv exFpSvd ![![some (-1), some 0, some 0], ![some 0, some (-1), some 0],
      ![some 0, some 0, some (-2)]] = .ok
      ![![some (-1), some 0, some 0], ![some 0, some (-1), some 0], ![some 0, some 0, some (-1 / 2)]] := by
    change myPinv exFpSvd exS = _
    unfold myPinv exFpSvd
    rw [if_pos rfl]
    change Outcome.unwrapResult _ = _
    rw [pv]; rfl
  rw [hp, bd]
  refine ⟨_, rfl, ?_⟩
  intro j
  rw [forRange_set_row]
  have e1 : (some (-1 / 2) : Fp64) * some (-1) = some (1 / 2) := by
    rw [mul_some]; norm_num
    exact fl_half
  have hi : ∀ x : Fp64, (F64Conv.ofF64 x : Fp64) = x := fun _ => rfl
  fin_cases j <;>
    simp [Mat.mulVec3, despecialize, fromIterator, asSlice, mul_some, add_some, hi, e1] <;> trivial

end Fp64

/-- C69 is not vacuous: two perpendicular rays. -/
example : ∃ x pt, LeastSquares (Fp64.exRays.map (vray Fp64.rounding)) x ∧
    bestIntersectionOfRays Fp64.exFpSvd Fp64.exRays = .ok pt ∧
    distance (fun j => Fp64.rounding.val (pt.data 0 j)) x ≤ 1 / 10 ^ 12 * (1 + len x) := by
  have hne : ∀ r ∈ Fp64.exRays, vvec Fp64.rounding r.direction ≠ 0 := by
    intro r hr
    simp only [Fp64.exRays, List.mem_cons, List.not_mem_nil, or_false] at hr
    rcases hr with rfl | rfl
    · intro h; have := congrFun h 0; simp [vvec, Fp64.rounding, Fp64.val] at this
    · intro h; have := congrFun h 1; simp [vvec, Fp64.rounding, Fp64.val] at this
  obtain ⟨x, hx⟩ := leastSquares_exists (rays := Fp64.exRays.map (vray Fp64.rounding)) (by
    intro r hr
    obtain ⟨r', hr', rfl⟩ := List.mem_map.1 hr
    exact hne r' hr')
  obtain ⟨pt, hpt, hf⟩ := Fp64.exRays_ok
  refine ⟨x, pt, hx, hpt, ?_⟩
  have hcos : absCos (vray Fp64.rounding (Fp64.exRays.get ⟨0, by decide⟩)).direction
      (vray Fp64.rounding (Fp64.exRays.get ⟨1, by decide⟩)).direction = 0 := by
    simp [absCos, dotProduct, Fin.sum_univ_three, vray, vvec, Fp64.exRays, Fp64.rounding, Fp64.val]
  have hl : ((Fp64.exRays.length : ℕ) : ℝ) = 2 := by norm_num [Fp64.exRays]
  have := c69_rounding_bound Fp64.roundingMore Fp64.roundingMore Fp64.roundingConv (u := 2⁻¹ ^ 53)
    (η := 0) (M := 1) le_rfl le_rfl Fp64.exFpSvd_stable le_rfl (by norm_num) zero_le_one zero_le_one
    zero_le_one (rays := Fp64.exRays) (by rw [hl]; norm_num)
    (by rw [hl]; change 4 * (2 : ℝ) ≤ 100; norm_num)
    (fun r hr => ⟨hne r hr, by
      change 3 * (0 : ℝ) ≤ _
      rw [MulZeroClass.mul_zero]; positivity, by rw [Fp64.exRays_norm r hr]; trivial⟩)
    (by
      intro r hr a
      simp only [Fp64.exRays, List.mem_cons, List.not_mem_nil, or_false] at hr
      rcases hr with rfl | rfl <;> fin_cases a <;> simp [Fp64.rounding, Fp64.val])
    (List.get_mem _ _) (List.get_mem _ _) (by rw [hcos, hl]; norm_num) hx hpt hf
  rw [hcos, hl] at this
  refine this.trans ?_
  have hl0 := len_nonneg x
  refine mul_le_mul_of_nonneg_right ?_ (by linarith)
  norm_num

end CamGeom
