import Verif.Props.FloatRays
import Verif.Props.NearRays

/-!
# C89: parallel and nearly parallel rays in floating point
-/

namespace CamGeom
open Spec Matrix Rounding
open SvdNear (Broad EpsNear)

section
variable {U V S₀ : Matrix (Fin 3) (Fin 3) ℝ} {σ : Vec}

/-- The singular values with the last one dropped. -/
noncomputable def dropInv (σ : Vec) : Vec := ![1 / σ 0, 1 / σ 1, 0]

/-- The pseudo-inverse without the last singular value. -/
noncomputable def dropPinv (U V : Matrix (Fin 3) (Fin 3) ℝ) (σ : Vec) : Matrix (Fin 3) (Fin 3) ℝ :=
  V.transpose * diagonal (dropInv σ) * U.transpose

theorem len_diag_le {κ : ℝ} {τ : Vec} (h : ∀ k, |τ k| ≤ κ) (w : Vec) : len (diagonal τ *ᵥ w) ≤ κ * len w := by
  have hκ : 0 ≤ κ := (abs_nonneg _).trans (h 0)
  refine le_of_sq_le_sq ?_ (mul_nonneg hκ (len_nonneg w))
  rw [mul_pow, len_sq, len_sq]
  simp only [dotProduct, Fin.sum_univ_three, mulVec_diagonal]
  have q : ∀ k, τ k * w k * (τ k * w k) ≤ κ ^ 2 * (w k * w k) := fun k => by
    have h1 := pow_le_pow_left₀ (abs_nonneg _) (h k) 2
    rw [sq_abs] at h1
    have h2 := mul_le_mul_of_nonneg_right h1 (mul_self_nonneg (w k))
    linarith
  linarith [q 0, q 1, q 2]

theorem dropPinv_len (hU : U.transpose * U = 1) (hV : V * V.transpose = 1) {κ : ℝ} (hκ : 0 < κ) (h0 : κ ≤ σ 0)
    (h1 : κ ≤ σ 1) (w : Vec) : len (dropPinv U V σ *ᵥ w) ≤ 1 / κ * len w := by
  have hV' : (V.transpose).transpose * V.transpose = 1 := by rw [transpose_transpose, hV]
  have hU' : (U.transpose).transpose * U.transpose = 1 := by rw [transpose_transpose]; exact mul_eq_one_comm.1 hU
  rw [dropPinv, Matrix.mul_assoc, ← mulVec_mulVec, ← mulVec_mulVec, len_orth hV']
  refine (len_diag_le (κ := 1 / κ) (fun k => ?_) _).trans (le_of_eq (by rw [len_orth hU']))
  have p : ∀ {s : ℝ}, κ ≤ s → |1 / s| ≤ 1 / κ := fun {s} hs => by
    rw [abs_of_pos (one_div_pos.2 (hκ.trans_le hs))]
    exact one_div_le_one_div_of_le hκ hs
  fin_cases k
  · exact p h0
  · exact p h1
  · show |(0 : ℝ)| ≤ 1 / κ
    rw [abs_zero]
    positivity

/-- The pseudo-inverse undoes the matrix except for the dropped direction. -/
theorem dropPinv_mul (hU : U.transpose * U = 1) (hV : V * V.transpose = 1) (h0 : σ 0 ≠ 0) (h1 : σ 1 ≠ 0) (x : Vec) :
    dropPinv U V σ *ᵥ ((U * diagonal ![σ 0, σ 1, 0] * V) *ᵥ x) = x - (V 2 ⬝ᵥ x) • V 2 := by
  have hV' := mul_eq_one_comm.1 hV
  have e1 : dropPinv U V σ * (U * diagonal ![σ 0, σ 1, 0] * V) =
      V.transpose * (1 - diagonal ![0, 0, 1]) * V := by
    have hd : diagonal (dropInv σ) * diagonal ![σ 0, σ 1, 0] = 1 - diagonal ![0, 0, 1] := by
      rw [diagonal_mul_diagonal, ← diagonal_one, diagonal_sub]
      congr 1
      funext k
      fin_cases k <;> simp [dropInv, h0, h1]
    calc dropPinv U V σ * (U * diagonal ![σ 0, σ 1, 0] * V)
        = V.transpose * (diagonal (dropInv σ) * (U.transpose * U) * diagonal ![σ 0, σ 1, 0]) * V := by
          simp only [dropPinv, Matrix.mul_assoc]
      _ = _ := by rw [hU, Matrix.mul_one, hd]
  rw [mulVec_mulVec, e1, Matrix.mul_sub, Matrix.mul_one, Matrix.sub_mul, hV', sub_mulVec, one_mulVec]
  congr 1
  funext i
  simp only [mulVec, dotProduct, Fin.sum_univ_three, Pi.smul_apply, smul_eq_mul, mul_apply, diagonal, of_apply,
    transpose_apply]
  simp
  ring

/-- The difference of two projections onto nearly equal directions. -/
theorem proj_diff {β v : Vec} {s : ℝ} (hv : v ⬝ᵥ v = 1) (hβ : β ⬝ᵥ β = 1) (hs : len (β - (v ⬝ᵥ β) • v) ≤ s) (x : Vec) :
    len ((β ⬝ᵥ x) • β - (v ⬝ᵥ x) • v) ≤ (2 * s + s ^ 2) * len x := by
  set c := v ⬝ᵥ β with hc
  set w := β - c • v with hw
  have hs0 : 0 ≤ s := (len_nonneg _).trans hs
  have hb : β = c • v + w := by rw [hw]; abel
  have hww : len w ^ 2 = 1 - c ^ 2 := by
    rw [len_sq, hw]
    simp only [sub_dotProduct, dotProduct_sub, smul_dotProduct, dotProduct_smul, smul_eq_mul, hv, hβ,
      dotProduct_comm β v, ← hc]
    ring
  have lv : len v = 1 := by rw [len_eq, hv, Real.sqrt_one]
  have lβ : len β = 1 := by rw [len_eq, hβ, Real.sqrt_one]
  have e : (β ⬝ᵥ x) • β - (v ⬝ᵥ x) • v = (β ⬝ᵥ x) • w + (c * (w ⬝ᵥ x) - len w ^ 2 * (v ⬝ᵥ x)) • v := by
    have e1 : β ⬝ᵥ x = c * (v ⬝ᵥ x) + w ⬝ᵥ x := by
      rw [hw, sub_dotProduct, smul_dotProduct, smul_eq_mul]; ring
    rw [hww]
    funext i
    have e2 := congrFun hb i
    simp only [Pi.sub_apply, Pi.add_apply, Pi.smul_apply, smul_eq_mul] at e2 ⊢
    rw [e1]
    linear_combination (c * (v ⬝ᵥ x) + w ⬝ᵥ x) * e2
  rw [e]
  refine (len_add_le _ _).trans ?_
  rw [len_smul, len_smul, lv, _root_.mul_one]
  have a1 := abs_dot_le β x
  have a2 := abs_dot_le w x
  have a3 := abs_dot_le v x
  have a4 : |c| ≤ 1 := by
    have := abs_dot_le v β
    rwa [lv, lβ, _root_.mul_one] at this
  rw [lβ, _root_.one_mul] at a1
  rw [lv, _root_.one_mul] at a3
  have hx := len_nonneg x
  have b1 : |β ⬝ᵥ x| * len w ≤ len x * s := mul_le_mul a1 hs (len_nonneg _) hx
  have b2 : |w ⬝ᵥ x| ≤ s * len x := a2.trans (mul_le_mul_of_nonneg_right hs hx)
  have b3 : |c * (w ⬝ᵥ x)| ≤ s * len x := by
    rw [abs_mul]
    calc _ ≤ 1 * (s * len x) := mul_le_mul a4 b2 (abs_nonneg _) zero_le_one
      _ = _ := _root_.one_mul _
  have b4 : |len w ^ 2 * (v ⬝ᵥ x)| ≤ s ^ 2 * len x := by
    rw [abs_mul, abs_of_nonneg (sq_nonneg _)]
    exact mul_le_mul (pow_le_pow_left₀ (len_nonneg _) hs 2) a3 (abs_nonneg _) (sq_nonneg s)
  have b5 := abs_sub (c * (w ⬝ᵥ x)) (len w ^ 2 * (v ⬝ᵥ x))
  linarith

/-- The point computed with the last singular value dropped. -/
theorem dropped_near (hU : U.transpose * U = 1) (hV : V * V.transpose = 1) {κ η ν s2 : ℝ} (hκ : 0 < κ) (h0 : κ ≤ σ 0)
    (h1 : κ ≤ σ 1) (h2 : 0 ≤ σ 2) (h2' : σ 2 ≤ s2)
    (hS : ∀ w : Vec, len ((U * diagonal σ * V) *ᵥ w - S₀ *ᵥ w) ≤ η * len w)
    {β : Vec} (hβ : len β = 1) (hν : len (S₀ *ᵥ β) ≤ ν) (x y : Vec) :
    len (dropPinv U V σ *ᵥ y - (x - (β ⬝ᵥ x) • β)) ≤
      (2 * ((ν + η + s2) / κ) + ((ν + η + s2) / κ) ^ 2 + (η + s2) / κ) * len x + 1 / κ * len (y - S₀ *ᵥ x) := by
  set S1 := U * diagonal ![σ 0, σ 1, 0] * V with hS1
  have hV1 : V.transpose * V = 1 := mul_eq_one_comm.1 hV
  have hS1n : ∀ w : Vec, len (S1 *ᵥ w - S₀ *ᵥ w) ≤ (η + s2) * len w := by
    intro w
    have e : S1 *ᵥ w - S₀ *ᵥ w = ((U * diagonal σ * V) *ᵥ w - S₀ *ᵥ w) +
        -(U *ᵥ (diagonal ![0, 0, σ 2] *ᵥ (V *ᵥ w))) := by
      have e1 : (diagonal σ : Matrix (Fin 3) (Fin 3) ℝ) = diagonal ![σ 0, σ 1, 0] + diagonal ![0, 0, σ 2] := by
        rw [diagonal_add]
        congr 1
        funext k
        fin_cases k <;> simp
      rw [e1, hS1, Matrix.mul_add, Matrix.add_mul, add_mulVec, mulVec_mulVec, mulVec_mulVec]
      abel
    rw [e]
    refine (len_add_le _ _).trans ?_
    rw [len_neg, len_orth hU]
    have h3 := len_diag_le (τ := ![0, 0, σ 2]) (κ := s2) (fun k => by
      fin_cases k
      · simpa using h2.trans h2'
      · simpa using h2.trans h2'
      · simpa [abs_of_nonneg h2] using h2') (V *ᵥ w)
    rw [len_orth hV1] at h3
    linarith [hS w]
  have hvv : V 2 ⬝ᵥ V 2 = 1 := by
    have := congrFun (congrFun hV 2) 2
    rw [mul_apply, one_apply, if_pos rfl] at this
    exact this
  have hββ : β ⬝ᵥ β = 1 := by rw [← len_sq, hβ, one_pow]
  have n0 : σ 0 ≠ 0 := (hκ.trans_le h0).ne'
  have n1 : σ 1 ≠ 0 := (hκ.trans_le h1).ne'
  have hang : len (β - (V 2 ⬝ᵥ β) • V 2) ≤ (ν + η + s2) / κ := by
    rw [← dropPinv_mul hU hV n0 n1]
    refine (dropPinv_len hU hV hκ h0 h1 _).trans ?_
    have h3 := hS1n β
    have h4 := len_add_le (S1 *ᵥ β - S₀ *ᵥ β) (S₀ *ᵥ β)
    rw [sub_add_cancel] at h4
    rw [hβ, _root_.mul_one] at h3
    rw [one_div, inv_mul_eq_div]
    exact div_le_div_of_nonneg_right (by linarith) hκ.le
  have hp := proj_diff hvv hββ hang x
  have e : dropPinv U V σ *ᵥ y - (x - (β ⬝ᵥ x) • β) = ((β ⬝ᵥ x) • β - (V 2 ⬝ᵥ x) • V 2) +
      (dropPinv U V σ *ᵥ (y - S₀ *ᵥ x) + -(dropPinv U V σ *ᵥ (S1 *ᵥ x - S₀ *ᵥ x))) := by
    rw [mulVec_sub, mulVec_sub, hS1, dropPinv_mul hU hV n0 n1]
    abel
  rw [e]
  refine (len_add_le _ _).trans ?_
  have a1 := len_add_le (dropPinv U V σ *ᵥ (y - S₀ *ᵥ x)) (-(dropPinv U V σ *ᵥ (S1 *ᵥ x - S₀ *ᵥ x)))
  rw [len_neg] at a1
  have a2 := dropPinv_len hU hV hκ h0 h1 (y - S₀ *ᵥ x)
  have a3 := (dropPinv_len hU hV hκ h0 h1 (S1 *ᵥ x - S₀ *ᵥ x)).trans
    (mul_le_mul_of_nonneg_left (hS1n x) (one_div_pos.2 hκ).le)
  have a4 : 1 / κ * ((η + s2) * len x) = (η + s2) / κ * len x := by ring
  linarith

end

section
variable {F : Type} [Scalar F] {fl : Rounding F}

/-- An entry of the computed pseudo-inverse when the last singular value is dropped. -/
theorem pinv_entry_two {u η κ : ℝ} (hu : fl.u ≤ u) (hu1 : u ≤ 1 / 100) (hη : η ≤ 1 / 100)
    (hκ : 0 < κ) (hω : fl.ω ≤ 1 / κ) {a v : V3 F} {s : Fin 2 → F} {A V : Vec} (ha : ∀ k, |fl.val (a k) - A k| ≤ η)
    (hA : ∀ k, |A k| ≤ 1) (hv : ∀ k, |fl.val (v k) - V k| ≤ η) (hV : ∀ k, |V k| ≤ 1)
    (hs : ∀ k, fl.isFinite (s k)) (hsκ : ∀ k, κ ≤ fl.val (s k)) 
    (hf : fl.isFinite (a 0 * (1 / s 0) * v 0 + a 1 * (1 / s 1) * v 1 + a 2 * 0 * v 2)) :
    |fl.val (a 0 * (1 / s 0) * v 0 + a 1 * (1 / s 1) * v 1 + a 2 * 0 * v 2) -
      (A 0 * (1 / fl.val (s 0)) * V 0 + A 1 * (1 / fl.val (s 1)) * V 1)| ≤ 1 / κ * (66 / 10 * η + 27 * u) := by
  have hu0 := fl.u_nonneg
  have hu0' : 0 ≤ u := hu0.trans hu
  have hη0 : 0 ≤ η := (abs_nonneg _).trans (ha 0)
  obtain ⟨f01, f2, -⟩ := fl.add hf
  obtain ⟨f0, f1, -⟩ := fl.add f01
  have z1 := fl.mul_zero (fl.mul (fl.mul f2).1).1 fl.zero.1 fl.zero.2
  have z2 := fl.zero_mul z1.1 (fl.mul f2).2.1 z1.2
  rw [(fl.add_zero f01 f2 z2.2).2]
  have t0 := term_near hu hu1 hη hκ hω (ha 0) (hA 0) (hv 0) (hV 0) (hs 0) (hsκ 0) f0
  have t1 := term_near hu hu1 hη hκ hω (ha 1) (hA 1) (hv 1) (hV 1) (hs 1) (hsκ 1) f1
  set Z := 1 / κ with hZ
  have hZ0 : 0 ≤ Z := by rw [hZ]; positivity
  have b : ∀ (k : Fin 2) (i : Fin 3), |A i * (1 / fl.val (s k)) * V i| ≤ Z := by
    intro k i
    have hσ : 0 < fl.val (s k) := hκ.trans_le (hsκ k)
    have hi : 1 / fl.val (s k) ≤ Z := one_div_le_one_div_of_le hκ (hsκ k)
    rw [abs_mul, abs_mul, abs_of_pos (show 0 < 1 / fl.val (s k) by positivity)]
    calc |A i| * (1 / fl.val (s k)) * |V i| ≤ 1 * Z * 1 := by
          have h1 := hA i
          have h2 := hV i
          gcongr
      _ = Z := by ring
  have h1 := add_near f01 t0 t1 (show |A 0 * (1 / fl.val (s 0)) * V 0 + A 1 * (1 / fl.val (s 1)) * V 1| ≤ Z + Z from
    (abs_add_le _ _).trans (add_le_add (b 0 0) (b 1 1)))
  refine h1.trans ?_
  have : fl.u * (Z + Z + Z * (22 / 10 * η + 7 * u) + Z * (22 / 10 * η + 7 * u)) ≤
      u * (Z + Z + Z * (22 / 10 * η + 7 * u) + Z * (22 / 10 * η + 7 * u)) := by gcongr
  have e3 : u * (2 + 2 * (22 / 10 * η + 7 * u)) ≤ u * 3 := by
    gcongr; linarith
  have e4 := mul_le_mul_of_nonneg_left e3 hZ0
  nlinarith [mul_nonneg hZ0 hη0, mul_nonneg hZ0 hu0']

end

section
variable {R F : Type} [Scalar R] [Scalar F] [F64Conv R F] {flR : Rounding R} {flF : Rounding F} {Coords : Type}
variable {l : RaysLaws flR flF} {u L : ℝ} {k : ℕ} {rays : List (Ray Coords R)}

set_option maxHeartbeats 1000000 in
/-- C89: when the matrix of the rays nearly annihilates the unit vector `β`, the point found is near any
least-squares point without its component along `β`. -/
theorem c89_dropped (h : SafeRays l u L k rays) (huF : flF.u ≤ u) {M : ℝ} (hωM : flR.ω ≤ M)
    (hω : flR.ω ≤ 1 / 10 ^ 10) (hM : ∀ r ∈ rays, ∀ a, |flR.val (r.center a)| ≤ M) {β : Vec} (hβ : len β = 1)
    (hν : len (sMat (rays.map (vray flR)) *ᵥ β) + 48 * (rays.length * L) * u + 83000 * flF.u * rays.length ≤
      98 / 1000000000) {x : Vec} (hx : LeastSquares (rays.map (vray flR)) x) :
    ∃ pt, bestIntersectionOfRays (Svd3.svd : TrySvd F) rays = .ok pt ∧ (∀ j, flR.isFinite (pt.data 0 j)) ∧
      distance (fun j => flR.val (pt.data 0 j)) (x - (β ⬝ᵥ x) • β) ≤ 1 / 100000 * len x + 2 / 1000000 * M := by
  have hu0 : 0 ≤ u := flR.u_nonneg.trans h.uR
  have huF0 := flF.u_nonneg
  have hL2 := h.L_two
  have hLu := h.L_le
  have h2 : (2 : ℝ) ≤ rays.length := by exact_mod_cast h.two
  have hM0 : 0 ≤ M := flR.ω_nonneg.trans hωM
  have hg : ∀ r ∈ rays, GoodRay flR r := fun r hr =>
    (h.safe r hr).good l.rangeR h.uR (by nlinarith) h.k_le
  have hne : ∀ r ∈ rays.map (vray flR), r.direction ≠ 0 := by
    intro r hr
    obtain ⟨r', hr', rfl⟩ := List.mem_map.1 hr
    exact (hg r' hr').ne
  obtain ⟨pt, hpt, hfin⟩ := c83_finite h
  refine ⟨pt, hpt, hfin, ?_⟩
  have hbig : 4 * (rays.length : ℝ) ≤ l.moreF.big := by
    refine le_trans ?_ h.big
    have : (2 : ℝ) ^ 34 ≤ 2 ^ (k + 34) := pow_le_pow_right₀ (by norm_num) (by omega)
    refine le_trans ?_ this
    calc 4 * (rays.length : ℝ) ≤ 4 * 2 ^ 30 := mul_le_mul_of_nonneg_left h.len_le (by norm_num)
      _ ≤ 2 ^ 34 := by norm_num
  obtain ⟨S, p, C, -, hSf, hn, hp, hpf, hC, hrow⟩ := rays_parts l.moreR l.moreF l.conv h.uR (ρ := 1 / 10 ^ 9)
    (by norm_num) (by norm_num) h.ωR hωM hL2 (hLu.trans (by norm_num)) h.sum hbig hg hM hpt hfin
  have he := epsNear_cutoff l.moreF l.fine
  have hB := h.broad hg hn
  obtain ⟨d, hd⟩ := SvdNear.svd_converges l.qr l.moreF l.svd l.fine hSf hB he
  obtain ⟨U, Vt, U', V', hU, hV, hUn, hVn, hσ, hU', hV', hdec, s0, s1, hlast⟩ :=
    SvdNear.svd_near l.qr l.moreF l.svd l.fine hSf hB he hd
  set S₀ := sMat (rays.map (vray flR)) with hS₀
  set N : ℝ := (rays.length : ℝ) with hN
  set E : ℝ := 48 * (N * L) * u with hE
  have hE0 : 0 ≤ E := by rw [hE]; positivity
  set ν := len (S₀ *ᵥ β) with hνd
  have hν0 : 0 ≤ ν := len_nonneg _
  have huN : 0 ≤ flF.u * N := mul_nonneg huF0 (by linarith)
  set σ : Vec := fun i => flF.val (d.singularValues i) with hσd
  -- the last singular value is below the cutoff
  have hβS : len (SvdNear.vmat flF S *ᵥ β) ≤ ν + E := by
    have h1 := hn β
    rw [hβ, _root_.mul_one] at h1
    have h3 := len_add_le (SvdNear.vmat flF S *ᵥ β - S₀ *ᵥ β) (S₀ *ᵥ β)
    rw [sub_add_cancel] at h3
    have h4 : len (SvdNear.vmat flF S *ᵥ β - S₀ *ᵥ β) ≤ E := h1
    linarith
  have hs2 : σ 2 ≤ 982 / 10000000000 := by
    have h1 := hlast β hβ (by linarith)
    have h3 : 1001 / 1000 * (len (SvdNear.vmat flF S *ᵥ β) + 82000 * flF.u * (1004 / 1000 * N)) ≤
      1001 / 1000 * (ν + E + 83000 * flF.u * N) := by linarith
    linarith
  have hcut := l.moreF.lit_cutoff
  have hcv : 99 / 1000000000 ≤ flF.val (Scalar.lit (1 / 10000000) : F) := by
    have := (abs_le.1 hcut.2).1
    have := l.fine.u_le
    linarith
  have i2 : invSigma d 2 = 0 := by
    rw [invSigma, if_neg]
    rw [l.moreF.lt_iff hcut.1 (hσ 2).1]
    have : flF.val (d.singularValues 2) ≤ _ := hs2
    linarith
  have hc1 : flF.val (Scalar.lit (1 / 10000000) : F) ≤ 101 / 1000000000 := by
    have := (abs_le.1 hcut.2).2
    have := l.fine.u_le
    linarith
  have i0 : invSigma d 0 = 1 / d.singularValues 0 := by
    rw [invSigma, if_pos]
    rw [l.moreF.lt_iff hcut.1 (hσ 0).1]
    linarith
  have i1 : invSigma d 1 = 1 / d.singularValues 1 := by
    rw [invSigma, if_pos]
    rw [l.moreF.lt_iff hcut.1 (hσ 1).1]
    linarith
  have huF' := l.fine.u_le
  have hp' : p = fun i j => U j 0 * (1 / d.singularValues 0) * Vt 0 i + U j 1 * (1 / d.singularValues 1) * Vt 1 i +
      U j 2 * 0 * Vt 2 i := by
    have := hp.symm.trans (pinv_general l.moreF (by linarith) hd hU hV)
    injection this with this
    rw [this, i0, i1, i2]
  set κ := 48 / 100 * (1004 / 1000 * N) with hκ
  have hκ0 : 0 < κ := by rw [hκ]; linarith
  set P := dropPinv U' V' σ with hP
  have hPe : ∀ i j, P i j = U' j 0 * (1 / σ 0) * V' 0 i + U' j 1 * (1 / σ 1) * V' 1 i := by
    intro i j
    rw [hP, dropPinv, Matrix.mul_assoc]
    simp only [mul_apply, Fin.sum_univ_three, transpose_apply, diagonal, of_apply, dropInv]
    simp
    ring
  have hZ : 1 / N ≤ 1 / κ := one_div_le_one_div_of_le hκ0 (by linarith)
  have hωN : ∀ {ω : ℝ}, ω ≤ 1 / 10 ^ 10 → ω ≤ 1 / κ := by
    intro ω hω
    refine hω.trans (le_trans ?_ hZ)
    refine one_div_le_one_div_of_le (by linarith) (h.len_le.trans (by norm_num))
  have hPl := dropPinv_len (σ := σ) hU' hV' hκ0 s0 s1
  have hPb : ∀ i j, |P i j| ≤ 1 / κ := by
    intro i j
    have e1 := hPl (Pi.single j 1)
    rw [len_single _ _ zero_le_one, _root_.mul_one] at e1
    have e2 := abs_coord_le (P *ᵥ Pi.single j 1) i
    have e3 : (P *ᵥ Pi.single j 1) i = P i j := by simp
    rw [e3] at e2
    exact e2.trans e1
  have hωF : flF.ω ≤ 1 / 10 ^ 10 := l.fine.ω_le'.trans (by norm_num)
  have hent : ∀ i j, |flF.val (p i j) - P i j| ≤ 1 / κ * (66 / 10 * (1 / 10 ^ 9) + 27 * u) := by
    intro i j
    have hf := hpf i j
    rw [hPe]
    rw [hp'] at hf ⊢
    refine pinv_entry_two huF (by nlinarith) (by norm_num) hκ0 (hωN hωF) (a := fun k => U j k)
      (s := ![d.singularValues 0, d.singularValues 1]) (v := fun k => Vt k i) (A := fun k => U' j k)
      (V := fun k => V' k i) (fun k => (hUn j k).2) (fun k => orth_entry hU' j k) (fun k => (hVn k i).2)
      (fun k => orth_entry' hV' k i) (fun k => ?_) (fun k => ?_) hf
    · fin_cases k
      exacts [(hσ 0).1, (hσ 1).1]
    · fin_cases k
      exacts [s0, s1]
  have hκN : 1 / κ * N = 12500 / 6024 := by
    rw [hκ]
    field_simp
    norm_num
  have hr := hrow P (1 / κ) (hωN hω) (by rw [hκN]; norm_num) hPb hent
  have hxn : S₀ *ᵥ x = cVec (rays.map (vray flR)) := (leastSquares_iff hne x).1 hx
  have d1 : len ((fun j => flR.val (pt.data 0 j)) - P *ᵥ C) ≤
      2 * (1 / κ * (N * M) * (84 * (1 / 10 ^ 9) + 403 * u)) := len_le_entries fun j => hr j
  have d2 : len (C - S₀ *ᵥ x) ≤ 2 * (57 * (N * L) * u * M) := by
    rw [hxn]; exact len_le_entries fun k => hC k
  have d3 := dropped_near (σ := σ) hU' hV' hκ0 s0 s1 (hσ 2).2 hs2 (S₀ := S₀) (η := 125 / 10 ^ 8 * (1004 / 1000 * N) + E)
    (fun w => by
      have h1 := hdec w
      have h3 := hn w
      have h4 := len_add_le ((U' * diagonal σ * V') *ᵥ w - SvdNear.vmat flF S *ᵥ w)
        (SvdNear.vmat flF S *ᵥ w - S₀ *ᵥ w)
      rw [sub_add_sub_cancel] at h4
      have h5 : len (SvdNear.vmat flF S *ᵥ w - S₀ *ᵥ w) ≤ E * len w := h3
      linarith) hβ le_rfl x C
  have hL0 := len_nonneg x
  have q1 : (ν + (125 / 10 ^ 8 * (1004 / 1000 * N) + E) + 982 / 10000000000) / κ ≤ 3 / 10 ^ 6 := by
    rw [div_le_iff₀ hκ0, hκ]; linarith
  have q2 : ((125 / 10 ^ 8 * (1004 / 1000 * N) + E) + 982 / 10000000000) / κ ≤ 3 / 10 ^ 6 := by
    rw [div_le_iff₀ hκ0, hκ]; linarith
  have q0 : 0 ≤ (ν + (125 / 10 ^ 8 * (1004 / 1000 * N) + E) + 982 / 10000000000) / κ := by
    have : 0 ≤ N := by linarith
    positivity
  have q3 := pow_le_pow_left₀ q0 q1 2
  have q4 : 2 * ((ν + (125 / 10 ^ 8 * (1004 / 1000 * N) + E) + 982 / 10000000000) / κ) +
      ((ν + (125 / 10 ^ 8 * (1004 / 1000 * N) + E) + 982 / 10000000000) / κ) ^ 2 +
      ((125 / 10 ^ 8 * (1004 / 1000 * N) + E) + 982 / 10000000000) / κ ≤ 1 / 100000 := by
    norm_num at q3 ⊢
    linarith
  have q5 := mul_le_mul_of_nonneg_right q4 hL0
  have q6 : 1 / κ * len (C - S₀ *ᵥ x) ≤ 3 / 10 ^ 7 * M := by
    have e1 : len (C - S₀ *ᵥ x) ≤ 24 / 100 * 10 ^ (-6 : ℤ) * M := by
      refine d2.trans ?_
      have : 2 * (57 * (N * L) * u * M) = 114 / 48 * E * M := by rw [hE]; ring
      rw [this]
      refine mul_le_mul_of_nonneg_right ?_ hM0
      norm_num
      linarith
    have e2 : 1 / κ ≤ 105 / 100 := by
      rw [div_le_iff₀ hκ0, hκ]; linarith
    refine (mul_le_mul e2 e1 (len_nonneg _) (by norm_num)).trans ?_
    norm_num
    linarith
  have q7 : 2 * (1 / κ * (N * M) * (84 * (1 / 10 ^ 9) + 403 * u)) ≤ 13 / 10 ^ 7 * M := by
    have e1 : u ≤ 52 / 10 ^ 11 := by
      have : 192 * u ≤ E := by
        rw [hE]
        have : 2 * 2 ≤ N * L := mul_le_mul h2 hL2 (by norm_num) (by linarith)
        nlinarith
      linarith
    have e2 : 2 * (1 / κ * (N * M) * (84 * (1 / 10 ^ 9) + 403 * u)) =
        (2 * (1 / κ * N) * (84 * (1 / 10 ^ 9) + 403 * u)) * M := by ring
    rw [e2, hκN]
    refine mul_le_mul_of_nonneg_right ?_ hM0
    linarith
  have e1 := len_add_le ((fun j => flR.val (pt.data 0 j)) - P *ᵥ C) (P *ᵥ C - (x - (β ⬝ᵥ x) • β))
  rw [sub_add_sub_cancel] at e1
  rw [distance]
  linarith

end

/-! ### `f64` -/

section
variable {Coords : Type} {lib lib' : Libm Format.b64}

/-- C89 for `f64`. -/
theorem c89_f64_dropped {rays : List (Ray Coords (F64 lib))} (h2 : 2 ≤ rays.length)
    (hr : ∀ r ∈ rays, SafeRay (RustFloat.rounding .b64 lib) 500 r) {M : ℝ} (hM0 : 1 / 2 ^ 1022 ≤ M)
    (hM : ∀ r ∈ rays, ∀ i, |(RustFloat.rounding .b64 lib).val (r.center i)| ≤ M) {β : Vec} (hβ : len β = 1)
    (hν : len (sMat (rays.map (vray (RustFloat.rounding .b64 lib))) *ᵥ β) + 6 / 10 ^ 15 * (rays.length : ℝ) ^ 2 +
      1 / 10 ^ 11 * rays.length ≤ 98 / 1000000000)
    {x : Vec} (hx : LeastSquares (rays.map (vray (RustFloat.rounding .b64 lib))) x) :
    ∃ pt, bestIntersectionOfRays (Svd3.svd : TrySvd (F64 lib')) rays = .ok pt ∧
      (∀ j, (RustFloat.rounding .b64 lib).isFinite (pt.data 0 j)) ∧
      distance (fun j => (RustFloat.rounding .b64 lib).val (pt.data 0 j)) (x - (β ⬝ᵥ x) • β) ≤
        1 / 100000 * len x + 2 / 1000000 * M := by
  have hν0 := len_nonneg (sMat (rays.map (vray (RustFloat.rounding .b64 lib))) *ᵥ β)
  have hN0 : (0 : ℝ) ≤ rays.length := Nat.cast_nonneg _
  have hl : (rays.length : ℝ) ≤ 2 ^ 30 := by nlinarith [sq_nonneg (rays.length : ℝ)]
  have eu : (RustFloat.rounding .b64 lib').u = 1 / 2 ^ 53 := Format.u_b64
  have hω : (RustFloat.rounding .b64 lib).ω ≤ 1 / 10 ^ 10 := (RustFloat.fine lib).ω_le'.trans (by norm_num)
  refine c89_dropped (safeRays_f64 (lib' := lib') h2 hl hr) Format.u_b64.le (Format.ω_b64'.le.trans hM0) hω hM hβ ?_ hx
  rw [eu]
  have := sq_nonneg (rays.length : ℝ)
  have e : (48 : ℝ) * (rays.length * rays.length) * (1 / 2 ^ 53) ≤ 6 / 10 ^ 15 * (rays.length : ℝ) ^ 2 := by
    rw [← sq]; linarith
  have e2 : (83000 : ℝ) * (1 / 2 ^ 53) * rays.length ≤ 1 / 10 ^ 11 * rays.length :=
    mul_le_mul_of_nonneg_right (by norm_num) hN0
  linarith

/-- C89: up to 3000 exactly parallel rays in `f64`: the point found is finite and near the least-squares point closest
to the origin. -/
theorem c89_f64_parallel {rays : List (Ray Coords (F64 lib))} (h2 : 2 ≤ rays.length) (h3 : rays.length ≤ 3000)
    (hr : ∀ r ∈ rays, SafeRay (RustFloat.rounding .b64 lib) 500 r) {M : ℝ} (hM0 : 1 / 2 ^ 1022 ≤ M)
    (hM : ∀ r ∈ rays, ∀ i, |(RustFloat.rounding .b64 lib).val (r.center i)| ≤ M) {d : Vec}
    (hpar : ∀ r ∈ rays, ∃ k : ℝ, (vray (RustFloat.rounding .b64 lib) r).direction = k • d)
    {x : Vec} (hx : LeastSquares (rays.map (vray (RustFloat.rounding .b64 lib))) x)
    (hmin : ∀ y, LeastSquares (rays.map (vray (RustFloat.rounding .b64 lib))) y → len x ≤ len y) :
    ∃ pt, bestIntersectionOfRays (Svd3.svd : TrySvd (F64 lib')) rays = .ok pt ∧
      (∀ j, (RustFloat.rounding .b64 lib).isFinite (pt.data 0 j)) ∧
      distance (fun j => (RustFloat.rounding .b64 lib).val (pt.data 0 j)) x ≤
        1 / 100000 * len x + 2 / 1000000 * M := by
  have hN : (rays.length : ℝ) ≤ 3000 := by exact_mod_cast h3
  have hN0 : (0 : ℝ) ≤ rays.length := Nat.cast_nonneg _
  have hs := safeRays_f64 (lib' := lib') h2 (hN.trans (by norm_num)) hr
  have hne : ∀ r ∈ rays.map (vray (RustFloat.rounding .b64 lib)), r.direction ≠ 0 := by
    intro r hr'
    obtain ⟨r', hm', rfl⟩ := List.mem_map.1 hr'
    exact ((hr r' hm').good (RustFloat.range .b64 lib) hs.uR (by norm_num) hs.k_le).ne
  obtain ⟨β, hβ, hS, hβx⟩ := parallel_axis hne (by simpa using h2) (d := d) (fun r hr' => by
    obtain ⟨r', hm', rfl⟩ := List.mem_map.1 hr'
    exact hpar r' hm')
  obtain ⟨pt, p1, p2, p3⟩ := c89_f64_dropped (lib' := lib') h2 hr hM0 hM hβ (by
    rw [hS, len_eq_zero.2 rfl]
    have := pow_le_pow_left₀ hN0 hN 2
    linarith) hx
  rw [hβx x hx hmin, zero_smul, sub_zero] at p3
  exact ⟨pt, p1, p2, p3⟩

/-- C89: two `f64` rays that cross in `x` under a very small angle: the depth of `x` along the bisector of the rays
is lost. -/
theorem c89_f64_narrow {r₁ r₂ : Ray Coords (F64 lib)} (s₁ : SafeRay (RustFloat.rounding .b64 lib) 500 r₁)
    (s₂ : SafeRay (RustFloat.rounding .b64 lib) 500 r₂) {M : ℝ} (hM0 : 1 / 2 ^ 1022 ≤ M)
    (hM : ∀ r ∈ [r₁, r₂], ∀ i, |(RustFloat.rounding .b64 lib).val (r.center i)| ≤ M) {v₁ v₂ : Ray Coords ℝ}
    (e₁ : vray (RustFloat.rounding .b64 lib) r₁ = v₁) (e₂ : vray (RustFloat.rounding .b64 lib) r₂ = v₂)
    (hc : 1 - 97 / 1000000000 ≤ V3.normalize v₁.direction ⬝ᵥ V3.normalize v₂.direction) {x : Vec}
    (hx₁ : x ∈ line v₁.center v₁.direction) (hx₂ : x ∈ line v₂.center v₂.direction) :
    let b : Vec := V3.normalize v₁.direction + V3.normalize v₂.direction
    ∃ pt, bestIntersectionOfRays (Svd3.svd : TrySvd (F64 lib')) [r₁, r₂] = .ok pt ∧
      (∀ j, (RustFloat.rounding .b64 lib).isFinite (pt.data 0 j)) ∧
      distance (fun j => (RustFloat.rounding .b64 lib).val (pt.data 0 j)) (x - ((b ⬝ᵥ x) / (b ⬝ᵥ b)) • b) ≤
        1 / 100000 * len x + 2 / 1000000 * M := by
  intro b
  have hr : ∀ r ∈ [r₁, r₂], SafeRay (RustFloat.rounding .b64 lib) 500 r := by
    simp only [List.mem_cons, List.not_mem_nil, or_false, forall_eq_or_imp, forall_eq]
    exact ⟨s₁, s₂⟩
  have hs := safeRays_f64 (lib' := lib') (rays := [r₁, r₂]) le_rfl (by norm_num) hr
  have g := fun r hr' => ((hr r hr').good (RustFloat.range .b64 lib) hs.uR (by norm_num) hs.k_le).ne
  have n₁ : v₁.direction ≠ 0 := by rw [← e₁]; exact g r₁ (by simp)
  have n₂ : v₂.direction ≠ 0 := by rw [← e₂]; exact g r₂ (by simp)
  obtain ⟨hβ, hS, hproj⟩ := bisector n₁ n₂ (by linarith)
  have em : [r₁, r₂].map (vray (RustFloat.rounding .b64 lib)) = [v₁, v₂] := by
    rw [List.map_cons, List.map_cons, List.map_nil, e₁, e₂]
  have hls : LeastSquares [v₁, v₂] x := fun y => by
    rw [cost_eq_zero (rays := [v₁, v₂])]
    · exact cost_nonneg _ y
    · intro r hr
      simp only [List.mem_cons, List.not_mem_nil, or_false] at hr
      rcases hr with rfl | rfl
      · exact hx₁
      · exact hx₂
  obtain ⟨pt, p1, p2, p3⟩ := c89_f64_dropped (lib' := lib') (rays := [r₁, r₂]) le_rfl hr hM0 hM hβ (by
    rw [em, hS]
    norm_num
    norm_num at hc
    linarith) (x := x) (by rw [em]; exact hls)
  rw [hproj] at p3
  exact ⟨pt, p1, p2, p3⟩

end

/-! ### Non-vacuity -/

/-- A ray whose coordinates are small whole numbers. -/
theorem whole_ray (lib : Libm Format.b64) (c d : Fin 3 → ℕ) (hc : ∀ i, c i ≤ 2 ^ 20) (hd : ∀ i, d i ≤ 2 ^ 20)
    (h : ∃ i, d i ≠ 0) : ∃ r : Ray WorldFrame (F64 lib),
      vray (RustFloat.rounding .b64 lib) r = ⟨fun i => (c i : ℝ), fun i => (d i : ℝ)⟩ ∧
      SafeRay (RustFloat.rounding .b64 lib) 500 r := by
  set fl := RustFloat.rounding .b64 lib with hfl
  obtain ⟨w, hw⟩ : ∃ w : ℕ → F64 lib, ∀ k, k ≤ 2 ^ 20 → fl.isFinite (w k) ∧ fl.val (w k) = k := by
    set w : ℕ → F64 lib := fun k => if h : k < 2 ^ Format.b64.p then Flt.whole .b64 k h else 0 with hw
    refine ⟨w, fun k hk => ?_⟩
    have hk' : k < 2 ^ Format.b64.p := lt_of_le_of_lt hk (by decide)
    have e : w k = Flt.whole .b64 k hk' := dif_pos hk'
    rw [e]
    refine ⟨trivial, ?_⟩
    show Flt.val (f := .b64) (Flt.whole .b64 k hk') = _
    simp [Flt.whole, Flt.val]
  have hr : ∀ k', k' ≤ 2 ^ 20 → InRange fl 500 (w k') := by
    intro k' h
    refine ⟨(hw k' h).1, ?_⟩
    rw [(hw k' h).2, Nat.abs_cast]
    have h1 : (2 : ℝ) ^ 20 ≤ 2 ^ 500 := pow_le_pow_right₀ (by norm_num) (by norm_num)
    have h2 : (k' : ℝ) ≤ 2 ^ 20 := by exact_mod_cast h
    exact h2.trans h1
  have hω : fl.ω ≤ 1 / 10 ^ 10 := (RustFloat.fine lib).ω_le'.trans (by norm_num)
  have ed : (fun i => fl.val (w (d i))) = fun i => (d i : ℝ) := funext fun i => (hw _ (hd i)).2
  refine ⟨⟨fun i => w (c i), fun i => w (d i)⟩, congrArg₂ Ray.mk (funext fun i => (hw _ (hc i)).2) ed,
    fun i => hr _ (hc i), fun i => hr _ (hd i), ?_, ?_⟩
  · obtain ⟨i, hi⟩ := h
    exact ⟨i, by rw [(hw _ (hd i)).2]; exact_mod_cast hi⟩
  · obtain ⟨i, hi⟩ := h
    show _ ≤ len (fun i => fl.val (w (d i))) ^ 2
    rw [ed, len_sq]
    have h1 : (1 : ℝ) ≤ d i := by exact_mod_cast Nat.one_le_iff_ne_zero.2 hi
    have h2 : (d i : ℝ) * d i ≤ (fun i => (d i : ℝ)) ⬝ᵥ (fun i => (d i : ℝ)) :=
      Finset.single_le_sum (f := fun j => (d j : ℝ) * d j) (fun j _ => mul_self_nonneg _) (Finset.mem_univ i)
    nlinarith

theorem vertical_eq (c : Vec) (y : Vec) : dm (⟨c, ![0, 0, 1]⟩ : Ray WorldFrame ℝ) *ᵥ y = ![-y 0, -y 1, 0] := by
  have h1 : len ![(0 : ℝ), 0, 1] = 1 := by
    rw [len_eq, vec3_dotProduct']; simp
  rw [dm_mulVec]
  show (V3.normalize ![(0 : ℝ), 0, 1] ⬝ᵥ y) • V3.normalize ![(0 : ℝ), 0, 1] - y = _
  rw [normalize_of_len_one h1]
  funext i; fin_cases i <;> simp [dotProduct, Fin.sum_univ_three]

theorem vertical_iff {y : Vec} :
    LeastSquares [(⟨![3, 4, 0], ![0, 0, 1]⟩ : Ray WorldFrame ℝ), ⟨![5, 4, 7], ![0, 0, 1]⟩] y ↔ y 0 = 4 ∧ y 1 = 4 := by
  have hne : (![(0 : ℝ), 0, 1] : Vec) ≠ 0 := fun h => by simpa using congrFun h 2
  rw [leastSquares_iff (by simp [hne]), sMat_cons, sMat_cons, sMat_nil, cVec_cons, cVec_cons, cVec_nil, _root_.add_zero,
    _root_.add_zero, add_mulVec, vertical_eq, vertical_eq, vertical_eq, vertical_eq]
  constructor
  · intro h
    have h0 := congrFun h 0
    have h1 := congrFun h 1
    simp at h0 h1
    constructor <;> linarith
  · rintro ⟨h0, h1⟩
    funext i; fin_cases i <;> (simp [h0, h1]; try norm_num)

/-- Non-vacuity of C89 (parallel rays): the vertical `f64` rays through `(3, 4, 0)` and `(5, 4, 7)` meet, up to one
part in ten thousand, in `(4, 4, 0)`. -/
example (lib lib' : Libm Format.b64) : ∃ (a b : Ray WorldFrame (F64 lib)) (pt : _),
    vray (RustFloat.rounding .b64 lib) a = ⟨![3, 4, 0], ![0, 0, 1]⟩ ∧
    vray (RustFloat.rounding .b64 lib) b = ⟨![5, 4, 7], ![0, 0, 1]⟩ ∧
    bestIntersectionOfRays (Svd3.svd : TrySvd (F64 lib')) [a, b] = .ok pt ∧
    distance (fun j => (RustFloat.rounding .b64 lib).val (pt.data 0 j)) ![4, 4, 0] ≤ 1 / 10000 := by
  obtain ⟨a, ha, sa⟩ := whole_ray lib ![3, 4, 0] ![0, 0, 1] (by decide) (by decide) ⟨2, by decide⟩
  obtain ⟨b, hb, sb⟩ := whole_ray lib ![5, 4, 7] ![0, 0, 1] (by decide) (by decide) ⟨2, by decide⟩
  replace ha : vray (RustFloat.rounding .b64 lib) a = ⟨![3, 4, 0], ![0, 0, 1]⟩ := by
    rw [ha]; congr 1 <;> (funext i; fin_cases i <;> simp)
  replace hb : vray (RustFloat.rounding .b64 lib) b = ⟨![5, 4, 7], ![0, 0, 1]⟩ := by
    rw [hb]; congr 1 <;> (funext i; fin_cases i <;> simp)
  have em : [a, b].map (vray (RustFloat.rounding .b64 lib)) =
      [(⟨![3, 4, 0], ![0, 0, 1]⟩ : Ray WorldFrame ℝ), ⟨![5, 4, 7], ![0, 0, 1]⟩] := by
    rw [List.map_cons, List.map_cons, List.map_nil, ha, hb]
  have hl : len ![(4 : ℝ), 4, 0] ≤ 6 := by
    rw [len_eq, vec3_dotProduct']
    exact Real.sqrt_le_iff.2 ⟨by norm_num, by norm_num⟩
  obtain ⟨pt, h1, -, h3⟩ := c89_f64_parallel (lib' := lib') (rays := [a, b]) (M := 7) (d := ![0, 0, 1]) le_rfl
    (by norm_num)
    (by simp only [List.mem_cons, List.not_mem_nil, or_false, forall_eq_or_imp, forall_eq]; exact ⟨sa, sb⟩)
    (by
      refine le_trans (one_div_le_one_div_of_le (by norm_num) (one_le_pow₀ (by norm_num) : (1 : ℝ) ≤ _)) (by norm_num))
    (by
      have ea := fun i => congrFun (congrArg Ray.center ha) i
      have eb := fun i => congrFun (congrArg Ray.center hb) i
      simp only [vray, vvec] at ea eb
      simp only [List.mem_cons, List.not_mem_nil, or_false, forall_eq_or_imp, forall_eq]
      refine ⟨fun i => ?_, fun i => ?_⟩
      · rw [ea]; fin_cases i <;> norm_num
      · rw [eb]; fin_cases i <;> norm_num)
    (by
      simp only [List.mem_cons, List.not_mem_nil, or_false, forall_eq_or_imp, forall_eq]
      exact ⟨⟨1, by rw [ha, one_smul]⟩, ⟨1, by rw [hb, one_smul]⟩⟩)
    (x := ![4, 4, 0]) (by rw [em]; exact vertical_iff.2 ⟨rfl, rfl⟩)
    (by
      intro y hy
      rw [em] at hy
      obtain ⟨y0, y1⟩ := vertical_iff.1 hy
      rw [len_eq, len_eq, vec3_dotProduct', dotProduct, Fin.sum_univ_three, y0, y1]
      refine Real.sqrt_le_sqrt ?_
      simp
      exact mul_self_nonneg _)
  exact ⟨a, b, pt, ha, hb, h1, h3.trans (by linarith)⟩

/-- Non-vacuity of C89 (crossing rays): the `f64` rays from `(1, 0, 0)` straight up and from the origin towards
`(1, 0, 16384)` cross at the height 16384, but the point found is less than one unit away from the origin. -/
example (lib lib' : Libm Format.b64) : ∃ (a b : Ray WorldFrame (F64 lib)) (pt : _),
    vray (RustFloat.rounding .b64 lib) a = ⟨![1, 0, 0], ![0, 0, 1]⟩ ∧
    vray (RustFloat.rounding .b64 lib) b = ⟨![0, 0, 0], ![1, 0, 16384]⟩ ∧
    bestIntersectionOfRays (Svd3.svd : TrySvd (F64 lib')) [a, b] = .ok pt ∧
    distance (fun j => (RustFloat.rounding .b64 lib).val (pt.data 0 j)) ![0, 0, 0] ≤ 1 := by
  obtain ⟨a, ha, sa⟩ := whole_ray lib ![1, 0, 0] ![0, 0, 1] (by decide) (by decide) ⟨2, by decide⟩
  obtain ⟨b, hb, sb⟩ := whole_ray lib ![0, 0, 0] ![1, 0, 16384] (by decide) (by decide) ⟨2, by decide⟩
  replace ha : vray (RustFloat.rounding .b64 lib) a = ⟨![1, 0, 0], ![0, 0, 1]⟩ := by
    rw [ha]; congr 1 <;> (funext i; fin_cases i <;> simp)
  replace hb : vray (RustFloat.rounding .b64 lib) b = ⟨![0, 0, 0], ![1, 0, 16384]⟩ := by
    rw [hb]; congr 1 <;> (funext i; fin_cases i <;> simp)
  set s : ℝ := len ![(1 : ℝ), 0, 16384] with hs
  have hs2 : s * s = 1 + 16384 * 16384 := by
    rw [← sq, hs, len_sq, vec3_dotProduct']; simp
  have hs0 : 0 ≤ s := len_nonneg _
  have hs1 : 16384 ≤ s := by nlinarith
  have hs3 : s ≤ 16384 + 1 / 32768 := by nlinarith
  have h1 : len ![(0 : ℝ), 0, 1] = 1 := by
    rw [len_eq, vec3_dotProduct']; simp
  have n1 : V3.normalize ![(0 : ℝ), 0, 1] = ![0, 0, 1] := normalize_of_len_one h1
  have n2 : V3.normalize ![(1 : ℝ), 0, 16384] = ![s⁻¹, 0, s⁻¹ * 16384] := by
    rw [normalize_eq, ← hs]; funext i; fin_cases i <;> simp
  have hsi : s⁻¹ * s = 1 := inv_mul_cancel₀ (by linarith)
  have hi0 : 0 ≤ s⁻¹ := inv_nonneg.2 hs0
  obtain ⟨pt, p1, -, p3⟩ := c89_f64_narrow (lib' := lib') sa sb (M := 1)
    (one_div_le_one_div_of_le (by norm_num) (one_le_pow₀ (by norm_num) : (1 : ℝ) ≤ _) |>.trans (by norm_num))
    (by
      have ea := fun i => congrFun (congrArg Ray.center ha) i
      have eb := fun i => congrFun (congrArg Ray.center hb) i
      simp only [vray, vvec] at ea eb
      simp only [List.mem_cons, List.not_mem_nil, or_false, forall_eq_or_imp, forall_eq]
      refine ⟨fun i => ?_, fun i => ?_⟩
      · rw [ea]; fin_cases i <;> norm_num
      · rw [eb]; fin_cases i <;> norm_num)
    ha hb (by
      show _ ≤ V3.normalize ![(0 : ℝ), 0, 1] ⬝ᵥ V3.normalize ![(1 : ℝ), 0, 16384]
      rw [n1, n2, vec3_dotProduct']
      simp
      nlinarith) (x := ![1, 0, 16384])
    ⟨16384, by funext i; fin_cases i <;> simp⟩ ⟨1, by funext i; fin_cases i <;> simp⟩
  refine ⟨a, b, pt, ha, hb, p1, ?_⟩
  dsimp only at p3
  rw [n1, n2, ← hs] at p3
  set c : ℝ := s⁻¹ * 16384 with hc
  have hc0 : 0 ≤ c := mul_nonneg hi0 (by norm_num)
  have hsc : s * c = 16384 := by rw [hc, ← mul_assoc, mul_comm s, hsi, _root_.one_mul]
  have e1 : s⁻¹ * s⁻¹ + c * c = 1 := by
    have : (s⁻¹ * s⁻¹) * (s * s) = 1 := by rw [show s⁻¹ * s⁻¹ * (s * s) = (s⁻¹ * s) * (s⁻¹ * s) by ring, hsi, _root_.one_mul]
    rw [hc]
    rw [hs2] at this
    linarith
  have e2 : s⁻¹ + (1 + c) * 16384 = s / 2 * (s⁻¹ * s⁻¹ + (1 + c) * (1 + c)) := by
    have : s * (c * c) = 16384 * c := by rw [← mul_assoc, hsc]
    have : s * (s⁻¹ * s⁻¹) = s⁻¹ := by rw [mul_comm, mul_assoc, hsi, _root_.mul_one]
    nlinarith
  have eb : ![(0 : ℝ), 0, 1] + ![s⁻¹, 0, c] = ![s⁻¹, 0, 1 + c] := by
    funext i; fin_cases i <;> simp
  have ex : (![(1 : ℝ), 0, 16384] : Vec) - ((![s⁻¹, 0, 1 + c] ⬝ᵥ ![(1 : ℝ), 0, 16384]) /
      (![s⁻¹, 0, 1 + c] ⬝ᵥ ![s⁻¹, 0, 1 + c])) • ![s⁻¹, 0, 1 + c] = ![1 / 2, 0, (16384 - s) / 2] := by
    have : (![s⁻¹, 0, 1 + c] ⬝ᵥ ![(1 : ℝ), 0, 16384]) / (![s⁻¹, 0, 1 + c] ⬝ᵥ ![s⁻¹, 0, 1 + c]) = s / 2 := by
      rw [vec3_dotProduct', vec3_dotProduct']
      simp
      rw [e2, mul_div_assoc, div_self, _root_.mul_one]
      nlinarith [mul_nonneg hi0 hi0]
    rw [this]
    funext i; fin_cases i <;> simp
    · linarith
    · linarith
  rw [eb, ex] at p3
  have t : distance (fun j => (RustFloat.rounding .b64 lib).val (pt.data 0 j)) ![0, 0, 0] ≤ _ :=
    distance_triangle _ ![1 / 2, 0, (16384 - s) / 2] _
  have l1 : distance ![1 / 2, 0, (16384 - s) / 2] ![0, 0, 0] ≤ 6 / 10 := by
    show len (_ - _) ≤ _
    rw [len_eq, dotProduct, Fin.sum_univ_three]
    refine Real.sqrt_le_iff.2 ⟨by norm_num, ?_⟩
    simp
    nlinarith
  linarith

end CamGeom
