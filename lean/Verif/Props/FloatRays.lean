import Verif.Lemmas.RaysRange
import Verif.Lemmas.SvdNear
import Verif.Lemmas.FloatSvd
import Verif.Props.NalgebraSvd
import Verif.Props.RoundingPerspective

/-!
# C83: `best_intersection_of_rays` in floating point, with nalgebra's own decomposition
-/

namespace CamGeom
open Spec Matrix Rounding
open SvdNear (Broad EpsNear)
open Svd3 (TwoBig)

section
variable {A T : Matrix (Fin 3) (Fin 3) ℝ} {N ε : ℝ}

/-- A small perturbation of a matrix with two large singular values. -/
theorem broad_perturbed (h : TwoBig A N) (h2 : 2 ≤ N) (hN : N ≤ 10 ^ 39) (hε : ε ≤ N / 250)
    (hT : ∀ w : Vec, len (T *ᵥ w - A *ᵥ w) ≤ ε * len w) : Broad T (1004 / 1000 * N) := by
  have hT' : ∀ w : Vec, len (T *ᵥ w - A *ᵥ w) ≤ N / 250 * len w := fun w =>
    (hT w).trans (mul_le_mul_of_nonneg_right hε (len_nonneg w))
  refine ⟨by linarith, ?_, fun w => ?_, fun u v w hf => ?_⟩
  · refine le_trans (mul_le_mul_of_nonneg_left hN (by norm_num)) (by norm_num)
  · rw [← len_sq, ← len_sq, ← mul_pow]
    refine pow_le_pow_left₀ (len_nonneg _) ?_ 2
    have h1 := h.le w
    rw [← len_sq, ← len_sq, ← mul_pow] at h1
    have h3 : len (A *ᵥ w) ≤ N * len w :=
      le_of_sq_le_sq h1 (mul_nonneg (by linarith) (len_nonneg w))
    have h4 := len_add_le (T *ᵥ w - A *ᵥ w) (A *ᵥ w)
    rw [sub_add_cancel] at h4
    linarith [hT' w]
  · have key : ∀ z : Vec, z ⬝ᵥ z = 1 → 9944 / 10000 * len (A *ᵥ z) ^ 2 - N ^ 2 / 350 ≤ len (T *ᵥ z) ^ 2 := by
      intro z hz
      have hz1 : len z = 1 := by rw [len_eq, hz, Real.sqrt_one]
      have h3 := hT' z
      have h4 := len_add_le (T *ᵥ z) (-(T *ᵥ z - A *ᵥ z))
      rw [len_neg, neg_sub, add_sub_cancel] at h4
      rw [hz1, _root_.mul_one] at h3
      have hx := len_nonneg (A *ᵥ z)
      have hy := len_nonneg (T *ᵥ z)
      generalize len (A *ᵥ z) = x at *
      generalize len (T *ᵥ z) = y at *
      have h5 : x - N / 250 ≤ y := by linarith
      have h6 : x ^ 2 - 2 * (N / 250) * x ≤ y ^ 2 := by
        rcases le_or_gt (N / 250) x with hc | hc
        · have := pow_le_pow_left₀ (sub_nonneg.2 hc) h5 2
          nlinarith [sq_nonneg (N / 250)]
        · nlinarith [sq_nonneg y]
      nlinarith [sq_nonneg (14 / 10 * x - N)]
    have ht := h.two u v w hf
    rw [← len_sq, ← len_sq] at ht
    rw [← len_sq, ← len_sq]
    have k1 := key u hf.uu
    have k2 := key v hf.vv
    nlinarith [sq_nonneg N]

end

section
variable {F : Type} [Scalar F] {fl : Rounding F}

theorem epsNear_cutoff {r : RoundingRange fl} (m : RoundingMore fl) (hF : Fine r) :
    EpsNear fl (Scalar.lit (1 / 10000000) : F) := by
  have h := m.lit_cutoff
  have hu := hF.u_le
  have h1 := abs_le.1 h.2
  exact ⟨h.1, by linarith, by linarith⟩

end

/-- The laws of the scalar type `R` and of `F` in the role of `f64` that are used here. -/
structure RaysLaws {R F : Type} [Scalar R] [Scalar F] [F64Conv R F] (flR : Rounding R) (flF : Rounding F) where
  moreR : RoundingMore flR
  rangeR : RoundingRange flR
  moreF : RoundingMore flF
  rangeF : RoundingRange flF
  conv : RoundingConv flR flF
  forward : RoundingForward rangeR flF
  fine : Fine rangeF
  qr : RoundingQr flF
  svd : RoundingSvd flF

section
variable {R F : Type} [Scalar R] [Scalar F] [F64Conv R F] {flR : Rounding R} {flF : Rounding F} {Coords : Type}

/-- The rays that are covered: at least two, not too many, of moderate coordinates. -/
structure SafeRays (l : RaysLaws flR flF) (u L : ℝ) (k : ℕ) (rays : List (Ray Coords R)) : Prop where
  uR : flR.u ≤ u
  ωR : flR.ω ≤ 1
  L_two : 2 ≤ L
  L_le : L * u ≤ 1 / 12000
  two : 2 ≤ rays.length
  len_le : (rays.length : ℝ) ≤ 2 ^ 30
  sum : rays.length * flF.u ≤ L * u
  k_le : 2 * k + 2 ≤ l.rangeR.top
  k_le' : k + 66 ≤ l.rangeR.top
  big : 2 ^ (k + 34) ≤ l.moreF.big
  safe : ∀ r ∈ rays, SafeRay flR k r

variable {l : RaysLaws flR flF} {u L : ℝ} {k : ℕ} {rays : List (Ray Coords R)}

theorem SafeRays.broad (h : SafeRays l u L k rays) (hg : ∀ r ∈ rays, GoodRay flR r) {S : Mat 3 3 F}
    (hS : ∀ w : Vec, len (Matrix.of (fun i j => flF.val (S i j)) *ᵥ w - sMat (rays.map (vray flR)) *ᵥ w) ≤
      48 * (rays.length * L) * u * len w) :
    Broad (Matrix.of fun i j => flF.val (S i j)) (1004 / 1000 * rays.length) := by
  have h2 : (2 : ℝ) ≤ rays.length := by exact_mod_cast h.two
  have hne : ∀ r ∈ rays.map (vray flR), r.direction ≠ 0 := by
    intro r hr
    obtain ⟨r', hr', rfl⟩ := List.mem_map.1 hr
    exact (hg r' hr').ne
  have ht := twoBig_sMat hne (by simpa using h.two)
  rw [List.length_map] at ht
  refine broad_perturbed ht h2 (h.len_le.trans (by norm_num)) ?_ hS
  have := mul_le_mul_of_nonneg_left h.L_le (show (0 : ℝ) ≤ rays.length by linarith)
  linarith

/-- C83: two or more rays always have an intersection point in floating point as well: nalgebra's SVD converges
within its 100 iterations for every such list of rays, `Err(SvdFailed)` is impossible, and the point returned has
finite coordinates, whatever the angles between the rays. -/
theorem c83_finite (h : SafeRays l u L k rays) :
    ∃ pt, bestIntersectionOfRays (Svd3.svd : TrySvd F) rays = .ok pt ∧ ∀ j, flR.isFinite (pt.data 0 j) := by
  have hk := h.k_le'
  have ht := l.fine.top
  have huF := l.fine.u_le
  have hu0 : 0 ≤ u := flR.u_nonneg.trans h.uR
  have huR1 : flR.u ≤ 1 / 100 := by have := h.uR; have := h.L_two; have := h.L_le; nlinarith
  obtain ⟨hg, S, C, hS, hC, hSf, hCr, hn⟩ := sums_run l.moreR l.moreF l.conv l.forward h.uR h.ωR h.L_two
    (h.L_le.trans (by norm_num)) h.two h.sum h.k_le (by omega) h.len_le h.big h.safe
  have he := epsNear_cutoff l.moreF l.fine
  obtain ⟨d, hd⟩ := SvdNear.svd_converges l.qr l.moreF l.svd l.fine hSf (h.broad hg hn) he
  obtain ⟨U, Vt, U', V', h1, h3, h4, h5, h6, h7, h8, -⟩ :=
    SvdNear.svd_near l.qr l.moreF l.svd l.fine hSf (h.broad hg hn) he hd
  obtain ⟨p, hp, hpr⟩ := pinv_bounded l.moreF l.rangeF (by omega) (by linarith) (by norm_num) hd h1 h3 h4 h5
    (fun i => (h6 i).1) h7 h8
  obtain ⟨pt, hpt, hdat⟩ := best_of_sums h.two hS hC hp
  refine ⟨pt, hpt, fun j => ?_⟩
  rw [hdat]
  have t : ∀ i, InRange flR (29 + (k + 35)) ((F64Conv.ofF64 (p j i) : R) * F64Conv.ofF64 (C i)) := fun i =>
    (ofF_inRange l.forward l.conv huR1 h.ωR (by omega) (hpr j i)).mul l.rangeR
      (ofF_inRange l.forward l.conv huR1 h.ωR (by omega) (hCr i)) (by omega)
  exact (((t 0).add l.rangeR (t 1) (by omega)).add l.rangeR ((t 2).mono (by omega)) (by omega)).1

/-- C83: accuracy of the point found. -/
theorem c83_accuracy (h : SafeRays l u L k rays) (huF : flF.u ≤ u) {M : ℝ} (hωM : flR.ω ≤ M)
    (hM : ∀ r ∈ rays, ∀ a, |flR.val (r.center a)| ≤ M) {a b : Ray Coords R} (ha : a ∈ rays) (hb : b ∈ rays) {κ : ℝ}
    (hκ : κ = 1 - absCos (vray flR a).direction (vray flR b).direction - 48 * (rays.length * L) * u -
      13 / 10000000 * rays.length) (hκ0 : 101 / 1000000000 < κ)
    {x : Vec} (hx : LeastSquares (rays.map (vray flR)) x) :
    ∃ pt, bestIntersectionOfRays (Svd3.svd : TrySvd F) rays = .ok pt ∧ (∀ j, flR.isFinite (pt.data 0 j)) ∧
      distance (fun j => flR.val (pt.data 0 j)) x ≤
        (520 * (rays.length * L) * u + 15 / 10000000 * rays.length) / κ * (M + len x) := by
  have hu0 : 0 ≤ u := flR.u_nonneg.trans h.uR
  have hL2 := h.L_two
  have hLu := h.L_le
  have hk := h.k_le'
  have h2 : (2 : ℝ) ≤ rays.length := by exact_mod_cast h.two
  have huR1 : flR.u ≤ 1 / 100 := by have := h.uR; nlinarith
  have huF1 : flF.u ≤ 1 / 100 := by nlinarith
  have hωF : flF.ω ≤ 1 := l.fine.ω1
  have hM0 : 0 ≤ M := flR.ω_nonneg.trans hωM
  have hg : ∀ r ∈ rays, GoodRay flR r := fun r hr =>
    (h.safe r hr).good l.rangeR h.uR (by nlinarith) h.k_le
  have e13 : 13 / 10000000 * (rays.length : ℝ) = 2 * rays.length * (65 / 100000000) := by ring
  have hK0 : 0 ≤ 48 * (rays.length * L) * u := by positivity
  have hc0 : absCos (vray flR a).direction (vray flR b).direction < 1 := by linarith
  -- the decomposition is stable
  have stable : ∀ (S : Mat 3 3 F) (d : SVD F), (∀ i j, flF.isFinite (S i j)) →
      (∀ w : Vec, len (Matrix.of (fun i j => flF.val (S i j)) *ᵥ w - sMat (rays.map (vray flR)) *ᵥ w) ≤
        48 * (rays.length * L) * u * len w) →
      Svd3.svd S true true (Scalar.lit (1 / 10000000)) 100 = some d →
      SvdStableAt flF (1 / 10 ^ 9) (65 / 100000000) (2 * rays.length) S d := by
    intro S d hSf hn hd
    obtain ⟨U, Vt, U', V', h1, h3, h4, h5, h6, h7, h8, h9, -⟩ :=
      SvdNear.svd_near l.qr l.moreF l.svd l.fine hSf (h.broad hg hn) (epsNear_cutoff l.moreF l.fine) hd
    refine ⟨U, Vt, U', V', h1, h3, h4, h5, h6, h7, h8, fun w => (h9 w).trans ?_⟩
    refine mul_le_mul_of_nonneg_right ?_ (len_nonneg w)
    linarith
  obtain ⟨pt, hpt, hfin⟩ := c83_finite h
  refine ⟨pt, hpt, hfin, ?_⟩
  have hbig : 4 * (rays.length : ℝ) ≤ l.moreF.big := by
    refine le_trans ?_ h.big
    have : (2 : ℝ) ^ 34 ≤ 2 ^ (k + 34) := pow_le_pow_right₀ (by norm_num) (by omega)
    refine le_trans ?_ this
    calc 4 * (rays.length : ℝ) ≤ 4 * 2 ^ 30 := mul_le_mul_of_nonneg_left h.len_le (by norm_num)
      _ ≤ 2 ^ 34 := by norm_num
  refine (rays_rounding l.moreR l.moreF l.conv h.uR huF (ρ := 1 / 10 ^ 9) (η := 65 / 100000000) (by norm_num) (by norm_num)
    (by norm_num) h.ωR hωF hωM hL2 (hLu.trans (by norm_num)) h.sum hbig hg hM ha hb (by rw [← e13, ← hκ]; exact hκ0)
    (fun S d _ hSf hn _ _ hd => stable S d hSf hn hd) hx hpt hfin).trans ?_
  rw [← e13, ← hκ]
  have hκp : 0 < κ := by linarith
  have hx0 := len_nonneg x
  refine mul_le_mul_of_nonneg_right (div_le_div_of_nonneg_right ?_ hκp.le) (by linarith)
  norm_num
  linarith

end

/-! ### `f64` and `f32` -/

open Flt

theorem RustFloat.forward (f : Format) (lib : Libm f) (lib' : Libm Format.b64) :
    RoundingForward (F := F64 lib') (RustFloat.range f lib) (RustFloat.rounding Format.b64 lib') where
  powi_two {x k} hx hk h := by
    have h1 : Flt.isFinite (Flt.mul (f := f) x x) := ((RustFloat.range f lib).mul hx hx hk h).1
    exact (congrArg Flt.isFinite (Flt.powi_two (f := f) x)).mpr h1
  ofF {y k} hy hk h := by
    show Flt.isFinite (Flt.cast (f := Format.b64) f y)
    rw [cast_eq hy]
    exact (ofReal_within hk h).1

theorem RustFloat.fine (lib : Libm Format.b64) : Fine (RustFloat.range Format.b64 lib) := by
  have eu : (RustFloat.rounding .b64 lib).u = 1 / 2 ^ 53 := Format.u_b64
  have eω : (RustFloat.rounding .b64 lib).ω = 1 / 2 ^ 1022 := Format.ω_b64'
  have h0 : (1 : ℝ) / 2 ^ 1022 ≤ 1 / 2 ^ 400 :=
    one_div_le_one_div_of_le (by positivity) (pow_le_pow_right₀ (by norm_num) (by norm_num))
  have h1 : (1 : ℝ) / 2 ^ 400 ≤ 1 / 10 ^ 100 := by
    refine one_div_le_one_div_of_le (by positivity) ?_
    rw [show 400 = 200 + 200 from rfl, pow_add]
    norm_num
  refine ⟨by rw [eu]; norm_num, ?_, by rw [eω]; exact h0.trans h1, by show _ ≤ 1023; norm_num⟩
  rw [eω, eu]
  exact (h0.trans h1).trans (by norm_num)

/-- The laws hold for a format next to `f64`. -/
noncomputable def RustFloat.raysLaws {f : Format} (hf : f.Sub64) (hc : f.Cutoff) (lib : Libm f)
    (lib' : Libm Format.b64) :
    RaysLaws (R := RustFloat f lib) (F := F64 lib') (RustFloat.rounding f lib) (RustFloat.rounding .b64 lib') where
  moreR := RustFloat.roundingMore lib hc
  rangeR := RustFloat.range f lib
  moreF := RustFloat.roundingMore lib' Format.cutoff_b64
  rangeF := RustFloat.range .b64 lib'
  conv := RustFloat.roundingConv hf lib lib'
  forward := RustFloat.forward f lib lib'
  fine := RustFloat.fine lib'
  qr := RustFloat.roundingQr .b64 lib'
  svd := RustFloat.roundingSvd .b64 lib'

section
variable {Coords : Type} {lib' : Libm Format.b64}

theorem safeRays_f64 {lib : Libm Format.b64} {rays : List (Ray Coords (F64 lib))} (h2 : 2 ≤ rays.length)
    (hl : (rays.length : ℝ) ≤ 2 ^ 30) (hr : ∀ r ∈ rays, SafeRay (RustFloat.rounding .b64 lib) 500 r) :
    SafeRays (RustFloat.raysLaws Format.sub64_b64 Format.cutoff_b64 lib lib') (1 / 2 ^ 53) rays.length 500 rays where
  uR := Format.u_b64.le
  ωR := (RustFloat.fine lib).ω1
  L_two := by exact_mod_cast h2
  L_le := by linarith
  two := h2
  len_le := hl
  sum := le_of_eq (congrArg _ Format.u_b64)
  k_le := by show _ ≤ 1023; norm_num
  k_le' := by show _ ≤ 1023; norm_num
  big := by
    show (2 : ℝ) ^ 534 ≤ 2 ^ ((1024 : ℤ) - 1)
    rw [show ((1024 : ℤ) - 1) = ((1023 : ℕ) : ℤ) by norm_num, zpow_natCast]
    exact pow_le_pow_right₀ (by norm_num) (by norm_num)
  safe := hr

theorem safeRays_f32 {lib : Libm Format.b32} {rays : List (Ray Coords (F32 lib))} (h2 : 2 ≤ rays.length)
    (hl : (rays.length : ℝ) ≤ 2 ^ 30) (hr : ∀ r ∈ rays, SafeRay (RustFloat.rounding .b32 lib) 60 r) :
    SafeRays (RustFloat.raysLaws Format.sub64_b32 Format.cutoff_b32 lib lib') (1 / 2 ^ 24) 2 60 rays where
  uR := Format.u_b32.le
  ωR := by
    have eω : (RustFloat.rounding .b32 lib).ω = 1 / 2 ^ 126 := Format.ω_b32
    rw [eω]
    norm_num
  L_two := le_rfl
  L_le := by norm_num
  two := h2
  len_le := hl
  sum := by
    have e : (RustFloat.rounding .b64 lib').u = 1 / 2 ^ 53 := Format.u_b64
    rw [e]
    linarith
  k_le := by show _ ≤ 127; norm_num
  k_le' := by show _ ≤ 127; norm_num
  big := by
    show (2 : ℝ) ^ 94 ≤ 2 ^ ((1024 : ℤ) - 1)
    rw [show ((1024 : ℤ) - 1) = ((1023 : ℕ) : ℤ) by norm_num, zpow_natCast]
    exact pow_le_pow_right₀ (by norm_num) (by norm_num)
  safe := hr

/-- C83 for `f64`: coordinates up to `2^500`, up to a billion rays. -/
theorem c83_f64_finite {lib : Libm Format.b64} {rays : List (Ray Coords (F64 lib))} (h2 : 2 ≤ rays.length)
    (hl : rays.length ≤ 2 ^ 30) (hr : ∀ r ∈ rays, SafeRay (RustFloat.rounding .b64 lib) 500 r) :
    ∃ pt, bestIntersectionOfRays (Svd3.svd : TrySvd (F64 lib')) rays = .ok pt ∧
      ∀ j, (RustFloat.rounding .b64 lib).isFinite (pt.data 0 j) :=
  c83_finite (safeRays_f64 h2 (by exact_mod_cast hl) hr)

/-- C83 for `f32`: coordinates up to `2^60`, up to a billion rays. -/
theorem c83_f32_finite {lib : Libm Format.b32} {rays : List (Ray Coords (F32 lib))} (h2 : 2 ≤ rays.length)
    (hl : rays.length ≤ 2 ^ 30) (hr : ∀ r ∈ rays, SafeRay (RustFloat.rounding .b32 lib) 60 r) :
    ∃ pt, bestIntersectionOfRays (Svd3.svd : TrySvd (F64 lib')) rays = .ok pt ∧
      ∀ j, (RustFloat.rounding .b32 lib).isFinite (pt.data 0 j) :=
  c83_finite (safeRays_f32 h2 (by exact_mod_cast hl) hr)

theorem bound_le {n n' κ κ' B : ℝ} (hn : n' ≤ n) (hn0 : 0 ≤ n) (hκ : κ ≤ κ') (hκ0 : 0 < κ) (hB : 0 ≤ B) :
    n' / κ' * B ≤ n / κ * B :=
  mul_le_mul_of_nonneg_right (div_le_div₀ hn0 hn hκ0 hκ) hB

/-- C83 for `f64`: the point found is finite and within
`1.6e-6 N / (1 - |cos θ| - 1.4e-6 N) * (M + |x|)` of the least-squares point `x`. -/
theorem c83_f64_accuracy {lib : Libm Format.b64} {rays : List (Ray Coords (F64 lib))} (h2 : 2 ≤ rays.length)
    (hr : ∀ r ∈ rays, SafeRay (RustFloat.rounding .b64 lib) 500 r) {M : ℝ} (hM0 : 1 / 2 ^ 1022 ≤ M)
    (hM : ∀ r ∈ rays, ∀ i, |(RustFloat.rounding .b64 lib).val (r.center i)| ≤ M)
    {a b : Ray Coords (F64 lib)} (ha : a ∈ rays) (hb : b ∈ rays) {κ : ℝ}
    (hκ : κ = 1 - absCos (vray (RustFloat.rounding .b64 lib) a).direction
      (vray (RustFloat.rounding .b64 lib) b).direction - 14 / 10000000 * rays.length)
    (hκ0 : 101 / 1000000000 < κ) {x : Vec} (hx : LeastSquares (rays.map (vray (RustFloat.rounding .b64 lib))) x) :
    ∃ pt, bestIntersectionOfRays (Svd3.svd : TrySvd (F64 lib')) rays = .ok pt ∧
      (∀ j, (RustFloat.rounding .b64 lib).isFinite (pt.data 0 j)) ∧
      distance (fun j => (RustFloat.rounding .b64 lib).val (pt.data 0 j)) x ≤
        16 / 10000000 * rays.length / κ * (M + len x) := by
  have hc0 : 0 ≤ absCos (vray (RustFloat.rounding .b64 lib) a).direction
      (vray (RustFloat.rounding .b64 lib) b).direction :=
    div_nonneg (abs_nonneg _) (mul_nonneg (len_nonneg _) (len_nonneg _))
  have hN : (rays.length : ℝ) ≤ 800000 := by linarith
  have hN0 : (0 : ℝ) ≤ rays.length := Nat.cast_nonneg _
  have hNN : (rays.length : ℝ) * rays.length ≤ 800000 * rays.length := mul_le_mul_of_nonneg_right hN hN0
  have hle : κ ≤ 1 - absCos (vray (RustFloat.rounding .b64 lib) a).direction
      (vray (RustFloat.rounding .b64 lib) b).direction - 48 * (rays.length * rays.length) * (1 / 2 ^ 53) -
      13 / 10000000 * rays.length := by rw [hκ]; linarith
  have hM0' : (RustFloat.rounding .b64 lib).ω ≤ M := Format.ω_b64'.le.trans hM0
  obtain ⟨pt, h1, h3, h4⟩ := c83_accuracy (safeRays_f64 (lib' := lib') h2 (by linarith) hr) Format.u_b64.le hM0' hM ha hb rfl
    (hκ0.trans_le hle) hx
  refine ⟨pt, h1, h3, h4.trans (bound_le ?_ (by positivity) hle (by linarith) ?_)⟩
  · linarith
  · have := len_nonneg x
    have : 0 ≤ M := le_trans (by positivity) hM0
    linarith

/-- C83 for `f32`: the point found is finite and within
`6.4e-5 N / (1 - |cos θ| - 7.1e-6 N) * (M + |x|)` of the least-squares point `x`. -/
theorem c83_f32_accuracy {lib : Libm Format.b32} {rays : List (Ray Coords (F32 lib))} (h2 : 2 ≤ rays.length)
    (hr : ∀ r ∈ rays, SafeRay (RustFloat.rounding .b32 lib) 60 r) {M : ℝ} (hM0 : 1 / 2 ^ 126 ≤ M)
    (hM : ∀ r ∈ rays, ∀ i, |(RustFloat.rounding .b32 lib).val (r.center i)| ≤ M)
    {a b : Ray Coords (F32 lib)} (ha : a ∈ rays) (hb : b ∈ rays) {κ : ℝ}
    (hκ : κ = 1 - absCos (vray (RustFloat.rounding .b32 lib) a).direction
      (vray (RustFloat.rounding .b32 lib) b).direction - 71 / 10000000 * rays.length)
    (hκ0 : 101 / 1000000000 < κ) {x : Vec} (hx : LeastSquares (rays.map (vray (RustFloat.rounding .b32 lib))) x) :
    ∃ pt, bestIntersectionOfRays (Svd3.svd : TrySvd (F64 lib')) rays = .ok pt ∧
      (∀ j, (RustFloat.rounding .b32 lib).isFinite (pt.data 0 j)) ∧
      distance (fun j => (RustFloat.rounding .b32 lib).val (pt.data 0 j)) x ≤
        64 / 1000000 * rays.length / κ * (M + len x) := by
  have hc0 : 0 ≤ absCos (vray (RustFloat.rounding .b32 lib) a).direction
      (vray (RustFloat.rounding .b32 lib) b).direction :=
    div_nonneg (abs_nonneg _) (mul_nonneg (len_nonneg _) (len_nonneg _))
  have hN : (rays.length : ℝ) ≤ 800000 := by linarith
  have hN0 : (0 : ℝ) ≤ rays.length := Nat.cast_nonneg _
  have hle : κ ≤ 1 - absCos (vray (RustFloat.rounding .b32 lib) a).direction
      (vray (RustFloat.rounding .b32 lib) b).direction - 48 * (rays.length * 2) * (1 / 2 ^ 24) -
      13 / 10000000 * rays.length := by rw [hκ]; linarith
  have hM0' : (RustFloat.rounding .b32 lib).ω ≤ M := Format.ω_b32.le.trans hM0
  have huF : (RustFloat.rounding .b64 lib').u ≤ 1 / 2 ^ 24 := Format.u_b64.le.trans (by norm_num)
  obtain ⟨pt, h1, h3, h4⟩ := c83_accuracy (safeRays_f32 (lib' := lib') h2 (by linarith) hr) huF hM0' hM ha hb rfl
    (hκ0.trans_le hle) hx
  refine ⟨pt, h1, h3, h4.trans (bound_le ?_ (by positivity) hle (by linarith) ?_)⟩
  · linarith
  · have := len_nonneg x
    have : 0 ≤ M := le_trans (by positivity) hM0
    linarith

end

/-! ### Non-vacuity: two rays through `(3, 4, 12)` -/

/-- The ray from the origin towards `(3, 4, 12)` and the vertical ray from `(3, 4, 0)`. -/
theorem rays_witness (f : Format) (hf : 12 < 2 ^ f.p) (hω : f.ω ≤ 1 / 3) (lib : Libm f) {k : ℕ} (hk : 4 ≤ k) :
    ∃ a b : Ray WorldFrame (RustFloat f lib),
      vray (RustFloat.rounding f lib) a = ⟨![0, 0, 0], ![3, 4, 12]⟩ ∧
      vray (RustFloat.rounding f lib) b = ⟨![3, 4, 0], ![0, 0, 1]⟩ ∧
      SafeRay (RustFloat.rounding f lib) k a ∧ SafeRay (RustFloat.rounding f lib) k b := by
  set fl := RustFloat.rounding f lib with hfl
  obtain ⟨w, hw⟩ : ∃ w : ℕ → RustFloat f lib, ∀ k, k ≤ 12 → fl.isFinite (w k) ∧ fl.val (w k) = k := by
    set w : ℕ → RustFloat f lib := fun k => if h : k < 2 ^ f.p then Flt.whole f k h else 0 with hw
    refine ⟨w, fun k hk => ?_⟩
    have hk' : k < 2 ^ f.p := lt_of_le_of_lt hk hf
    have e : w k = Flt.whole f k hk' := dif_pos hk'
    rw [e]
    refine ⟨trivial, ?_⟩
    show Flt.val (f := f) (Flt.whole f k hk') = _
    simp [Flt.whole, Flt.val]
  have hr : ∀ k', k' ≤ 12 → InRange fl k (w k') := by
    intro k' h
    refine ⟨(hw k' h).1, ?_⟩
    rw [(hw k' h).2, Nat.abs_cast]
    have h1 : (2 : ℝ) ^ 4 ≤ 2 ^ k := pow_le_pow_right₀ (by norm_num) hk
    have h2 : (k' : ℝ) ≤ 12 := by exact_mod_cast h
    norm_num at h1
    linarith
  have w0 := (hw 0 (by norm_num)).2
  have w1 := (hw 1 (by norm_num)).2
  have w3 := (hw 3 (by norm_num)).2
  have w4 := (hw 4 (by norm_num)).2
  have w12 := (hw 12 (by norm_num)).2
  have hω' : fl.ω ≤ 1 / 3 := hω
  have ea : (fun i => fl.val ((![w 3, w 4, w 12] : V3 _) i)) = ![3, 4, 12] := by
    funext i; fin_cases i <;> simp [w3, w4, w12]
  have eb : (fun i => fl.val ((![w 0, w 0, w 1] : V3 _) i)) = ![0, 0, 1] := by
    funext i; fin_cases i <;> simp [w0, w1]
  refine ⟨⟨![w 0, w 0, w 0], ![w 3, w 4, w 12]⟩, ⟨![w 3, w 4, w 0], ![w 0, w 0, w 1]⟩, ?_, ?_, ?_, ?_⟩
  · refine congrArg₂ Ray.mk ?_ ea
    funext i; fin_cases i <;> simp [vvec, w0]
  · refine congrArg₂ Ray.mk ?_ eb
    funext i; fin_cases i <;> simp [vvec, w0, w3, w4]
  · refine ⟨fun i => ?_, fun i => ?_, ⟨0, by simp [w3]⟩, ?_⟩
    · fin_cases i <;> exact hr _ (by norm_num)
    · fin_cases i <;> exact hr _ (by norm_num)
    · rw [ea, len_sq, vec3_dotProduct']
      norm_num
      linarith
  · refine ⟨fun i => ?_, fun i => ?_, ⟨2, by simp [w1]⟩, ?_⟩
    · fin_cases i <;> exact hr _ (by norm_num)
    · fin_cases i <;> exact hr _ (by norm_num)
    · rw [eb, len_sq, vec3_dotProduct']
      norm_num
      linarith

theorem len_witness : len ![(3 : ℝ), 4, 12] = 13 := by
  rw [len_eq, vec3_dotProduct']
  refine (Real.sqrt_eq_iff_mul_self_eq_of_pos (by norm_num)).2 ?_
  norm_num

theorem absCos_witness : absCos ![(3 : ℝ), 4, 12] ![(0 : ℝ), 0, 1] = 12 / 13 := by
  have h : len ![(0 : ℝ), 0, 1] = 1 := by
    rw [len_eq, vec3_dotProduct']
    norm_num
  rw [absCos, len_witness, h, vec3_dotProduct']
  norm_num

theorem leastSquares_witness :
    LeastSquares [(⟨![0, 0, 0], ![3, 4, 12]⟩ : Ray WorldFrame ℝ), ⟨![3, 4, 0], ![0, 0, 1]⟩] ![3, 4, 12] := by
  intro y
  rw [cost_eq_zero]
  · exact cost_nonneg _ y
  · intro r hr
    simp only [List.mem_cons, List.not_mem_nil, or_false] at hr
    rcases hr with rfl | rfl
    · refine ⟨1, ?_⟩
      funext i; fin_cases i <;> simp
    · refine ⟨12, ?_⟩
      funext i; fin_cases i <;> simp

/-- Non-vacuity of the finiteness in C83: a ray given twice. -/
example (lib lib' : Libm Format.b64) : ∃ (r : Ray WorldFrame (F64 lib)) (pt : _),
    vray (RustFloat.rounding .b64 lib) r = ⟨![3, 4, 0], ![0, 0, 1]⟩ ∧
    bestIntersectionOfRays (Svd3.svd : TrySvd (F64 lib')) [r, r] = .ok pt ∧
    ∀ j, (RustFloat.rounding .b64 lib).isFinite (pt.data 0 j) := by
  have hω : Format.b64.ω ≤ 1 / 3 := by
    rw [Format.ω_b64']
    refine one_div_le_one_div_of_le (by norm_num) ?_
    exact le_trans (by norm_num) (pow_le_pow_right₀ (by norm_num) (show 2 ≤ 1022 by norm_num) : (2 : ℝ) ^ 2 ≤ _)
  obtain ⟨-, r, -, hr, -, sr⟩ := rays_witness .b64 (by decide) hω lib (k := 500) (by norm_num)
  obtain ⟨pt, h1, h2⟩ := c83_f64_finite (lib' := lib') (rays := [r, r]) le_rfl (by norm_num)
    (by simp only [List.mem_cons, List.not_mem_nil, or_false, forall_eq_or_imp, forall_eq]; exact ⟨sr, sr⟩)
  exact ⟨r, pt, hr, h1, h2⟩

/-- Non-vacuity of C83 (`f64`): the point found is within 0.001 of `(3, 4, 12)`. -/
example (lib lib' : Libm Format.b64) : ∃ (rays : List (Ray WorldFrame (F64 lib))) (pt : _),
    bestIntersectionOfRays (Svd3.svd : TrySvd (F64 lib')) rays = .ok pt ∧
    distance (fun j => (RustFloat.rounding .b64 lib).val (pt.data 0 j)) ![3, 4, 12] ≤ 1 / 1000 := by
  have hω : Format.b64.ω ≤ 1 / 3 := by
    rw [Format.ω_b64']
    refine one_div_le_one_div_of_le (by norm_num) ?_
    exact le_trans (by norm_num) (pow_le_pow_right₀ (by norm_num) (show 2 ≤ 1022 by norm_num) : (2 : ℝ) ^ 2 ≤ _)
  obtain ⟨a, b, ha, hb, sa, sb⟩ := rays_witness .b64 (by decide) hω lib (k := 500) (by norm_num)
  obtain ⟨pt, h1, -, h3⟩ := c83_f64_accuracy (lib' := lib') (rays := [a, b]) (M := 4) le_rfl
    (by simp only [List.mem_cons, List.not_mem_nil, or_false, forall_eq_or_imp, forall_eq]; exact ⟨sa, sb⟩)
    (by
      refine le_trans (one_div_le_one_div_of_le (by norm_num) (one_le_pow₀ (by norm_num) : (1 : ℝ) ≤ _)) (by norm_num))
    (by
      have ea := fun i => congrFun (congrArg Ray.center ha) i
      have eb := fun i => congrFun (congrArg Ray.center hb) i
      simp only [vray, vvec] at ea eb
      simp only [List.mem_cons, List.not_mem_nil, or_false, forall_eq_or_imp, forall_eq]
      refine ⟨fun i => ?_, fun i => ?_⟩
      · rw [ea]; fin_cases i <;> simp
      · rw [eb]; fin_cases i <;> norm_num)
    (List.mem_cons_self ..) (by simp : b ∈ [a, b]) rfl
    (by rw [ha, hb, absCos_witness]; norm_num)
    (x := ![3, 4, 12]) (by simpa only [List.map_cons, List.map_nil, ha, hb] using leastSquares_witness)
  refine ⟨_, pt, h1, h3.trans ?_⟩
  rw [ha, hb, absCos_witness, len_witness]
  norm_num

/-- Non-vacuity of C83 (`f32`): the point found is within 0.03 of `(3, 4, 12)`. -/
example (lib : Libm Format.b32) (lib' : Libm Format.b64) : ∃ (rays : List (Ray WorldFrame (F32 lib))) (pt : _),
    bestIntersectionOfRays (Svd3.svd : TrySvd (F64 lib')) rays = .ok pt ∧
    distance (fun j => (RustFloat.rounding .b32 lib).val (pt.data 0 j)) ![3, 4, 12] ≤ 3 / 100 := by
  have hω : Format.b32.ω ≤ 1 / 3 := by
    rw [Format.ω_b32]
    norm_num
  obtain ⟨a, b, ha, hb, sa, sb⟩ := rays_witness .b32 (by decide) hω lib (k := 60) (by norm_num)
  obtain ⟨pt, h1, -, h3⟩ := c83_f32_accuracy (lib' := lib') (rays := [a, b]) (M := 4) le_rfl
    (by simp only [List.mem_cons, List.not_mem_nil, or_false, forall_eq_or_imp, forall_eq]; exact ⟨sa, sb⟩)
    (by norm_num)
    (by
      have ea := fun i => congrFun (congrArg Ray.center ha) i
      have eb := fun i => congrFun (congrArg Ray.center hb) i
      simp only [vray, vvec] at ea eb
      simp only [List.mem_cons, List.not_mem_nil, or_false, forall_eq_or_imp, forall_eq]
      refine ⟨fun i => ?_, fun i => ?_⟩
      · rw [ea]; fin_cases i <;> simp
      · rw [eb]; fin_cases i <;> norm_num)
    (List.mem_cons_self ..) (by simp : b ∈ [a, b]) rfl
    (by rw [ha, hb, absCos_witness]; norm_num)
    (x := ![3, 4, 12]) (by simpa only [List.map_cons, List.map_nil, ha, hb] using leastSquares_witness)
  refine ⟨_, pt, h1, h3.trans ?_⟩
  rw [ha, hb, absCos_witness, len_witness]
  norm_num

end CamGeom
