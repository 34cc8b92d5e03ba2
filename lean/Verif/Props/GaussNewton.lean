import Verif.Props.Visibility
import Mathlib.Topology.Instances.Matrix
import Mathlib.Analysis.Asymptotics.Lemmas

/-!
# C110: convergence of the Gauss-Newton iteration
-/

namespace CamGeom
open Spec Matrix ExtrinsicParameters Filter Asymptotics Topology

/-- One Gauss-Newton step: `y` plus the solution of the normal equations at `y`. -/
noncomputable def gaussNewton (cs : List (PerspectiveCamera × (Fin 2 → ℝ))) (y : Vec) : Vec :=
  y - (normalMatrix (cs.map Prod.fst) y)⁻¹ *ᵥ normalVector cs y

section
variable {c : PerspectiveCamera} {cs : List (PerspectiveCamera × (Fin 2 → ℝ))} {x : Vec}

theorem depth_sub (he : ValidExtrinsics c.extrinsics) (y : Vec) :
    depthOf c.extrinsics y - depthOf c.extrinsics x = ∑ j, c.extrinsics.rotation 2 j * (y - x) j := by
  rw [depthOf_eq he, depthOf_eq he, ← Pi.sub_apply, ← mulVec_sub, sub_sub_sub_cancel_right]
  rfl

theorem depth_continuousAt (he : ValidExtrinsics c.extrinsics) : ContinuousAt (depthOf c.extrinsics) x := by
  have : depthOf c.extrinsics = fun y => depthOf c.extrinsics x + ∑ j, c.extrinsics.rotation 2 j * (y - x) j := by
    funext y
    rw [← depth_sub he]
    ring
  rw [this]
  fun_prop

theorem PerspectiveCamera.Usable.eventually (h : c.Usable x) : ∀ᶠ y in 𝓝 x, c.Usable y := by
  obtain ⟨p, hx, hy, hp, he, h0, hz⟩ := h
  filter_upwards [(depth_continuousAt he).eventually_ne hz] with y hyz
  exact ⟨p, hx, hy, hp, he, h0, hyz⟩

theorem PerspectiveCamera.Usable.jacobian_continuousAt (h : c.Usable x) : ContinuousAt c.jacobian x := by
  obtain ⟨i, e⟩ := c
  obtain ⟨p, hx, hy, hp, he, h0, hz⟩ := h
  simp only at hp
  subst hp
  set c : PerspectiveCamera := ⟨.ofParams p, e⟩ with hc
  have hm := jacobianCache_m c
  have hden : homImage c.asCameraMatrix x 2 ≠ 0 := by
    have := (c21_depth p he h0 (.single x) 0).2
    simp only [Points.single] at this
    rw [this]
    exact div_ne_zero hz h0
  have hcont : ∀ a, ContinuousAt (fun y : Vec => homImage c.asCameraMatrix y a) x :=
    fun a => (hasFDerivAt_homImage _ x a).continuousAt
  refine continuousAt_pi.2 fun a => continuousAt_pi.2 fun b => ?_
  have : (fun y : Vec => c.jacobian y a b) = fun y => c.asCameraMatrix a.castSucc b.castSucc / homImage c.asCameraMatrix y 2 -
      homImage c.asCameraMatrix y a.castSucc * c.asCameraMatrix 2 b.castSucc / homImage c.asCameraMatrix y 2 ^ 2 := by
    funext y
    rw [← hm]
    exact linearizeAt_apply _ y a b
  rw [this]
  exact (continuousAt_const.div (hcont 2) hden).sub
    (((hcont _).mul continuousAt_const).div ((hcont 2).pow 2) (pow_ne_zero 2 hden))

theorem normalMatrix_continuousAt {cs : List PerspectiveCamera} (h : ∀ c ∈ cs, c.Usable x) :
    ContinuousAt (normalMatrix cs) x := by
  induction cs with
  | nil =>
    have : normalMatrix [] = fun _ => 0 := by funext y; simp [normalMatrix]
    rw [this]
    exact continuousAt_const
  | cons c cs ih =>
    have : normalMatrix (c :: cs) = fun y => (c.jacobian y)ᵀ * c.jacobian y + normalMatrix cs y := by
      funext y
      simp [normalMatrix]
    rw [this]
    have hj := (h c List.mem_cons_self).jacobian_continuousAt
    have hm : Continuous fun M : Matrix (Fin 2) (Fin 3) ℝ => Mᵀ * M := continuous_id.matrix_transpose.matrix_mul continuous_id
    exact (hm.continuousAt.comp hj).add (ih fun c' hc' => h c' (List.mem_cons_of_mem _ hc'))

/-- The pixel difference and the Jacobian. -/
theorem image_sub {y : Vec} (h : c.Usable y) (hx : depthOf c.extrinsics x ≠ 0) :
    c.image y - c.image x = (depthOf c.extrinsics y / depthOf c.extrinsics x) • (c.jacobian y *ᵥ (y - x)) := by
  obtain ⟨i, e⟩ := c
  obtain ⟨p, -, -, hp, he, h0, hz⟩ := h
  simp only at hp he h0 hz hx ⊢
  subst hp
  have exy : y + (x - y) = x := by abel
  have k := c55_exact_remainder p he h0 y (x - y) hz (by rw [exy]; exact hx)
  simp only at k
  rw [exy] at k
  have k2 : x - y = -(y - x) := by abel
  rw [k2, mulVec_neg, smul_neg] at k
  rw [← neg_sub]
  exact neg_eq_iff_eq_neg.2 k

/-- The matrix of the remaining error. -/
noncomputable def errorMatrix (cs : List (PerspectiveCamera × (Fin 2 → ℝ))) (x y : Vec) : Matrix (Fin 3) (Fin 3) ℝ :=
  (cs.map fun c => (1 - depthOf c.1.extrinsics y / depthOf c.1.extrinsics x) • ((c.1.jacobian y)ᵀ * c.1.jacobian y)).sum

theorem normal_error {y : Vec} (h : ∀ c ∈ cs, c.1.Usable y) (hx : ∀ c ∈ cs, depthOf c.1.extrinsics x ≠ 0)
    (hu : ∀ c ∈ cs, c.1.image x = c.2) :
    normalMatrix (cs.map Prod.fst) y *ᵥ (y - x) - normalVector cs y = errorMatrix cs x y *ᵥ (y - x) := by
  induction cs with
  | nil => simp [normalMatrix, normalVector, errorMatrix]
  | cons c cs ih =>
    have ih := ih (fun c' hc' => h c' (List.mem_cons_of_mem _ hc')) (fun c' hc' => hx c' (List.mem_cons_of_mem _ hc'))
      (fun c' hc' => hu c' (List.mem_cons_of_mem _ hc'))
    have e1 : normalMatrix ((c :: cs).map Prod.fst) y = (c.1.jacobian y)ᵀ * c.1.jacobian y + normalMatrix (cs.map Prod.fst) y := by
      simp [normalMatrix]
    have e2 : normalVector (c :: cs) y = (c.1.jacobian y)ᵀ *ᵥ (c.1.image y - c.2) + normalVector cs y := by
      simp [normalVector]
    have e3 : errorMatrix (c :: cs) x y =
        (1 - depthOf c.1.extrinsics y / depthOf c.1.extrinsics x) • ((c.1.jacobian y)ᵀ * c.1.jacobian y) + errorMatrix cs x y := by
      simp [errorMatrix]
    rw [e1, e2, e3, add_mulVec, add_mulVec, ← ih, ← hu c List.mem_cons_self,
      image_sub (h c List.mem_cons_self) (hx c List.mem_cons_self), mulVec_smul, mulVec_mulVec, smul_mulVec]
    module

theorem errorMatrix_isBigO (h : ∀ c ∈ cs, c.1.Usable x) (i j : Fin 3) :
    (fun y => errorMatrix cs x y i j) =O[𝓝 x] fun y => ‖y - x‖ := by
  induction cs with
  | nil =>
    have : (fun y => errorMatrix [] x y i j) = fun _ => 0 := by funext y; simp [errorMatrix]
    rw [this]
    exact isBigO_zero _ _
  | cons c cs ih =>
    have e : (fun y => errorMatrix (c :: cs) x y i j) = fun y =>
        (1 - depthOf c.1.extrinsics y / depthOf c.1.extrinsics x) * ((c.1.jacobian y)ᵀ * c.1.jacobian y) i j +
          errorMatrix cs x y i j := by
      funext y
      simp [errorMatrix]
    rw [e]
    refine IsBigO.add ?_ (ih fun c' hc' => h c' (List.mem_cons_of_mem _ hc'))
    have hc := h c List.mem_cons_self
    have hj := hc.jacobian_continuousAt
    obtain ⟨p, -, -, -, he, -, hz⟩ := hc
    have hm : Continuous fun M : Matrix (Fin 2) (Fin 3) ℝ => (Mᵀ * M) i j :=
      (continuous_id.matrix_transpose.matrix_mul continuous_id).matrix_elem i j
    have b1 : (fun y => ((c.1.jacobian y)ᵀ * c.1.jacobian y) i j) =O[𝓝 x] fun _ => (1 : ℝ) :=
      (hm.continuousAt.comp hj).tendsto.isBigO_one ℝ
    have hz' : depthOf c.1.extrinsics x ≠ 0 := hz
    have b2 : (fun y => 1 - depthOf c.1.extrinsics y / depthOf c.1.extrinsics x) =O[𝓝 x] fun y => ‖y - x‖ := by
      have : (fun y => 1 - depthOf c.1.extrinsics y / depthOf c.1.extrinsics x) =
          fun y => ∑ k, (-(c.1.extrinsics.rotation 2 k / depthOf c.1.extrinsics x)) * (y - x) k := by
        funext y
        have hs := depth_sub (c := c.1) (x := x) he y
        have : ∑ k, (-(c.1.extrinsics.rotation 2 k / depthOf c.1.extrinsics x)) * (y - x) k =
            -(∑ k, c.1.extrinsics.rotation 2 k * (y - x) k) / depthOf c.1.extrinsics x := by
          simp only [Fin.sum_univ_three]
          ring
        rw [this, ← hs]
        field_simp
        ring
      rw [this]
      have t : ∀ k, (fun y => (-(c.1.extrinsics.rotation 2 k / depthOf c.1.extrinsics x)) * (y - x) k) =O[𝓝 x]
          fun y => ‖y - x‖ := fun k => IsBigO.const_mul_left (IsBigO.of_bound 1 (Eventually.of_forall fun y => by
        rw [one_mul, norm_norm]
        exact norm_le_pi_norm (y - x) k)) _
      simp only [Fin.sum_univ_three]
      exact ((t 0).add (t 1)).add (t 2)
    simpa using b2.mul b1

/-- **C110**: if the centres of the cameras are not all on one line through the point `x` with the given pixels, then near `x`
the normal equations are solvable, and the Gauss-Newton step squares the error up to a constant factor. -/
theorem c110_quadratic (h : ∀ c ∈ cs, c.1.Usable x) (hu : ∀ c ∈ cs, c.1.image x = c.2)
    (ha : ¬ Aligned (cs.map Prod.fst) x) :
    ∃ ε > 0, ∃ K : ℝ, ∀ y : Vec, ‖y - x‖ < ε → (normalMatrix (cs.map Prod.fst) y).det ≠ 0 ∧
      ‖gaussNewton cs y - x‖ ≤ K * ‖y - x‖ ^ 2 := by
  have hm : ∀ c ∈ cs.map Prod.fst, PerspectiveCamera.Usable c x := by
    intro c hc
    obtain ⟨c', hc', rfl⟩ := List.mem_map.1 hc
    exact h c' hc'
  have hdet := (c110_normal_matrix hm).2 ha
  have hN := normalMatrix_continuousAt hm
  have hdc : ContinuousAt (fun y => (normalMatrix (cs.map Prod.fst) y).det) x :=
    (continuous_id.matrix_det (n := Fin 3) (R := ℝ)).continuousAt.comp hN
  have hadj : ContinuousAt (fun y => (normalMatrix (cs.map Prod.fst) y).adjugate) x :=
    (continuous_id.matrix_adjugate (n := Fin 3) (R := ℝ)).continuousAt.comp hN
  have hev := hdc.eventually_ne hdet
  have hus : ∀ᶠ y in 𝓝 x, ∀ c ∈ cs, c.1.Usable y := by
    have : ∀ l : List (PerspectiveCamera × (Fin 2 → ℝ)), (∀ c ∈ l, c.1.Usable x) → ∀ᶠ y in 𝓝 x, ∀ c ∈ l, c.1.Usable y := by
      intro l
      induction l with
      | nil => intro _; exact Eventually.of_forall fun y => by simp
      | cons c l ih =>
        intro hl
        filter_upwards [(hl c List.mem_cons_self).eventually, ih fun c' hc' => hl c' (List.mem_cons_of_mem _ hc')] with y h1 h2
        intro c' hc'
        rcases List.mem_cons.1 hc' with rfl | hc'
        · exact h1
        · exact h2 c' hc'
    exact this cs h
  have hz : ∀ c ∈ cs, depthOf c.1.extrinsics x ≠ 0 := by
    intro c hc
    obtain ⟨p, -, -, -, -, -, hz⟩ := h c hc
    exact hz
  -- the error after the step
  have key : ∀ᶠ y in 𝓝 x, gaussNewton cs y - x =
      ((normalMatrix (cs.map Prod.fst) y)⁻¹ * errorMatrix cs x y) *ᵥ (y - x) := by
    filter_upwards [hev, hus] with y h1 h2
    rw [← mulVec_mulVec, ← normal_error h2 hz hu, mulVec_sub, mulVec_mulVec, nonsing_inv_mul _ h1.isUnit, one_mulVec,
      gaussNewton]
    abel
  have inv1 : ∀ i j, (fun y => (normalMatrix (cs.map Prod.fst) y)⁻¹ i j) =O[𝓝 x] fun _ => (1 : ℝ) := by
    intro i j
    have : (fun y => (normalMatrix (cs.map Prod.fst) y)⁻¹ i j) = fun y =>
        ((normalMatrix (cs.map Prod.fst) y).det)⁻¹ * (normalMatrix (cs.map Prod.fst) y).adjugate i j := by
      funext y
      rw [inv_def, Ring.inverse_eq_inv']
      rfl
    rw [this]
    exact ((hdc.inv₀ hdet).mul ((continuous_id.matrix_elem i j).continuousAt.comp hadj)).tendsto.isBigO_one ℝ
  have big : (fun y => gaussNewton cs y - x) =O[𝓝 x] fun y => ‖y - x‖ ^ 2 := by
    refine IsBigO.congr' ?_ (key.mono fun y hy => hy.symm) EventuallyEq.rfl
    refine isBigO_pi.2 fun i => ?_
    have : (fun y => (((normalMatrix (cs.map Prod.fst) y)⁻¹ * errorMatrix cs x y) *ᵥ (y - x)) i) = fun y =>
        ∑ k, (∑ j, (normalMatrix (cs.map Prod.fst) y)⁻¹ i j * errorMatrix cs x y j k) * (y - x) k := by
      funext y
      simp only [mulVec, dotProduct, Matrix.mul_apply]
    rw [this]
    have t : ∀ k, (fun y => (∑ j, (normalMatrix (cs.map Prod.fst) y)⁻¹ i j * errorMatrix cs x y j k) * (y - x) k) =O[𝓝 x]
        fun y => ‖y - x‖ ^ 2 := by
      intro k
      have b1 : (fun y => ∑ j, (normalMatrix (cs.map Prod.fst) y)⁻¹ i j * errorMatrix cs x y j k) =O[𝓝 x]
          fun y => ‖y - x‖ := by
        have t : ∀ j, (fun y => (normalMatrix (cs.map Prod.fst) y)⁻¹ i j * errorMatrix cs x y j k) =O[𝓝 x]
            fun y => ‖y - x‖ := fun j => by simpa using (inv1 i j).mul (errorMatrix_isBigO h j k)
        simp only [Fin.sum_univ_three]
        exact ((t 0).add (t 1)).add (t 2)
      have b2 : (fun y : Vec => (y - x) k) =O[𝓝 x] fun y => ‖y - x‖ :=
        IsBigO.of_bound 1 (Eventually.of_forall fun y => by
          rw [one_mul, norm_norm]
          exact norm_le_pi_norm (y - x) k)
      simpa only [sq] using b1.mul b2
    simp only [Fin.sum_univ_three] at t ⊢
    exact ((t 0).add (t 1)).add (t 2)
  obtain ⟨K, hK⟩ := big.bound
  obtain ⟨ε, hε, hb⟩ := Metric.eventually_nhds_iff.1 (hev.and hK)
  refine ⟨ε, hε, K, fun y hy => ?_⟩
  obtain ⟨h1, h2⟩ := hb (by rwa [dist_eq_norm])
  refine ⟨h1, ?_⟩
  rwa [norm_pow, norm_norm] at h2

/-- **C110**: hence the iteration converges to `x` from every starting point near it. -/
theorem c110_converges (h : ∀ c ∈ cs, c.1.Usable x) (hu : ∀ c ∈ cs, c.1.image x = c.2)
    (ha : ¬ Aligned (cs.map Prod.fst) x) :
    ∃ ε > 0, ∀ y : Vec, ‖y - x‖ < ε → Tendsto (fun n => (gaussNewton cs)^[n] y) atTop (𝓝 x) := by
  obtain ⟨ε, hε, K, hK⟩ := c110_quadratic h hu ha
  have hK1 : 0 < 2 * (|K| + 1) := by positivity
  refine ⟨min ε (1 / (2 * (|K| + 1))), lt_min hε (by positivity), fun y hy => ?_⟩
  have step : ∀ z : Vec, ‖z - x‖ < min ε (1 / (2 * (|K| + 1))) → ‖gaussNewton cs z - x‖ ≤ 1 / 2 * ‖z - x‖ := by
    intro z hz
    have h1 := (hK z (hz.trans_le (min_le_left _ _))).2
    have h2 := (hz.trans_le (min_le_right _ _)).le
    rw [le_div_iff₀ hK1] at h2
    have h3 : K * ‖z - x‖ ≤ 1 / 2 := by
      have := mul_le_mul_of_nonneg_right (le_abs_self K) (norm_nonneg (z - x))
      nlinarith [norm_nonneg (z - x)]
    calc ‖gaussNewton cs z - x‖ ≤ K * ‖z - x‖ ^ 2 := h1
      _ = K * ‖z - x‖ * ‖z - x‖ := by ring
      _ ≤ 1 / 2 * ‖z - x‖ := mul_le_mul_of_nonneg_right h3 (norm_nonneg _)
  have iter : ∀ n : ℕ, ‖(gaussNewton cs)^[n] y - x‖ ≤ (1 / 2) ^ n * ‖y - x‖ := by
    intro n
    induction n with
    | zero => simp
    | succ n ih =>
      rw [Function.iterate_succ_apply']
      have hn : ‖(gaussNewton cs)^[n] y - x‖ < min ε (1 / (2 * (|K| + 1))) :=
        (ih.trans (mul_le_of_le_one_left (norm_nonneg _) (pow_le_one₀ (by norm_num) (by norm_num)))).trans_lt hy
      refine (step _ hn).trans ?_
      rw [pow_succ, mul_comm ((1 / 2 : ℝ) ^ n), mul_assoc]
      exact mul_le_mul_of_nonneg_left ih (by norm_num)
  rw [tendsto_iff_norm_sub_tendsto_zero]
  refine squeeze_zero (fun n => norm_nonneg _) iter ?_
  have := (tendsto_pow_atTop_nhds_zero_of_lt_one (r := (1 / 2 : ℝ)) (by norm_num) (by norm_num)).mul_const ‖y - x‖
  rwa [zero_mul] at this

end

/-- Two cameras at `(1, 2, 3)` and `(2, 2, 3)` and the pixels of the point `(1, 3, 3)`: iterations started near the point
converge to it. -/
example (cs : List (PerspectiveCamera × (Fin 2 → ℝ))) (x : Vec) (hx : x = ![1, 3, 3])
    (hcs : cs = [(sampleCamera ![1, 2, 3], (sampleCamera ![1, 2, 3]).image x),
      (sampleCamera ![2, 2, 3], (sampleCamera ![2, 2, 3]).image x)]) :
    ∃ ε > 0, ∀ y : Vec, ‖y - x‖ < ε → Tendsto (fun n => (gaussNewton cs)^[n] y) atTop (𝓝 x) := by
  have mem : ∀ c ∈ cs, c = (sampleCamera ![1, 2, 3], (sampleCamera ![1, 2, 3]).image x) ∨
      c = (sampleCamera ![2, 2, 3], (sampleCamera ![2, 2, 3]).image x) := by rw [hcs]; simp
  refine c110_converges ?_ ?_ ?_
  · intro c hc
    rcases mem c hc with rfl | rfl
    · exact sampleCamera_usable (by simp) (by rw [hx]; norm_num)
    · exact sampleCamera_usable (by simp) (by rw [hx]; norm_num)
  · intro c hc
    rcases mem c hc with rfl | rfl <;> rfl
  · rintro ⟨d, hd⟩
    obtain ⟨s, hs⟩ := hd (sampleCamera ![1, 2, 3]) (by rw [hcs]; simp)
    obtain ⟨t, ht⟩ := hd (sampleCamera ![2, 2, 3]) (by rw [hcs]; simp)
    simp only [sampleCamera, c04_camcenter] at hs ht
    have s0 := congrFun hs 0
    have s1 := congrFun hs 1
    have t0 := congrFun ht 0
    have t1 := congrFun ht 1
    simp [hx] at s0 s1 t0 t1
    rcases s0 with rfl | h
    · linarith
    · rw [h] at t0
      linarith

end CamGeom
