import Verif.Props.Linearize
import Verif.Props.Epipolar
import Verif.Props.CameraFacts
import Mathlib.Analysis.Calculus.FDeriv.Mul

/-!
# C110: refining a point with the Jacobians of several cameras
-/

namespace CamGeom
open Spec Matrix ExtrinsicParameters

/-- A perspective camera. -/
abbrev PerspectiveCamera := Camera ℝ (IntrinsicParametersPerspective ℝ)

/-- Pixel of a point. -/
noncomputable def PerspectiveCamera.image (c : PerspectiveCamera) (x : Vec) : Fin 2 → ℝ := (c.worldToPixel (.single x)).data 0

/-- The matrix `linearize_at` returns at the point `x`. -/
noncomputable def PerspectiveCamera.jacobian (c : PerspectiveCamera) (x : Vec) : Matrix (Fin 2) (Fin 3) ℝ :=
  Matrix.of ((JacobianPerspectiveCache.new c).linearizeAt (.single x))

/-- Cameras with nonzero focal lengths for which the world origin and the point `x` have nonzero depth. -/
def PerspectiveCamera.Usable (c : PerspectiveCamera) (x : Vec) : Prop :=
  ∃ p : PerspectiveParams ℝ, p.fx ≠ 0 ∧ p.fy ≠ 0 ∧ c.intrinsics = .ofParams p ∧ ValidExtrinsics c.extrinsics ∧
    (c.extrinsics.worldToCamera (.single 0)).data 0 2 ≠ 0 ∧ (c.extrinsics.worldToCamera (.single x)).data 0 2 ≠ 0

/-- All camera centres are on one line through `x`. -/
def Aligned (cs : List PerspectiveCamera) (x : Vec) : Prop :=
  ∃ d : Vec, ∀ c ∈ cs, ∃ t : ℝ, c.extrinsics.camcenter = x + t • d

/-- The matrix of the normal equations, the sum of `Jᵀ J`. -/
noncomputable def normalMatrix (cs : List PerspectiveCamera) (x : Vec) : Matrix (Fin 3) (Fin 3) ℝ :=
  (cs.map fun c => (c.jacobian x)ᵀ * c.jacobian x).sum

/-- The sum of the squared distances between pixels `u` and the images of the point `x`. -/
noncomputable def reprojectionCost (cs : List (PerspectiveCamera × (Fin 2 → ℝ))) (x : Vec) : ℝ :=
  (cs.map fun c => (c.1.image x - c.2) ⬝ᵥ (c.1.image x - c.2)).sum

/-- The sum of `Jᵀ r`, `r` being the difference between the image of `x` and the given pixel. -/
noncomputable def normalVector (cs : List (PerspectiveCamera × (Fin 2 → ℝ))) (x : Vec) : Vec :=
  (cs.map fun c => (c.1.jacobian x)ᵀ *ᵥ (c.1.image x - c.2)).sum

section
variable {c : PerspectiveCamera} {cs : List PerspectiveCamera} {x : Vec}

theorem PerspectiveCamera.Usable.kernel (h : c.Usable x) (o : Vec) :
    c.jacobian x *ᵥ o = 0 ↔ ∃ t : ℝ, o = t • (x - c.extrinsics.camcenter) := by
  obtain ⟨i, e⟩ := c
  obtain ⟨p, hx, hy, rfl, he, h0, hz⟩ := h
  exact c28_kernel p hx hy he h0 x hz o

theorem PerspectiveCamera.Usable.ne (h : c.Usable x) : x ≠ c.extrinsics.camcenter := by
  obtain ⟨p, hx, hy, -, he, h0, hz⟩ := h
  rintro h
  rw [worldToCamera_rot he] at hz
  simp only [Points.single] at hz
  rw [h, sub_self, mulVec_zero] at hz
  exact hz rfl

theorem normalMatrix_form (cs : List PerspectiveCamera) (x o : Vec) :
    o ⬝ᵥ (normalMatrix cs x *ᵥ o) = (cs.map fun c => (c.jacobian x *ᵥ o) ⬝ᵥ (c.jacobian x *ᵥ o)).sum := by
  induction cs with
  | nil => simp [normalMatrix]
  | cons c cs ih =>
    have e : normalMatrix (c :: cs) x = (c.jacobian x)ᵀ * c.jacobian x + normalMatrix cs x := by simp [normalMatrix]
    rw [e, add_mulVec, dotProduct_add, ih, List.map_cons, List.sum_cons, ← mulVec_mulVec, dotProduct_mulVec,
      vecMul_transpose]

/-- An offset is invisible to the normal equations exactly if it is invisible to every Jacobian. -/
theorem normalMatrix_kernel (cs : List PerspectiveCamera) (x o : Vec) :
    normalMatrix cs x *ᵥ o = 0 ↔ ∀ c ∈ cs, c.jacobian x *ᵥ o = 0 := by
  constructor
  · intro h c hc
    have h1 := normalMatrix_form cs x o
    rw [h, dotProduct_zero] at h1
    have h2 : ∀ r ∈ cs.map fun c => (c.jacobian x *ᵥ o) ⬝ᵥ (c.jacobian x *ᵥ o), 0 ≤ r := by
      intro r hr
      obtain ⟨c, -, rfl⟩ := List.mem_map.1 hr
      exact Finset.sum_nonneg fun i _ => mul_self_nonneg _
    have h3 := (List.single_le_sum h2) _ (List.mem_map_of_mem (f := fun c => (c.jacobian x *ᵥ o) ⬝ᵥ (c.jacobian x *ᵥ o)) hc)
    rw [← h1] at h3
    exact dotProduct_self_eq_zero.1 (le_antisymm h3 (Finset.sum_nonneg fun i _ => mul_self_nonneg _))
  · intro h
    induction cs with
    | nil => simp [normalMatrix]
    | cons c cs ih =>
      have e : normalMatrix (c :: cs) x = (c.jacobian x)ᵀ * c.jacobian x + normalMatrix cs x := by simp [normalMatrix]
      rw [e, add_mulVec, ih fun c hc => h c (List.mem_cons_of_mem _ hc), ← mulVec_mulVec, h c List.mem_cons_self,
        mulVec_zero, add_zero]

theorem aligned_iff (h : ∀ c ∈ cs, c.Usable x) :
    Aligned cs x ↔ ∃ o : Vec, o ≠ 0 ∧ ∀ c ∈ cs, ∃ t : ℝ, o = t • (x - c.extrinsics.camcenter) := by
  constructor
  · rintro ⟨d, hd⟩
    cases cs with
    | nil => exact ⟨![1, 0, 0], fun h0 => by simpa using congrFun h0 0, by simp⟩
    | cons c cs =>
      have key : ∀ c' ∈ c :: cs, ∃ t : ℝ, t ≠ 0 ∧ c'.extrinsics.camcenter = x + t • d := by
        intro c' hc'
        obtain ⟨t, ht⟩ := hd c' hc'
        refine ⟨t, ?_, ht⟩
        rintro rfl
        rw [zero_smul, add_zero] at ht
        exact (h c' hc').ne ht.symm
      refine ⟨d, ?_, fun c' hc' => ?_⟩
      · rintro rfl
        obtain ⟨t, -, ht⟩ := key c List.mem_cons_self
        rw [smul_zero, add_zero] at ht
        exact (h c List.mem_cons_self).ne ht.symm
      · obtain ⟨t, h0, ht⟩ := key c' hc'
        refine ⟨-t⁻¹, ?_⟩
        rw [ht, sub_add_cancel_left, smul_neg, neg_smul, neg_neg, smul_smul, inv_mul_cancel₀ h0, one_smul]
  · rintro ⟨o, ho, h1⟩
    refine ⟨o, fun c hc => ?_⟩
    obtain ⟨t, ht⟩ := h1 c hc
    have h0 : t ≠ 0 := by
      rintro rfl
      rw [zero_smul] at ht
      exact ho ht
    refine ⟨-t⁻¹, ?_⟩
    rw [ht, smul_smul, neg_mul, inv_mul_cancel₀ h0]
    module

/-- **C110**: the normal equations of the Jacobians are solvable for every right-hand side exactly if the centres of the
cameras are not all on one line through the point. -/
theorem c110_normal_matrix (h : ∀ c ∈ cs, c.Usable x) : (normalMatrix cs x).det ≠ 0 ↔ ¬ Aligned cs x := by
  rw [aligned_iff h, ← not_iff_not, not_not, not_not, ← exists_mulVec_eq_zero_iff]
  refine exists_congr fun o => and_congr_right fun _ => ?_
  rw [normalMatrix_kernel]
  exact forall₂_congr fun c hc => (h c hc).kernel o

/-- **C110**: then the pixels of the point, all cameras together, determine it; otherwise, with at least one camera, they do
not. -/
theorem c110_determined (h : ∀ c ∈ cs, c.Usable x) :
    (∀ y : Vec, (∀ c ∈ cs, (c.extrinsics.worldToCamera (.single y)).data 0 2 ≠ 0 ∧ c.image y = c.image x) → y = x) ↔
      ¬ Aligned cs x := by
  have line : ∀ c ∈ cs, ∀ y : Vec, ((c.extrinsics.worldToCamera (.single y)).data 0 2 ≠ 0 ∧ c.image y = c.image x) ↔
      ∃ s : ℝ, s ≠ 0 ∧ y = c.extrinsics.camcenter + s • (x - c.extrinsics.camcenter) := by
    rintro ⟨i, e⟩ hc y
    obtain ⟨p, hx, hy, rfl, he, h0, hz⟩ := h _ hc
    have := c103_shows_iff hx hy he
    obtain ⟨t, ht, hxt⟩ := (this x (PerspectiveCamera.image ⟨.ofParams p, e⟩ x)).1 ⟨hz, rfl⟩
    refine (this y _).trans ?_
    simp only at hxt ⊢
    generalize (sightRay p e (PerspectiveCamera.image ⟨.ofParams p, e⟩ x)).direction = d at *
    have hd : x - e.camcenter = t • d := by rw [hxt, add_sub_cancel_left]
    rw [hd]
    constructor
    · rintro ⟨r, hr, rfl⟩
      exact ⟨r / t, div_ne_zero hr ht, by rw [smul_smul, div_mul_cancel₀ _ ht]⟩
    · rintro ⟨s, hs, rfl⟩
      exact ⟨s * t, mul_ne_zero hs ht, by rw [smul_smul]⟩
  rw [aligned_iff h]
  constructor
  · rintro H ⟨o, ho, ho'⟩
    -- a small step along the common direction
    obtain ⟨s, hs0, hs⟩ : ∃ s : ℝ, s ≠ 0 ∧ ∀ c ∈ cs, ∀ t : ℝ, o = t • (x - c.extrinsics.camcenter) → 1 + s * t ≠ 0 := by
      have fin : ∀ l : List PerspectiveCamera, (∀ c ∈ l, c ∈ cs) → ∃ S : Finset ℝ, ∀ s ∉ S, ∀ c ∈ l, ∀ t : ℝ,
          o = t • (x - c.extrinsics.camcenter) → 1 + s * t ≠ 0 := by
        intro l
        induction l with
        | nil => exact fun _ => ⟨∅, by simp⟩
        | cons c l ih =>
          intro hl
          obtain ⟨S, hS⟩ := ih fun c' hc' => hl c' (List.mem_cons_of_mem _ hc')
          obtain ⟨t, ht⟩ := ho' c (hl c List.mem_cons_self)
          refine ⟨insert (-t⁻¹) S, fun s hs c' hc' t' ht' h0 => ?_⟩
          rw [Finset.mem_insert, not_or] at hs
          rcases List.mem_cons.1 hc' with rfl | hc'
          · have tt : t' = t := by
              rw [ht] at ht'
              have : (t - t') • (x - c'.extrinsics.camcenter) = 0 := by rw [sub_smul, ht', sub_self]
              have := (smul_eq_zero.1 this).resolve_right (sub_ne_zero.2 (h c' (hl c' List.mem_cons_self)).ne)
              linarith
            subst tt
            apply hs.1
            have t0 : t' ≠ 0 := by
              rintro rfl
              rw [mul_zero, add_zero] at h0
              exact one_ne_zero h0
            field_simp
            linarith
          · exact hS s hs.2 c' hc' t' ht' h0
      obtain ⟨S, hS⟩ := fin cs fun _ h => h
      obtain ⟨s, hs⟩ := Infinite.exists_notMem_finset (insert 0 S)
      rw [Finset.mem_insert, not_or] at hs
      exact ⟨s, hs.1, hS s hs.2⟩
    have := H (x + s • o) fun c hc => (line c hc _).2 (by
      obtain ⟨t, ht⟩ := ho' c hc
      refine ⟨1 + s * t, hs c hc t ht, ?_⟩
      conv_lhs => rw [ht]
      module)
    exact ho ((smul_eq_zero.1 (add_eq_left.1 this)).resolve_left hs0)
  · intro H y hy
    by_contra hne
    refine H ⟨y - x, sub_ne_zero.2 hne, fun c hc => ?_⟩
    obtain ⟨s, -, hs⟩ := (line c hc y).1 (hy c hc)
    refine ⟨s - 1, ?_⟩
    rw [hs]
    module

theorem PerspectiveCamera.Usable.deriv (h : c.Usable x) :
    HasFDerivAt c.image (LinearMap.toContinuousLinearMap (Matrix.toLin' (c.jacobian x))) x := by
  obtain ⟨i, e⟩ := c
  obtain ⟨p, hx, hy, rfl, he, h0, hz⟩ := h
  exact c27_derivative p he h0 x hz

/-- **C110**: the derivative of the reprojection cost is `2 (Σ Jᵀ r)ᵀ`, with the Jacobians of `linearize_at`. -/
theorem c110_gradient {cs : List (PerspectiveCamera × (Fin 2 → ℝ))} (h : ∀ c ∈ cs, c.1.Usable x) :
    HasFDerivAt (reprojectionCost cs)
      (∑ b : Fin 3, (2 * normalVector cs x b) • (ContinuousLinearMap.proj b : Vec →L[ℝ] ℝ)) x := by
  induction cs with
  | nil =>
    have e1 : reprojectionCost [] = fun _ => 0 := by funext y; simp [reprojectionCost]
    rw [e1]
    refine (hasFDerivAt_const (0 : ℝ) x).congr_fderiv ?_
    simp [normalVector]
  | cons c cs ih =>
    have ih := ih fun c' hc' => h c' (List.mem_cons_of_mem _ hc')
    have hd := (h c List.mem_cons_self).deriv
    have e1 : reprojectionCost (c :: cs) = fun y => ((c.1.image y 0 - c.2 0) * (c.1.image y 0 - c.2 0) +
        (c.1.image y 1 - c.2 1) * (c.1.image y 1 - c.2 1)) + reprojectionCost cs y := by
      funext y
      simp [reprojectionCost, dotProduct, Fin.sum_univ_two]
    have g : ∀ a, HasFDerivAt (fun y => c.1.image y a - c.2 a)
        ((ContinuousLinearMap.proj a).comp (LinearMap.toContinuousLinearMap (Matrix.toLin' (c.1.jacobian x)))) x :=
      fun a => ((hasFDerivAt_pi'.1 hd) a).sub_const _
    rw [e1]
    refine ((((g 0).mul (g 0)).add ((g 1).mul (g 1))).add ih).congr_fderiv ?_
    have e2 : normalVector (c :: cs) x = (c.1.jacobian x)ᵀ *ᵥ (c.1.image x - c.2) + normalVector cs x := by
      simp [normalVector]
    ext b
    simp [e2, mulVec, dotProduct, Fin.sum_univ_two, Fin.sum_univ_three]
    ring

theorem normalMatrix_bilinear (cs : List (PerspectiveCamera × (Fin 2 → ℝ))) (x v w : Vec) :
    v ⬝ᵥ (normalMatrix (cs.map Prod.fst) x *ᵥ w) = (cs.map fun c => (c.1.jacobian x *ᵥ v) ⬝ᵥ (c.1.jacobian x *ᵥ w)).sum := by
  induction cs with
  | nil => simp [normalMatrix]
  | cons c cs ih =>
    have e : normalMatrix ((c :: cs).map Prod.fst) x = (c.1.jacobian x)ᵀ * c.1.jacobian x + normalMatrix (cs.map Prod.fst) x := by
      simp [normalMatrix]
    rw [e, add_mulVec, dotProduct_add, ih, List.map_cons, List.sum_cons, ← mulVec_mulVec, dotProduct_mulVec,
      vecMul_transpose]

theorem normalVector_dot (cs : List (PerspectiveCamera × (Fin 2 → ℝ))) (x v : Vec) :
    v ⬝ᵥ normalVector cs x = (cs.map fun c => (c.1.jacobian x *ᵥ v) ⬝ᵥ (c.1.image x - c.2)).sum := by
  induction cs with
  | nil => simp [normalVector]
  | cons c cs ih =>
    have e : normalVector (c :: cs) x = (c.1.jacobian x)ᵀ *ᵥ (c.1.image x - c.2) + normalVector cs x := by
      simp [normalVector]
    rw [e, dotProduct_add, ih, List.map_cons, List.sum_cons, dotProduct_mulVec, vecMul_transpose]

/-- **C110**: one Gauss-Newton step towards the point `x` with the given pixels, from `y` to `y + δ`.  In the norm of the
normal equations at `y`, the sum of the squared displacements `J v`, the error shrinks by the factor `μ`, the
largest relative difference between the depths of `x` and `y`. -/
theorem c110_gauss_newton {cs : List (PerspectiveCamera × (Fin 2 → ℝ))} {y δ : Vec} {μ : ℝ} (h : ∀ c ∈ cs, c.1.Usable y)
    (hx : ∀ c ∈ cs, (c.1.extrinsics.worldToCamera (.single x)).data 0 2 ≠ 0) (hu : ∀ c ∈ cs, c.1.image x = c.2)
    (hμ : ∀ c ∈ cs, |1 - (c.1.extrinsics.worldToCamera (.single y)).data 0 2 /
      (c.1.extrinsics.worldToCamera (.single x)).data 0 2| ≤ μ)
    (hδ : normalMatrix (cs.map Prod.fst) y *ᵥ δ = -normalVector cs y) :
    (cs.map fun c => (c.1.jacobian y *ᵥ (y + δ - x)) ⬝ᵥ (c.1.jacobian y *ᵥ (y + δ - x))).sum ≤
      μ ^ 2 * (cs.map fun c => (c.1.jacobian y *ᵥ (y - x)) ⬝ᵥ (c.1.jacobian y *ᵥ (y - x))).sum := by
  set w := y + δ - x with hw
  set o := y - x with ho
  have hwo : w = o + δ := by rw [hw, ho]; abel
  have e0 : w ⬝ᵥ (normalMatrix (cs.map Prod.fst) y *ᵥ w) =
      w ⬝ᵥ (normalMatrix (cs.map Prod.fst) y *ᵥ o) - w ⬝ᵥ normalVector cs y := by
    conv_lhs => rw [show normalMatrix (cs.map Prod.fst) y *ᵥ w = normalMatrix (cs.map Prod.fst) y *ᵥ o +
      normalMatrix (cs.map Prod.fst) y *ᵥ δ by rw [← mulVec_add, ← hwo]]
    rw [hδ, dotProduct_add, dotProduct_neg, sub_eq_add_neg]
  rw [normalMatrix_bilinear, normalMatrix_bilinear, normalVector_dot] at e0
  have term : ∀ c ∈ cs, 2 * ((c.1.jacobian y *ᵥ w) ⬝ᵥ (c.1.jacobian y *ᵥ o)) -
      2 * ((c.1.jacobian y *ᵥ w) ⬝ᵥ (c.1.image y - c.2)) ≤
      (c.1.jacobian y *ᵥ w) ⬝ᵥ (c.1.jacobian y *ᵥ w) + μ ^ 2 * ((c.1.jacobian y *ᵥ o) ⬝ᵥ (c.1.jacobian y *ᵥ o)) := by
    intro c hc
    have hr : c.1.image y - c.2 = ((c.1.extrinsics.worldToCamera (.single y)).data 0 2 /
        (c.1.extrinsics.worldToCamera (.single x)).data 0 2) • (c.1.jacobian y *ᵥ o) := by
      rw [← hu c hc]
      obtain ⟨⟨i, e⟩, u⟩ := c
      obtain ⟨p, -, -, hp, he, h0, hz⟩ := h _ hc
      have hxc := hx _ hc
      simp only at hp he h0 hz hxc ⊢
      subst hp
      have exy : y + (x - y) = x := by abel
      have k := c55_exact_remainder p he h0 y (x - y) hz (by rw [exy]; exact hxc)
      simp only at k
      rw [exy] at k
      have k2 : x - y = -o := by rw [ho]; abel
      rw [k2, mulVec_neg, smul_neg] at k
      rw [← neg_sub]
      exact neg_eq_iff_eq_neg.2 k
    have hμc := hμ c hc
    rw [hr, dotProduct_smul, smul_eq_mul]
    generalize c.1.jacobian y *ᵥ w = a
    generalize c.1.jacobian y *ᵥ o = b
    generalize (c.1.extrinsics.worldToCamera (.single y)).data 0 2 /
      (c.1.extrinsics.worldToCamera (.single x)).data 0 2 = l at hμc
    have hl : (1 - l) ^ 2 ≤ μ ^ 2 := sq_le_sq' (by linarith [neg_abs_le (1 - l)]) ((le_abs_self _).trans hμc)
    have hb : 0 ≤ b ⬝ᵥ b := Finset.sum_nonneg fun i _ => mul_self_nonneg _
    have h1 := mul_le_mul_of_nonneg_right hl hb
    have h2 : 0 ≤ (a - (1 - l) • b) ⬝ᵥ (a - (1 - l) • b) := Finset.sum_nonneg fun i _ => mul_self_nonneg _
    have h3 : (a - (1 - l) • b) ⬝ᵥ (a - (1 - l) • b) = a ⬝ᵥ a - 2 * (1 - l) * (a ⬝ᵥ b) + (1 - l) ^ 2 * (b ⬝ᵥ b) := by
      simp [dotProduct, Fin.sum_univ_two]
      ring
    linarith
  have total := List.sum_le_sum term
  have lin : ∀ (l : List (PerspectiveCamera × (Fin 2 → ℝ))) (f g : PerspectiveCamera × (Fin 2 → ℝ) → ℝ) (r s : ℝ),
      (l.map fun c => r * f c + s * g c).sum = r * (l.map f).sum + s * (l.map g).sum := by
    intro l f g r s
    induction l with
    | nil => simp
    | cons c l ih => simp only [List.map_cons, List.sum_cons, ih]; ring
  have t1 := lin cs (fun c => (c.1.jacobian y *ᵥ w) ⬝ᵥ (c.1.jacobian y *ᵥ o))
    (fun c => (c.1.jacobian y *ᵥ w) ⬝ᵥ (c.1.image y - c.2)) 2 (-2)
  have t2 := lin cs (fun c => (c.1.jacobian y *ᵥ w) ⬝ᵥ (c.1.jacobian y *ᵥ w))
    (fun c => (c.1.jacobian y *ᵥ o) ⬝ᵥ (c.1.jacobian y *ᵥ o)) 1 (μ ^ 2)
  simp only [neg_mul, one_mul, ← sub_eq_add_neg] at t1 t2
  rw [t1, t2] at total
  linarith

/-- **C110**: if moreover `x` and `y` have the same depth in every camera and the centres of the cameras are not all on one
line through `y`, one step arrives at `x`. -/
theorem c110_one_step {cs : List (PerspectiveCamera × (Fin 2 → ℝ))} {y δ : Vec} (h : ∀ c ∈ cs, c.1.Usable y)
    (hx : ∀ c ∈ cs, (c.1.extrinsics.worldToCamera (.single x)).data 0 2 =
      (c.1.extrinsics.worldToCamera (.single y)).data 0 2) (hu : ∀ c ∈ cs, c.1.image x = c.2)
    (ha : ¬ Aligned (cs.map Prod.fst) y) (hδ : normalMatrix (cs.map Prod.fst) y *ᵥ δ = -normalVector cs y) : y + δ = x := by
  have hm : ∀ c ∈ cs.map Prod.fst, PerspectiveCamera.Usable c y := by
    intro c hc
    obtain ⟨c', hc', rfl⟩ := List.mem_map.1 hc
    exact h c' hc'
  have hz : ∀ c ∈ cs, (c.1.extrinsics.worldToCamera (.single y)).data 0 2 ≠ 0 := by
    intro c hc
    obtain ⟨p, -, -, -, -, -, hz⟩ := h c hc
    exact hz
  have g := c110_gauss_newton (x := x) (μ := 0) h (fun c hc => by rw [hx c hc]; exact hz c hc) hu
    (fun c hc => by rw [hx c hc, div_self (hz c hc), sub_self, abs_zero]) hδ
  rw [zero_pow two_ne_zero, zero_mul, ← normalMatrix_bilinear cs y] at g
  set w := y + δ - x with hw
  have k : normalMatrix (cs.map Prod.fst) y *ᵥ w = 0 := by
    rw [normalMatrix_kernel]
    rw [normalMatrix_form] at g
    intro c hc
    have h2 : ∀ r ∈ (cs.map Prod.fst).map fun c => (c.jacobian y *ᵥ w) ⬝ᵥ (c.jacobian y *ᵥ w), 0 ≤ r := by
      intro r hr
      obtain ⟨c, -, rfl⟩ := List.mem_map.1 hr
      exact Finset.sum_nonneg fun i _ => mul_self_nonneg _
    have h3 := (List.single_le_sum h2) _ (List.mem_map_of_mem (f := fun c => (c.jacobian y *ᵥ w) ⬝ᵥ (c.jacobian y *ᵥ w)) hc)
    exact dotProduct_self_eq_zero.1 (le_antisymm (h3.trans g) (Finset.sum_nonneg fun i _ => mul_self_nonneg _))
  by_contra hne
  exact (c110_normal_matrix hm).2 ha (exists_mulVec_eq_zero_iff.1 ⟨w, sub_ne_zero.2 hne, k⟩)

end

/-! ### The theorems apply -/

/-- A camera looking along +y. -/
noncomputable def sampleCamera (c : Vec) : PerspectiveCamera := ⟨.ofParams ⟨1, 1, 0, 0, 0⟩, fromRotationAndCamcenter exQuat c⟩

theorem sampleCamera_depth (c x : Vec) : ((sampleCamera c).extrinsics.worldToCamera (.single x)).data 0 2 = x 1 - c 1 := by
  simp only [sampleCamera]
  rw [worldToCamera_row exQuat_unit, rotate_apply]
  simp [Points.single, exQuat]
  ring

theorem sampleCamera_usable {c x : Vec} (h0 : c 1 ≠ 0) (hx : x 1 ≠ c 1) : (sampleCamera c).Usable x :=
  ⟨_, one_ne_zero, one_ne_zero, rfl, ⟨_, _, exQuat_unit, rfl⟩, by rw [sampleCamera_depth]; simpa using h0,
    by rw [sampleCamera_depth]; exact sub_ne_zero.2 hx⟩

/-- Two cameras at `(1, 2, 3)` and `(2, 2, 3)` and the pixels of the point `(1, 3, 3)`: a step from `(1, 7/2, 3)` is determined
and at least halves the error; a step from `(4, 3, 5)`, at the same depth, arrives at the point. -/
example (cs : List (PerspectiveCamera × (Fin 2 → ℝ))) (x y y' : Vec) (hx : x = ![1, 3, 3]) (hy : y = ![1, 7 / 2, 3])
    (hy' : y' = ![4, 3, 5])
    (hcs : cs = [(sampleCamera ![1, 2, 3], (sampleCamera ![1, 2, 3]).image x),
      (sampleCamera ![2, 2, 3], (sampleCamera ![2, 2, 3]).image x)]) :
    (∃ δ, normalMatrix (cs.map Prod.fst) y *ᵥ δ = -normalVector cs y ∧
      (cs.map fun c => (c.1.jacobian y *ᵥ (y + δ - x)) ⬝ᵥ (c.1.jacobian y *ᵥ (y + δ - x))).sum ≤
        (1 / 2) ^ 2 * (cs.map fun c => (c.1.jacobian y *ᵥ (y - x)) ⬝ᵥ (c.1.jacobian y *ᵥ (y - x))).sum) ∧
    ∃ δ, normalMatrix (cs.map Prod.fst) y' *ᵥ δ = -normalVector cs y' ∧ y' + δ = x := by
  have mem : ∀ c ∈ cs, c = (sampleCamera ![1, 2, 3], (sampleCamera ![1, 2, 3]).image x) ∨
      c = (sampleCamera ![2, 2, 3], (sampleCamera ![2, 2, 3]).image x) := by rw [hcs]; simp
  have us : ∀ z : Vec, z 1 ≠ 2 → ∀ c ∈ cs, c.1.Usable z := by
    intro z hz c hc
    rcases mem c hc with rfl | rfl
    · exact sampleCamera_usable (by simp) (by simpa using hz)
    · exact sampleCamera_usable (by simp) (by simpa using hz)
  have us' : ∀ z : Vec, z 1 ≠ 2 → ∀ c ∈ cs.map Prod.fst, PerspectiveCamera.Usable c z := by
    intro z hz c hc
    obtain ⟨c', hc', rfl⟩ := List.mem_map.1 hc
    exact us z hz c' hc'
  have ali : ∀ z : Vec, z 1 ≠ 2 → ¬ Aligned (cs.map Prod.fst) z := by
    rintro z hz ⟨d, hd⟩
    obtain ⟨s, hs⟩ := hd (sampleCamera ![1, 2, 3]) (by rw [hcs]; simp)
    obtain ⟨t, ht⟩ := hd (sampleCamera ![2, 2, 3]) (by rw [hcs]; simp)
    simp only [sampleCamera, c04_camcenter] at hs ht
    have s0 := congrFun hs 0
    have s1 := congrFun hs 1
    have t0 := congrFun ht 0
    have t1 := congrFun ht 1
    simp at s0 s1 t0 t1
    have d1 : d 1 ≠ 0 := by
      intro h
      rw [h, mul_zero, add_zero] at s1
      exact hz s1.symm
    have st : s = t := mul_right_cancel₀ d1 (by linarith)
    subst st
    linarith
  have solve : ∀ z : Vec, z 1 ≠ 2 → ∃ δ, normalMatrix (cs.map Prod.fst) z *ᵥ δ = -normalVector cs z := by
    intro z hz
    refine ⟨(normalMatrix (cs.map Prod.fst) z)⁻¹ *ᵥ -normalVector cs z, ?_⟩
    rw [mulVec_mulVec, mul_nonsing_inv _ ((c110_normal_matrix (us' z hz)).2 (ali z hz)).isUnit, one_mulVec]
  have img : ∀ c ∈ cs, c.1.image x = c.2 := by
    intro c hc
    rcases mem c hc with rfl | rfl <;> rfl
  have y1 : y 1 = 7 / 2 := by rw [hy]; rfl
  have x1 : x 1 = 3 := by rw [hx]; rfl
  have y1' : y' 1 = 3 := by rw [hy']; rfl
  refine ⟨?_, ?_⟩
  · obtain ⟨δ, hδ⟩ := solve y (by rw [y1]; norm_num)
    refine ⟨δ, hδ, c110_gauss_newton (us y (by rw [y1]; norm_num)) ?_ img ?_ hδ⟩
    · intro c hc
      rcases mem c hc with rfl | rfl <;> simp only [sampleCamera_depth, x1] <;> norm_num
    · intro c hc
      rcases mem c hc with rfl | rfl <;> simp only [sampleCamera_depth, x1, y1] <;> norm_num [abs_le]
  · obtain ⟨δ, hδ⟩ := solve y' (by rw [y1']; norm_num)
    refine ⟨δ, hδ, c110_one_step (us y' (by rw [y1']; norm_num)) ?_ img (ali y' (by rw [y1']; norm_num)) hδ⟩
    intro c hc
    rcases mem c hc with rfl | rfl <;> simp only [sampleCamera_depth, x1, y1']

end CamGeom
