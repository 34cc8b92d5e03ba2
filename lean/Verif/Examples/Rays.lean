import Verif.Examples.Exact
import Verif.Props.Triangulation
import Verif.Props.RayGeometry
import Verif.Props.NearRays
import Verif.Props.InvalidRays

/-!
# The theorems on ray intersection, applied to concrete rays
-/

namespace CamGeom
namespace Examples
open Spec Matrix ExtrinsicParameters

/-- Two rays which cross in (1, 5, 0). -/
noncomputable def rayA : Ray WorldFrame ℝ := ⟨![1, 0, 0], ![0, 2, 0]⟩
noncomputable def rayB : Ray WorldFrame ℝ := ⟨![0, 5, 0], ![3, 0, 0]⟩

/-- A ray which passes at distance 1 from the first one. -/
noncomputable def rayC : Ray WorldFrame ℝ := ⟨![0, 0, 1], ![3, 0, 0]⟩

/-- A third ray through the crossing point. -/
noncomputable def rayD : Ray WorldFrame ℝ := ⟨![1, 5, -8], ![0, 0, 7]⟩

/-- A ray parallel to the first one, in the opposite direction. -/
noncomputable def rayE : Ray WorldFrame ℝ := ⟨![3, 9, 0], ![0, -4, 0]⟩

theorem dirA : rayA.direction ≠ 0 := fun h => by simpa [rayA] using congrFun h 1
theorem dirB : rayB.direction ≠ 0 := fun h => by simpa [rayB] using congrFun h 0
theorem dirC : rayC.direction ≠ 0 := fun h => by simpa [rayC] using congrFun h 0
theorem dirD : rayD.direction ≠ 0 := fun h => by simpa [rayD] using congrFun h 2
theorem dirE : rayE.direction ≠ 0 := fun h => by simpa [rayE] using congrFun h 1

theorem dirs_cross : ∀ r ∈ [rayA, rayB], r.direction ≠ 0 := by simp [dirA, dirB]
theorem dirs_three : ∀ r ∈ [rayA, rayB, rayC], r.direction ≠ 0 := by simp [dirA, dirB, dirC]
theorem dirs_skew : ∀ r ∈ [rayA, rayC], r.direction ≠ 0 := by simp [dirA, dirC]
theorem dirs_parallel : ∀ r ∈ [rayA, rayE], r.direction ≠ 0 := by simp [dirA, dirE]

theorem cos_ab : absCos rayA.direction rayB.direction = 0 := by
  simp [absCos, rayA, rayB, dotProduct, Fin.sum_univ_three]

theorem cos_ac : absCos rayA.direction rayC.direction = 0 := by
  simp [absCos, rayA, rayC, dotProduct, Fin.sum_univ_three]

theorem spread_of_cos {rays : List (Ray WorldFrame ℝ)} {a b : Ray WorldFrame ℝ} (ha : a ∈ rays) (hb : b ∈ rays)
    (h : a.direction ⬝ᵥ b.direction = 0) (h1 : a.direction ≠ 0) (h2 : b.direction ≠ 0) : Spread rays := by
  refine ⟨a, ha, b, hb, ?_⟩
  rw [h, abs_zero]
  exact mul_pos (by norm_num) (mul_pos (len_pos.2 h1) (len_pos.2 h2))

theorem dot_ab : rayA.direction ⬝ᵥ rayB.direction = 0 := by simp [rayA, rayB, dotProduct, Fin.sum_univ_three]
theorem dot_ac : rayA.direction ⬝ᵥ rayC.direction = 0 := by simp [rayA, rayC, dotProduct, Fin.sum_univ_three]

theorem spread_cross : Spread [rayA, rayB] := spread_of_cos (by simp) (by simp) dot_ab dirA dirB
theorem spread_three : Spread [rayA, rayB, rayC] := spread_of_cos (a := rayA) (b := rayB) (by simp) (by simp) dot_ab dirA dirB
theorem spread_skew : Spread [rayA, rayC] := spread_of_cos (by simp) (by simp) dot_ac dirA dirC

theorem crossing : ∀ r ∈ [rayA, rayB], ![1, 5, 0] ∈ line r.center r.direction := by
  simp only [List.mem_cons, List.not_mem_nil, or_false, forall_eq_or_imp, forall_eq]
  exact ⟨⟨5 / 2, by funext i; fin_cases i <;> simp [rayA]⟩, ⟨1 / 3, by funext i; fin_cases i <;> simp [rayB]⟩⟩

/-- The point found for the rays, with an SVD that fulfils the contract. -/
noncomputable def found (rays : List (Ray WorldFrame ℝ)) : Points WorldFrame ℝ 1 :=
  Classical.epsilon (h := ⟨⟨fun _ => 0⟩⟩) fun pt => bestIntersectionOfRays exSvd rays = .ok pt

theorem found_ok (rays : List (Ray WorldFrame ℝ)) (h : 2 ≤ rays.length) :
    bestIntersectionOfRays exSvd rays = .ok (found rays) := Classical.epsilon_spec (exSvd_ok rays h)

/-! ### C30 to C38 -/

example := c30_too_few exSvd [rayA] (by simp)
example := c30_too_few (Svd3.svd : TrySvd ℝ) ([] : List (Ray WorldFrame ℝ)) (by simp)

theorem to_f64 (x : ℝ) : (F64Conv.toF64 x : Option ℝ).isSome := rfl
theorem eps_ok : Scalar.lt (Scalar.lit (1 / 10000000) : ℝ) 0 = false := by
  rw [lt_real, decide_eq_false_iff_not]; simp
theorem exSvd_both (M : Mat 3 3 ℝ) (eps : ℝ) (k : ℕ) (d : SVD ℝ) (h : exSvd M true true eps k = some d) :
    d.u.isSome ∧ d.vT.isSome := by
  obtain ⟨U, V, hu, hv, -⟩ := exSvd_contract M eps k d h
  rw [hu, hv]; exact ⟨rfl, rfl⟩

example := c30_two_or_more to_f64 eps_ok [rayA, rayB, rayC] (by simp)
example := c30_outcomes to_f64 eps_ok exSvd exSvd_both [rayA, rayB, rayC] (by simp)
example := c30_no_panic to_f64 eps_ok exSvd exSvd_both [rayA]
example := c31_least_squares exSvd_contract dirs_three spread_three (found_ok [rayA, rayB, rayC] (by simp))
example := c32_common_point exSvd_contract dirs_cross spread_cross crossing (found_ok [rayA, rayB] (by simp))
example := c33_order exSvd (List.Perm.swap rayB rayA [rayC])

/-- The line of `rayA` with another centre and direction. -/
theorem same_line : SameLine rayA ⟨![1, 7, 0], ![0, -5, 0]⟩ := by
  refine ⟨dirA, fun h => by simpa using congrFun h 1, Set.ext fun x => ⟨?_, ?_⟩⟩
  · rintro ⟨t, rfl⟩
    refine ⟨(7 - 2 * t) / 5, ?_⟩
    funext i
    fin_cases i <;> simp [rayA]
    ring
  · rintro ⟨t, rfl⟩
    refine ⟨(7 - 5 * t) / 2, ?_⟩
    funext i
    fin_cases i <;> simp [rayA]
    ring

example := c34_lines_only exSvd (.cons same_line (.cons ⟨dirC, dirC, rfl⟩ .nil))

/-- A quarter turn about the z axis with a reflection of z. -/
noncomputable def turn : Matrix (Fin 3) (Fin 3) ℝ := !![0, -1, 0; 1, 0, 0; 0, 0, -1]

theorem turn_orth : turn.transpose * turn = 1 := by
  ext i j
  fin_cases i <;> fin_cases j <;> simp [turn, Matrix.mul_apply, Fin.sum_univ_three]

example := c35_rigid exSvd_contract dirs_three spread_three turn_orth ![4, 5, 6] (found_ok [rayA, rayB, rayC] (by simp))
  (found_ok ([rayA, rayB, rayC].map (moveRay turn ![4, 5, 6])) (by simp))
example := c36_bounded exSvd_contract dirs_parallel (found_ok [rayA, rayE] (by simp))

theorem parallel : ∀ r ∈ [rayA, rayE], ∃ k : ℝ, r.direction = k • ![0, 1, 0] := by
  simp only [List.mem_cons, List.not_mem_nil, or_false, forall_eq_or_imp, forall_eq]
  exact ⟨⟨2, by simp [rayA]⟩, ⟨-4, by simp [rayE]⟩⟩

example := c36_parallel exSvd_contract dirs_parallel parallel (found_ok [rayA, rayE] (by simp))

/-- Two rays which cross in (7, 0, 0) under an angle of 2e-4. -/
noncomputable def narrow₁ : Ray WorldFrame ℝ := ⟨![0, 0, 0], ![1, 0, 0]⟩
noncomputable def narrow₂ : Ray WorldFrame ℝ := ⟨![7, 0, 0], ![99999999 / 100000001, 20000 / 100000001, 0]⟩

theorem narrow₁_unit : narrow₁.direction ⬝ᵥ narrow₁.direction = 1 := by
  simp [narrow₁, dotProduct, Fin.sum_univ_three]
theorem narrow₂_unit : narrow₂.direction ⬝ᵥ narrow₂.direction = 1 := by
  simp [narrow₂, dotProduct, Fin.sum_univ_three]; norm_num
theorem narrow_cos : 1 - 99 / 1000000000 ≤ narrow₁.direction ⬝ᵥ narrow₂.direction := by
  simp [narrow₁, narrow₂, dotProduct, Fin.sum_univ_three]; norm_num
theorem narrow₁_mem : ![7, 0, 0] ∈ line narrow₁.center narrow₁.direction :=
  ⟨7, by funext i; fin_cases i <;> simp [narrow₁]⟩
theorem narrow₂_mem : ![7, 0, 0] ∈ line narrow₂.center narrow₂.direction :=
  ⟨0, by funext i; fin_cases i <;> simp [narrow₂]⟩

example := c37_bisector_lost exSvd_contract narrow₁_unit narrow₂_unit (le_trans (by norm_num) narrow_cos) narrow₁_mem
  narrow₂_mem (found_ok [narrow₁, narrow₂] (by simp))
example := c37_counterexample (F := WorldFrame) 1000 (by norm_num)

/-- The point looked at. -/
noncomputable def target : Vec := ![1, 3, 3]

theorem target_depth : (pose.worldToCamera (.single target)).data 0 2 ≠ 0 := point_depth

/-- A second camera, not turned. -/
noncomputable def pose₂ : ExtrinsicParameters ℝ := fromRotationAndCamcenter ⟨1, 0, 0, 0⟩ ![1, 3, -4]

theorem pose₂_valid : ValidExtrinsics pose₂ := ⟨_, _, by norm_num [UnitQuat], rfl⟩

theorem pose₂_depth : (pose₂.worldToCamera (.single target)).data 0 2 ≠ 0 := by
  rw [pose₂, worldToCamera_row (by norm_num [UnitQuat]), rotate_apply]
  simp [Points.single, target]; norm_num

/-- Two cameras which look at (1, 3, 3) under a right angle. -/
noncomputable def rig : List (PerspectiveParams ℝ × ExtrinsicParameters ℝ) := [(persp, pose), (persp, pose₂)]

theorem rig_ok : ∀ c ∈ rig, c.1.fx ≠ 0 ∧ c.1.fy ≠ 0 ∧ ValidExtrinsics c.2 ∧
    (c.2.worldToCamera (.single target)).data 0 2 ≠ 0 := by
  simp only [rig, List.mem_cons, List.not_mem_nil, or_false, forall_eq_or_imp, forall_eq]
  exact ⟨⟨fx_ne, fy_ne, pose_valid, target_depth⟩, fx_ne, fy_ne, pose₂_valid, pose₂_depth⟩

theorem pose_centre : pose.camcenter = ![1, 2, 3] := rfl
theorem pose₂_centre : pose₂.camcenter = ![1, 3, -4] := rfl

theorem rig_dot : (target - pose.camcenter) ⬝ᵥ (target - pose₂.camcenter) = 0 := by
  simp [target, pose_centre, pose₂_centre, dotProduct, Fin.sum_univ_three]

theorem rig_angle : ∃ a ∈ rig, ∃ b ∈ rig,
    |(target - a.2.camcenter) ⬝ᵥ (target - b.2.camcenter)| <
      (1 - 1 / 10000000) * (distance target a.2.camcenter * distance target b.2.camcenter) := by
  refine ⟨(persp, pose), by simp [rig], (persp, pose₂), by simp [rig], ?_⟩
  rw [show (persp, pose).2 = pose from rfl, show (persp, pose₂).2 = pose₂ from rfl, rig_dot, abs_zero]
  refine mul_pos (by norm_num) (mul_pos (len_pos.2 fun h => ?_) (len_pos.2 fun h => ?_))
  · have := congrFun h 1
    simp [target, pose_centre] at this
    norm_num at this
  · have := congrFun h 2
    simp [target, pose₂_centre] at this
    norm_num at this

example := c38_triangulation exSvd_contract rig target rig_ok rig_angle (found_ok _ (Nat.le_refl 2))

/-- One perspective and one orthographic camera, the second one looking along its own axis. -/
theorem mixed_ok : ∀ r ∈ [perspViewRay persp pose target, orthoViewRay ortho pose₂ target],
    (∃ p e, p.fx ≠ 0 ∧ p.fy ≠ 0 ∧ ValidExtrinsics e ∧
      (e.worldToCamera (.single target)).data 0 2 ≠ 0 ∧ r = perspViewRay p e target) ∨
    (∃ p e, p.sx ≠ 0 ∧ p.sy ≠ 0 ∧ ValidExtrinsics e ∧ r = orthoViewRay p e target) := by
  simp only [List.mem_cons, List.not_mem_nil, or_false, forall_eq_or_imp, forall_eq]
  exact ⟨.inl ⟨persp, pose, fx_ne, fy_ne, pose_valid, target_depth, rfl⟩,
    .inr ⟨ortho, pose₂, sx_ne, sy_ne, pose₂_valid, rfl⟩⟩

theorem pose₂_forward : pose₂.forward = ![0, 0, 1] := by
  rw [pose₂, forward_eq (by norm_num [UnitQuat]), rotate_apply]
  funext i
  fin_cases i <;> simp [Quat.inverse]

theorem mixed_spread : Spread [perspViewRay persp pose target, orthoViewRay ortho pose₂ target] := by
  obtain ⟨h1, h2, h3⟩ := perspViewRay_spec fx_ne fy_ne pose_valid target_depth
  obtain ⟨h4, h5⟩ := orthoViewRay_spec sx_ne sy_ne pose₂_valid target
  refine spread_of_cos (List.mem_cons_self ..) (List.mem_cons_of_mem _ (List.mem_singleton_self _)) ?_ h2 ?_
  · rw [h4, pose₂_forward]
    have h := congrArg (· ⬝ᵥ ![0, 0, 1]) h3
    simp only [smul_dotProduct, smul_eq_mul] at h
    refine (mul_eq_zero.1 (h.symm.trans ?_)).resolve_left target_depth
    simp [target, pose_centre, dotProduct, Fin.sum_univ_three]
  · rw [h4, pose₂_forward]
    exact fun h => by simpa using congrFun h 2

example := c38_mixed exSvd_contract target mixed_ok mixed_spread
  (found_ok [perspViewRay persp pose target, orthoViewRay ortho pose₂ target] (by simp))

/-! ### C58 to C61 -/

example := c58_midpoint exSvd_contract dirA dirC spread_skew (found_ok [rayA, rayC] (by simp))

theorem found_cross : (found [rayA, rayB]).data 0 = ![1, 5, 0] :=
  c32_common_point exSvd_contract dirs_cross spread_cross crossing (found_ok [rayA, rayB] (by simp))

theorem found_cross_mem : (found [rayA, rayB]).data 0 ∈ line rayD.center rayD.direction := by
  rw [found_cross]
  exact ⟨8 / 7, by funext i; fin_cases i <;> simp [rayD]⟩

example := c59_add_through exSvd_contract dirs_cross spread_cross (found_ok [rayA, rayB] (by simp)) dirD found_cross_mem
  (found_ok [rayD, rayA, rayB] (by simp))
example := c59_union exSvd_contract dirs_cross spread_cross dirs_cross spread_cross (found_ok [rayA, rayB] (by simp))
  (found_ok [rayA, rayB] (by simp)) rfl (found_ok ([rayA, rayB] ++ [rayA, rayB]) (by simp))

/-- Directions, each with two centres. -/
noncomputable def table : List (Vec × Vec × Vec) := [(![0, 2, 0], ![1, 0, 0], ![5, 6, 7]), (![3, 0, 0], ![0, 5, 0], ![7, 6, 5])]

example := c59_linear exSvd table (1 / 3) (found_ok _ (Nat.le_refl 2)) (found_ok _ (Nat.le_refl 2))
example := c60_stability exSvd_contract (l := [(rayA, rayA), (rayB, rayC)]) (by simp [dirA, dirB, dirC]) spread_cross
  spread_skew (found_ok [rayA, rayB] (by simp)) (found_ok [rayA, rayC] (by simp)) (a := (rayA, rayA))
  (b := (rayB, rayC)) (by simp) (by simp) (by rw [cos_ac]; norm_num)
example := c61_inexact_svd (exSvd_approx (η := 1 / 1000) (by norm_num)) dirs_three (a := rayA) (b := rayB) (by simp)
  (by simp) (by rw [cos_ab]; norm_num) (by norm_num)
  (c31_least_squares exSvd_contract dirs_three spread_three (found_ok [rayA, rayB, rayC] (by simp))).1
  (found_ok [rayA, rayB, rayC] (by simp))

/-! ### C62 -/

/-- The scalar type `XR` in both roles. -/
noncomputable local instance : F64Conv XR XR := ⟨some, id⟩

theorem conv_xr : ConvIeee (R := XR) (F := XR) XR.ieee XR.ieee := ⟨fun e h => by cases e; exact h, fun h => h⟩

/-- An SVD that returns a fixed decomposition. -/
noncomputable def anySvd : TrySvd XR := fun _ _ _ _ _ => 
  some ⟨some fun _ _ => XR.num 1, some fun _ _ => XR.num 1, fun _ => XR.num 1⟩

/-- A ray with a NaN in its centre, next to a proper one. -/
noncomputable def badRays : List (Ray WorldFrame XR) :=
  [⟨fun _ => .num 1, fun _ => .num 2⟩, ⟨![.num 1, .nan, .num 3], fun _ => .num 2⟩]

theorem badRays_nan : ¬ XR.ieee.isFinite
    ((⟨![.num 1, .nan, .num 3], fun _ => .num 2⟩ : Ray WorldFrame XR).center 1) := fun h => h

theorem lt_xr : Scalar.lt (Scalar.lit (1 / 10000000) : XR) 0 = false := by
  simp only [Scalar.lt, Scalar.lit]
  rw [decide_eq_false_iff_not]
  show ¬ (XR.num ((1 / 10000000 : ℚ) : ℝ)).val < (XR.num 0).val
  simp [XR.val]

theorem badRays_ok : ∃ pt, bestIntersectionOfRays anySvd badRays = .ok pt := by
  obtain ⟨S, hS⟩ := c30_two_or_more (R := XR) (F := XR) (fun x => rfl) lt_xr badRays (by simp [badRays])
  exact (hS anySvd (by rintro M eps k d h; cases h; exact ⟨rfl, rfl⟩)).2.2 ⟨_, rfl⟩

example := badRays_ok.imp fun _ h => c62_invalid_ray conv_xr anySvd
  (List.mem_cons_of_mem _ (List.mem_singleton_self _)) (.inr (.inr ⟨1, badRays_nan⟩)) h
example := c62_at_distance_shared_origin (Coords := WorldFrame) XR.ieee ⟨fun _ => .num 1⟩
  (fun _ _ => .negZero : Mat 1 3 XR) (.num 5) 0 (.inl fun _ => trivial)
example := c62_at_distance_shared_direction (Coords := WorldFrame) XR.ieee ⟨fun _ => .num 1⟩
  (fun _ _ => .num 2 : Mat 1 3 XR) (.inf false) 0 (.inr fun h => h)

/-! ### C82 and C84 -/

example := c82_converges [rayA, rayE] dirs_parallel (by simp)

theorem least_cross : LeastSquares [rayA, rayB] ![1, 5, 0] := by
  rw [← found_cross]
  exact (c31_least_squares exSvd_contract dirs_cross spread_cross (found_ok [rayA, rayB] (by simp))).1

example := c82_accuracy_angle dirs_cross (a := rayA) (b := rayB) (by simp) (by simp) rfl
  (by rw [cos_ab]; norm_num) least_cross
example := c82_common_point dirs_cross (a := rayA) (b := rayB) (by simp) (by simp) rfl
  (by rw [cos_ab]; norm_num) crossing
example := c82_triangulation rig target rig_ok (a := (persp, pose)) (b := (persp, pose₂)) (by simp [rig])
  (by simp [rig]) (η := 11 / 10000000 * rig.length) rfl (by simp only [absCos, rig_dot]; norm_num [rig])
example := c82_parallel dirs_parallel (by simp) parallel
  (c36_parallel exSvd_contract dirs_parallel parallel (found_ok [rayA, rayE] (by simp))).1
  (fun y hy => (c36_bounded exSvd_contract dirs_parallel (found_ok [rayA, rayE] (by simp))).2 y hy |>.1)
example := c82_narrow narrow₁_unit narrow₂_unit narrow_cos narrow₁_mem narrow₂_mem
example := c82_counterexample (F := WorldFrame) 1000 (by norm_num)

/-- The skew rays pass within 1 of (1, 0, 0). -/
theorem near_skew : ∀ r ∈ [rayA, rayC], distTo (line r.center r.direction) ![1, 0, 0] ≤ 1 := by
  simp only [List.mem_cons, List.not_mem_nil, or_false, forall_eq_or_imp, forall_eq]
  have h1 : (![1, 0, 0] : Vec) ∈ line rayA.center rayA.direction := ⟨0, by funext i; fin_cases i <;> simp [rayA]⟩
  have h2 : (![1, 0, 1] : Vec) ∈ line rayC.center rayC.direction := ⟨1 / 3, by funext i; fin_cases i <;> simp [rayC]⟩
  refine ⟨(distTo_of_mem h1).le.trans zero_le_one, (distTo_le h2).trans (le_of_eq ?_)⟩
  · simp [distance, len, Fin.sum_univ_three]

example := c84_least_squares dirs_skew (a := rayA) (b := rayC) (by simp) (by simp) (by rw [cos_ac]; norm_num) near_skew
  (c31_least_squares exSvd_contract dirs_skew spread_skew (found_ok [rayA, rayC] (by simp))).1
example := c84_near_point dirs_skew (a := rayA) (b := rayC) (by simp) (by simp) rfl (by rw [cos_ac]; norm_num)
  near_skew rfl

end Examples
end CamGeom
