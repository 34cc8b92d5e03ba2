import Verif.Props.Intrinsics
import Mathlib.Data.List.Range

/-!
# C43: `roundtrip_intrinsics`
-/

namespace CamGeom
open Spec

/-- Specification of the samples along one axis: every integer `k` with `border ≤ k < stop` at a
multiple of `step` from `border`, in increasing order. -/
def Spec.axis (border stop step : ℕ) : List ℕ :=
  (List.range stop).filter fun k => border ≤ k ∧ step ∣ k - border

/-- Specification of the grid: row by row, `(col, row)`. -/
def Spec.grid (width height step border : ℕ) : List (ℕ × ℕ) :=
  (Spec.axis border (height - border) step).flatMap fun row =>
    (Spec.axis border (width - border) step).map fun col => (col, row)

theorem axis_nil {a stop step : ℕ} (h : stop ≤ a) : axis a stop step = [] := by
  unfold axis
  rw [List.filter_eq_nil_iff]
  intro k hk
  rw [List.mem_range] at hk
  simp
  omega

theorem axis_cons {a stop step : ℕ} (hs : 0 < step) (h : a < stop) :
    axis a stop step = a :: axis (a + step) stop step := by
  unfold axis
  have key : ∀ n, a < n →
      ((List.range n).filter fun k => decide (a ≤ k ∧ step ∣ k - a)) =
        a :: (List.range n).filter fun k => decide (a + step ≤ k ∧ step ∣ k - (a + step)) := by
    intro n
    induction n with
    | zero => omega
    | succ n ih =>
      intro hn
      rw [List.range_succ, List.filter_append, List.filter_append]
      rcases Nat.lt_succ_iff_lt_or_eq.1 hn with hlt | rfl
      · rw [ih hlt, List.cons_append]
        congr 2
        apply List.filter_congr
        intro k hk
        rw [List.mem_singleton] at hk
        subst hk
        simp only [decide_eq_decide]
        constructor
        · rintro ⟨h1, h2⟩
          have h3 : step ≤ k - a := Nat.le_of_dvd (by omega) h2
          refine ⟨by omega, ?_⟩
          have := Nat.dvd_sub h2 (dvd_refl step)
          rwa [Nat.sub_sub] at this
        · rintro ⟨h1, h2⟩
          refine ⟨by omega, ?_⟩
          have := Nat.dvd_add h2 (dvd_refl step)
          rwa [show k - (a + step) + step = k - a by omega] at this
      · have h1 : ((List.range a).filter fun k => decide (a ≤ k ∧ step ∣ k - a)) = [] := by
          rw [List.filter_eq_nil_iff]
          intro k hk
          rw [List.mem_range] at hk
          simp; omega
        have h2 : ((List.range a).filter
            fun k => decide (a + step ≤ k ∧ step ∣ k - (a + step))) = [] := by
          rw [List.filter_eq_nil_iff]
          intro k hk
          rw [List.mem_range] at hk
          simp; omega
        rw [h1, h2]
        simp
        omega
  exact key stop h

theorem collect_eq (umax : ℕ) {step : ℕ} (hs : 0 < step) {stop : ℕ} (hu : stop ≤ umax) :
    ∀ (fuel a : ℕ), stop ≤ a + fuel →
      RangeStep.collect umax fuel ⟨a, stop, step⟩ = some (axis a stop step) := by
  intro fuel
  induction fuel with
  | zero =>
    intro a h
    unfold RangeStep.collect
    rw [RangeStep.next, if_neg (by simp; omega), axis_nil (by omega)]
  | succ fuel ih =>
    intro a h
    unfold RangeStep.collect
    by_cases ha : a < stop
    · rw [RangeStep.next, if_pos ha]
      simp only []
      by_cases hu2 : a + step ≤ umax
      · rw [if_pos hu2, ih _ (by omega), axis_cons hs ha]
        rfl
      · rw [if_neg hu2, ih _ (by omega), axis_cons hs ha, axis_nil (le_refl stop),
          axis_nil (show stop ≤ a + step by omega)]
        rfl
    · rw [RangeStep.next, if_neg ha, axis_nil (by omega)]

theorem uvRows_eq (umax width : ℕ) {step : ℕ} (hs : 0 < step) (border : ℕ) {hstop : ℕ}
    (hb : border ≤ width) (hu : hstop ≤ umax) (hw : width ≤ umax) :
    ∀ (fuel a : ℕ) (uv : List (ℕ × ℕ)), hstop + width ≤ a + fuel → a ≤ hstop →
      uvRows umax width step border fuel ⟨a, hstop, step⟩ uv =
        some (.ok (uv ++ (axis a hstop step).flatMap fun row =>
          (axis border (width - border) step).map fun col => (col, row))) := by
  intro fuel
  induction fuel with
  | zero =>
    intro a uv h ha
    unfold uvRows
    rw [RangeStep.next, if_neg (by simp; omega), axis_nil (by omega)]
    simp
  | succ fuel ih =>
    intro a uv h ha'
    unfold uvRows
    by_cases ha : a < hstop
    · rw [RangeStep.next, if_pos ha]
      simp only [usizeSub, if_pos hb]
      rw [collect_eq umax hs (by omega) _ _ (by omega)]
      simp only []
      by_cases hu2 : a + step ≤ umax
      · rw [if_pos hu2]
        by_cases h3 : a + step ≤ hstop
        · rw [ih _ _ (by omega) h3, axis_cons hs ha]
          simp
        · unfold uvRows
          rw [RangeStep.next, if_neg (by simp; omega), axis_cons hs ha,
            axis_nil (show hstop ≤ a + step by omega)]
          simp
      · rw [if_neg hu2, ih _ _ (by omega) (le_refl _), axis_cons hs ha,
          axis_nil (le_refl hstop), axis_nil (show hstop ≤ a + step by omega)]
        simp
    · rw [RangeStep.next, if_neg ha, axis_nil (not_lt.1 ha)]
      simp

/-- C43: with a positive step and `border` at most both dimensions, the loops end and give exactly
the grid (`umax` is `usize::MAX`). -/
theorem c43_grid (umax width height step border : ℕ) (hw : width ≤ umax) (hh : height ≤ umax)
    (hs : 0 < step) (hbw : border ≤ width) (hbh : border ≤ height) (fuel : ℕ)
    (hf : width + height ≤ fuel) :
    uvRaws umax fuel width height step border = some (.ok (grid width height step border)) := by
  unfold uvRaws
  rw [usizeSub, if_pos hbh]
  simp only []
  by_cases h : border ≤ height - border
  · rw [uvRows_eq umax width hs border hbw (by omega) hw _ _ _ (by omega) h]
    simp [grid]
  · unfold uvRows
    rw [RangeStep.next, if_neg (by simp; omega)]
    simp [grid, axis_nil (show height - border ≤ border by omega)]

/-- C43: which pixels the grid contains. -/
theorem c43_mem_grid (width height step border u v : ℕ) :
    (u, v) ∈ grid width height step border ↔
      ∃ i j, u = border + i * step ∧ v = border + j * step ∧
        u < width - border ∧ v < height - border := by
  simp only [grid, axis, List.mem_flatMap, List.mem_map, List.mem_filter, List.mem_range,
    decide_eq_true_eq, Prod.mk.injEq]
  constructor
  · rintro ⟨row, ⟨h1, h2, j, hj⟩, col, ⟨h3, h4, i, hi⟩, rfl, rfl⟩
    rw [mul_comm] at hi hj
    exact ⟨i, j, by omega, by omega, h3, h1⟩
  · rintro ⟨i, j, rfl, rfl, h1, h2⟩
    exact ⟨border + j * step, ⟨h2, by omega, by simp⟩, border + i * step, ⟨h1, by omega, by simp⟩,
      rfl, rfl⟩

/-- C43: row by row, each pixel once: the list is strictly increasing for (row, column). -/
theorem c43_row_by_row (width height step border : ℕ) :
    (grid width height step border).Pairwise fun p q => p.2 < q.2 ∨ (p.2 = q.2 ∧ p.1 < q.1) := by
  have hax : ∀ stop, (axis border stop step).Pairwise (· < ·) := fun stop =>
    List.pairwise_lt_range.filter _
  unfold grid
  rw [List.pairwise_flatMap]
  constructor
  · intro row _
    rw [List.pairwise_map]
    exact (hax _).imp fun h => Or.inr ⟨rfl, h⟩
  · refine (hax _).imp fun h => ?_
    intro x hx y hy
    rw [List.mem_map] at hx hy
    obtain ⟨_, _, rfl⟩ := hx
    obtain ⟨_, _, rfl⟩ := hy
    exact Or.inl h

/-- C43: panics for `border > height`. -/
theorem c43_panic_height (umax fuel width height step border : ℕ) (h : height < border) :
    uvRaws umax fuel width height step border = some .panic := by
  unfold uvRaws
  rw [usizeSub, if_neg (by omega)]

/-- C43: panics for `border > width` as soon as there is a row, whatever the step (zero included). -/
theorem c43_panic_width (umax fuel width height step border : ℕ) (hbh : border ≤ height)
    (h : width < border) (hrow : border < height - border) :
    uvRaws umax (fuel + 1) width height step border = some .panic := by
  unfold uvRaws
  rw [usizeSub, if_pos hbh]
  simp only []
  unfold uvRows
  rw [RangeStep.next, if_pos hrow]
  simp only [usizeSub]
  rw [if_neg (by omega)]

/-- C43: no rows, no panic: `width - border` is not evaluated. -/
theorem c43_no_rows (umax fuel width height step border : ℕ) (hbh : border ≤ height)
    (hrow : height - border ≤ border) :
    uvRaws umax fuel width height step border = some (.ok []) := by
  unfold uvRaws
  rw [usizeSub, if_pos hbh]
  simp only []
  unfold uvRows
  rw [RangeStep.next, if_neg (by simp; omega)]

/-- C43: step 0 on a nonempty range never ends. -/
theorem c43_step_zero (umax fuel width height border : ℕ) (hu : height ≤ umax)
    (hbw : border ≤ width) (hbh : border ≤ height) (hrow : border < height - border) :
    uvRaws umax fuel width height 0 border = none := by
  unfold uvRaws
  rw [usizeSub, if_pos hbh]
  simp only []
  have : ∀ (fuel : ℕ) (uv : List (ℕ × ℕ)),
      uvRows umax width 0 border fuel ⟨border, height - border, 0⟩ uv = none := by
    intro fuel
    induction fuel with
    | zero =>
      intro uv
      unfold uvRows
      rw [RangeStep.next, if_pos hrow]
    | succ fuel ih =>
      intro uv
      unfold uvRows
      rw [RangeStep.next, if_pos hrow]
      simp only [usizeSub, if_pos hbw, Nat.add_zero]
      rw [if_pos (by omega)]
      split
      · rfl
      · exact ih _
  exact this fuel []

/-- C43, exactly when it panics (positive step): `border > height`, or `border > width` with at least
one row. -/
theorem c43_panics_iff (umax width height step border : ℕ) (hw : width ≤ umax) (hh : height ≤ umax)
    (hs : 0 < step) (fuel : ℕ) (hf : width + height < fuel) :
    uvRaws umax fuel width height step border = some .panic ↔
      height < border ∨ (width < border ∧ border < height - border) := by
  by_cases h1 : height < border
  · simp [c43_panic_height _ _ _ _ _ _ h1, h1]
  · by_cases h2 : border ≤ width
    · rw [c43_grid umax width height step border hw hh hs h2 (by omega) fuel (by omega)]
      simp; omega
    · by_cases h3 : border < height - border
      · obtain ⟨f, rfl⟩ : ∃ f, fuel = f + 1 := ⟨fuel - 1, by omega⟩
        rw [c43_panic_width _ _ _ _ _ _ (by omega) (by omega) h3]
        simp; omega
      · rw [c43_no_rows _ _ _ _ _ _ (by omega) (by omega)]
        simp; omega

theorem absDiffEq_self {a eps : ℝ} (h : 0 ≤ eps) : absDiffEq a a eps = true := by
  simp [absDiffEq, h]

theorem assertAbsDiffEq_self {n : ℕ} (p : Pixels ℝ n) {eps : ℝ} (h : 0 ≤ eps) :
    assertAbsDiffEq p p eps = .ok () := by
  unfold assertAbsDiffEq
  rw [if_pos]
  simp [absDiffEq_self h]

/-- C43: the assertion compares every entry, with the given tolerance. -/
theorem c43_assert_iff {n : ℕ} (p q : Pixels ℝ n) (eps : ℝ) :
    assertAbsDiffEq p q eps = .ok () ↔ ∀ i j, |p.data i j - q.data i j| ≤ eps := by
  have key : ∀ a b : ℝ, absDiffEq a b eps = true ↔ |a - b| ≤ eps := by
    intro a b
    unfold absDiffEq
    by_cases h : b < a
    · simp [h, abs_of_pos (sub_pos.2 h)]
    · simp [h, abs_of_nonpos (sub_nonpos.2 (not_lt.1 h))]
  unfold assertAbsDiffEq
  by_cases h : ∀ i j, |p.data i j - q.data i j| ≤ eps
  · rw [if_pos]
    · simp [h]
    · simp only [List.all_eq_true, List.mem_finRange, forall_true_left, key]; exact h
  · rw [if_neg]
    · simp only [reduceCtorEq, h]
    · simp only [List.all_eq_true, List.mem_finRange, forall_true_left, key]; exact h

/-- C43: no failure for a perspective model with nonzero focal lengths, whatever the arguments that
do not make the loops panic. -/
theorem c43_perspective_passes (p : PerspectiveParams ℝ) (hx : p.fx ≠ 0) (hy : p.fy ≠ 0)
    (umax width height step border : ℕ) (hw : width ≤ umax) (hh : height ≤ umax)
    (hs : 0 < step) (hbw : border ≤ width) (hbh : border ≤ height) (eps : ℝ) (he : 0 ≤ eps)
    (fuel : ℕ) (hf : width + height ≤ fuel) :
    roundtripIntrinsics umax fuel (IntrinsicParametersPerspective.ofParams p) width height step
      border eps = some (.ok ()) := by
  unfold roundtripIntrinsics
  rw [c43_grid umax width height step border hw hh hs hbw hbh fuel hf]
  simp only [Option.map_some]
  have := c10_roundtrip p hx hy (pixelsOfList (grid width height step border))
  simp only [IntrinsicParameters.pixelToCamera, IntrinsicParameters.cameraToPixel]
  rw [this, assertAbsDiffEq_self _ he]

/-- C43: no failure for an orthographic model with nonzero scales. -/
theorem c43_orthographic_passes (p : OrthographicParams ℝ) (hx : p.sx ≠ 0) (hy : p.sy ≠ 0)
    (umax width height step border : ℕ) (hw : width ≤ umax) (hh : height ≤ umax)
    (hs : 0 < step) (hbw : border ≤ width) (hbh : border ≤ height) (eps : ℝ) (he : 0 ≤ eps)
    (fuel : ℕ) (hf : width + height ≤ fuel) :
    roundtripIntrinsics umax fuel (IntrinsicParametersOrthographic.ofParams p) width height step
      border eps = some (.ok ()) := by
  unfold roundtripIntrinsics
  rw [c43_grid umax width height step border hw hh hs hbw hbh fuel hf]
  simp only [Option.map_some]
  have := (c12_roundtrip p hx hy (pixelsOfList (grid width height step border)) 1).1
  simp only [IntrinsicParameters.pixelToCamera, IntrinsicParameters.cameraToPixel]
  rw [this, assertAbsDiffEq_self _ he]

/-- C43: the utility does detect a wrong model: it panics iff some grid pixel comes back further than
`eps` away. -/
theorem c43_detects {I : Type} [IntrinsicParameters ℝ I] (cam : I)
    (umax width height step border : ℕ) (hw : width ≤ umax) (hh : height ≤ umax)
    (hs : 0 < step) (hbw : border ≤ width) (hbh : border ≤ height) (eps : ℝ)
    (fuel : ℕ) (hf : width + height ≤ fuel) :
    roundtripIntrinsics umax fuel cam width height step border eps = some (.ok ()) ↔
      ∀ (i : Fin (grid width height step border).length) (j : Fin 2),
        |![(((grid width height step border).get i).1 : ℝ),
            (((grid width height step border).get i).2 : ℝ)] j -
          (IntrinsicParameters.cameraToPixel cam
            (IntrinsicParameters.pixelToCamera cam
              (⟨fun i => ![(((grid width height step border).get i).1 : ℝ),
                (((grid width height step border).get i).2 : ℝ)]⟩ :
                  Pixels ℝ _)).pointOnRay).data i j| ≤ eps := by
  have hp : (pixelsOfList (grid width height step border) : Pixels ℝ _) =
      ⟨fun i => ![(((grid width height step border).get i).1 : ℝ),
        (((grid width height step border).get i).2 : ℝ)]⟩ := by
    ext1
    rw [pixelsOfList_data]
    simp
  unfold roundtripIntrinsics
  rw [c43_grid umax width height step border hw hh hs hbw hbh fuel hf]
  simp only [Option.map_some, Option.some.injEq, c43_assert_iff, hp]

/-- Non-vacuity: the arguments used by the crate's own tests (640 x 480, step 5, border 5). -/
example : roundtripIntrinsics (2 ^ 64 - 1) 2000 (IntrinsicParametersPerspective.ofParams exPersp) 640
    480 5 5 (1 / 10 : ℝ) = some (.ok ()) ∧ (10, 470) ∈ grid 640 480 5 5 := by
  refine ⟨c43_perspective_passes _ (by norm_num [exPersp]) (by norm_num [exPersp]) _ _ _ _ _
    (by norm_num) (by norm_num) (by norm_num) (by norm_num) (by norm_num) _ (by norm_num) _
    (by norm_num), ?_⟩
  rw [c43_mem_grid]
  exact ⟨1, 93, by omega, by omega, by omega, by omega⟩

end CamGeom
