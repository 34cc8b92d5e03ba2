import Verif.Props.Stereo

/-!
# C114: any number of cameras of both kinds and one point
-/

namespace CamGeom
open Spec Matrix ExtrinsicParameters

/-- A camera of one of the two kinds. -/
inductive AnyCamera
  | perspective (p : PerspectiveParams ℝ) (e : ExtrinsicParameters ℝ)
  | orthographic (p : OrthographicParams ℝ) (e : ExtrinsicParameters ℝ)

namespace AnyCamera

/-- Nonzero focal lengths or scales and a unit quaternion. -/
def Valid : AnyCamera → Prop
  | perspective p e => p.fx ≠ 0 ∧ p.fy ≠ 0 ∧ ValidExtrinsics e
  | orthographic p e => p.sx ≠ 0 ∧ p.sy ≠ 0 ∧ ValidExtrinsics e

/-- `world_to_pixel` gives `u` for the point `x`, which is not in the principal plane of a perspective camera. -/
def ShowsAt : AnyCamera → Vec → (Fin 2 → ℝ) → Prop
  | perspective p e, x, u => Shows p e x u
  | orthographic p e, x, u => parallelImage p e x = u

/-- The ray of a pixel. -/
noncomputable def rayOf : AnyCamera → (Fin 2 → ℝ) → Ray WorldFrame ℝ
  | perspective p e, u => sightRay p e u
  | orthographic p e, u => parallelRay p e u

theorem Valid.direction_ne {c : AnyCamera} (h : c.Valid) (u : Fin 2 → ℝ) : (c.rayOf u).direction ≠ 0 := by
  cases c with
  | perspective p e =>
    intro h0
    have := (c112_angle (p := p) h.2.2 u u).2
    rw [show (sightRay p e u).direction = 0 from h0, zero_dotProduct] at this
    exact zero_ne_one this
  | orthographic p e =>
    show (parallelRay p e u).direction ≠ 0
    rw [parallelRay_direction h.2.2]
    exact forward_ne_zero h.2.2

theorem Valid.on_line {c : AnyCamera} (h : c.Valid) {x : Vec} {u : Fin 2 → ℝ} (hx : c.ShowsAt x u) :
    x ∈ line (c.rayOf u).center (c.rayOf u).direction := by
  cases c with
  | perspective p e =>
    obtain ⟨t, -, ht⟩ := (c103_shows_iff h.1 h.2.1 h.2.2 x u).1 hx
    exact ⟨t, by rw [show (rayOf (perspective p e) u).center = e.camcenter from sightRay_center h.2.2 u]; exact ht⟩
  | orthographic p e =>
    obtain ⟨t, ht⟩ := (c108_shows_iff h.1 h.2.1 h.2.2 x u).1 hx
    exact ⟨t, by rw [show (rayOf (orthographic p e) u).direction = e.forward from parallelRay_direction h.2.2 u]; exact ht⟩

/-- Moving along the ray keeps the pixel, except at one point. -/
theorem Valid.along {c : AnyCamera} (h : c.Valid) {x : Vec} {u : Fin 2 → ℝ} (hx : c.ShowsAt x u) :
    ∃ b : ℝ, b ≠ 0 ∧ ∀ s, s ≠ b → c.ShowsAt (x + s • (c.rayOf u).direction) u := by
  cases c with
  | perspective p e =>
    obtain ⟨t, h0, ht⟩ := (c103_shows_iff h.1 h.2.1 h.2.2 x u).1 hx
    refine ⟨-t, neg_ne_zero.2 h0, fun s hs => (c103_shows_iff h.1 h.2.1 h.2.2 _ u).2 ⟨t + s, fun h1 => hs (by linarith), ?_⟩⟩
    show x + s • (sightRay p e u).direction = _
    conv_lhs => rw [ht]
    module
  | orthographic p e =>
    obtain ⟨t, ht⟩ := (c108_shows_iff h.1 h.2.1 h.2.2 x u).1 hx
    refine ⟨1, one_ne_zero, fun s _ => (c108_shows_iff h.1 h.2.1 h.2.2 _ u).2 ⟨t + s, ?_⟩⟩
    show x + s • (parallelRay p e u).direction = _
    rw [parallelRay_direction h.2.2]
    conv_lhs => rw [ht]
    module

end AnyCamera

theorem exists_avoiding {α : Type} {P : α → ℝ → Prop} (l : List α) (h : ∀ a ∈ l, ∃ b, ∀ s, s ≠ b → P a s) :
    ∃ s : ℝ, s ≠ 0 ∧ ∀ a ∈ l, P a s := by
  have fin : ∀ l' : List α, (∀ a ∈ l', a ∈ l) → ∃ S : Finset ℝ, ∀ s ∉ S, ∀ a ∈ l', P a s := by
    intro l'
    induction l' with
    | nil => exact fun _ => ⟨∅, by simp⟩
    | cons a l' ih =>
      intro hl
      obtain ⟨S, hS⟩ := ih fun c hc => hl c (List.mem_cons_of_mem _ hc)
      obtain ⟨b, hb⟩ := h a (hl a List.mem_cons_self)
      refine ⟨insert b S, fun s hs c hc => ?_⟩
      rw [Finset.mem_insert, not_or] at hs
      rcases List.mem_cons.1 hc with rfl | hc
      · exact hb s hs.1
      · exact hS s hs.2 c hc
  obtain ⟨S, hS⟩ := fin l fun _ h => h
  obtain ⟨s, hs⟩ := Infinite.exists_notMem_finset (insert 0 S)
  rw [Finset.mem_insert, not_or] at hs
  exact ⟨s, hs.1, hS s hs.2⟩

theorem parallel_of_cross {d d' : Vec} (hd : d ≠ 0) (h : d ⨯₃ d' = 0) : ∃ m : ℝ, d' = m • d := by
  refine ⟨(d ⬝ᵥ d') / (d ⬝ᵥ d), ?_⟩
  have h0 : d ⬝ᵥ d ≠ 0 := fun h => hd (dotProduct_self_eq_zero.1 h)
  have c0 := congrFun h 0
  have c1 := congrFun h 1
  have c2 := congrFun h 2
  simp [cross_apply] at c0 c1 c2
  have key : ∀ i, (d ⬝ᵥ d) * d' i = (d ⬝ᵥ d') * d i := by
    intro i
    simp only [dotProduct, Fin.sum_univ_three]
    fin_cases i
    · simp
      linear_combination d 2 * c1 - d 1 * c2
    · simp
      linear_combination d 0 * c2 - d 2 * c0
    · simp
      linear_combination d 1 * c0 - d 0 * c1
  funext i
  rw [Pi.smul_apply, smul_eq_mul, div_mul_eq_mul_div, eq_div_iff h0]
  linarith [key i]

section
variable {cs : List (AnyCamera × (Fin 2 → ℝ))} {x : Vec}

/-- **C114**: pixels of any number of cameras in which some point is shown determine the point exactly if two of the rays are
not parallel. -/
theorem c114_determined (hv : ∀ c ∈ cs, c.1.Valid) (hx : ∀ c ∈ cs, c.1.ShowsAt x c.2) :
    (∀ y, (∀ c ∈ cs, c.1.ShowsAt y c.2) → y = x) ↔
      ∃ c ∈ cs, ∃ c' ∈ cs, (c.1.rayOf c.2).direction ⨯₃ (c'.1.rayOf c'.2).direction ≠ 0 := by
  constructor
  · intro H
    by_contra hn
    push Not at hn
    cases cs with
    | nil =>
      have := (H 0 (by simp)).trans (H ![1, 0, 0] (by simp)).symm
      simpa using congrFun this 0
    | cons c cs =>
      set d := (c.1.rayOf c.2).direction with hd
      have d0 : d ≠ 0 := (hv c List.mem_cons_self).direction_ne c.2
      obtain ⟨s, hs, h1⟩ := exists_avoiding (P := fun a s => a.1.ShowsAt (x + s • d) a.2) (c :: cs) fun a ha => by
        obtain ⟨m, hm⟩ := parallel_of_cross ((hv a ha).direction_ne a.2) (hn a ha c List.mem_cons_self)
        rw [← hd] at hm
        have m0 : m ≠ 0 := by
          rintro rfl
          rw [zero_smul] at hm
          exact d0 hm
        obtain ⟨b, -, hb⟩ := (hv a ha).along (hx a ha)
        refine ⟨b / m, fun s hs => ?_⟩
        have := hb (s * m) fun h => hs (by rw [← h, mul_div_cancel_right₀ _ m0])
        rwa [← smul_smul, ← hm] at this
      have := H _ h1
      exact d0 ((smul_eq_zero.1 (add_eq_left.1 this)).resolve_left hs)
  · rintro ⟨c, hc, c', hc', hn⟩ y hy
    have on : ∀ c ∈ cs, ∃ t : ℝ, y - x = t • (c.1.rayOf c.2).direction := by
      intro c hc
      obtain ⟨s, hs⟩ := (hv c hc).on_line (hx c hc)
      obtain ⟨t, ht⟩ := (hv c hc).on_line (hy c hc)
      refine ⟨t - s, ?_⟩
      generalize (c.1.rayOf c.2).direction = d at *
      rw [hs, ht]
      module
    obtain ⟨s, hs⟩ := on c hc
    obtain ⟨t, ht⟩ := on c' hc'
    generalize (c.1.rayOf c.2).direction = d at *
    generalize (c'.1.rayOf c'.2).direction = d' at *
    have h1 : s • (d ⨯₃ d') = 0 := by
      have : (y - x) ⨯₃ d' = 0 := by rw [ht, map_smul, LinearMap.smul_apply, cross_self, smul_zero]
      rw [hs, map_smul, LinearMap.smul_apply] at this
      exact this
    have h2 : s = 0 := (smul_eq_zero.1 h1).resolve_right hn
    rw [h2, zero_smul] at hs
    exact sub_eq_zero.1 hs

/-- **C114**: pixels of any number of cameras show a common point exactly if the point `best_intersection_of_rays` finds from
their rays is projected back to all of them. -/
theorem c114_consistent {trySvd : TrySvd ℝ} (hs : SvdContract trySvd) (hv : ∀ c ∈ cs, c.1.Valid)
    (hspread : Spread (cs.map fun c => c.1.rayOf c.2)) {pt : Points WorldFrame ℝ 1}
    (hpt : bestIntersectionOfRays trySvd (cs.map fun c => c.1.rayOf c.2) = .ok pt) :
    (∃ x, ∀ c ∈ cs, c.1.ShowsAt x c.2) ↔ ∀ c ∈ cs, c.1.ShowsAt (pt.data 0) c.2 := by
  refine ⟨?_, fun h => ⟨_, h⟩⟩
  rintro ⟨x, hx⟩
  have : pt.data 0 = x := by
    refine c32_common_point hs ?_ hspread ?_ hpt
    · intro r hr
      obtain ⟨c, hc, rfl⟩ := List.mem_map.1 hr
      exact (hv c hc).direction_ne c.2
    · intro r hr
      obtain ⟨c, hc, rfl⟩ := List.mem_map.1 hr
      exact (hv c hc).on_line (hx c hc)
  rwa [this]

end

/-! ### The theorems apply -/

/-- Unrotated perspective cameras at `(0, 0, 0)` and `(1, 0, 0)` and an unrotated orthographic camera at `(5, 0, -1)` show the
point `(0, 0, 2)` in the pixels `(0, 0)`, `(-1/2, 0)` and `(-5, 0)`. -/
example (cs : List (AnyCamera × (Fin 2 → ℝ))) (h : cs =
      [(.perspective ⟨1, 1, 0, 0, 0⟩ (fromRotationAndCamcenter ⟨1, 0, 0, 0⟩ ![0, 0, 0]), ![0, 0]),
       (.perspective ⟨1, 1, 0, 0, 0⟩ (fromRotationAndCamcenter ⟨1, 0, 0, 0⟩ ![1, 0, 0]), ![-1 / 2, 0]),
       (.orthographic ⟨1, 1, 0, 0⟩ (fromRotationAndCamcenter ⟨1, 0, 0, 0⟩ ![5, 0, -1]), ![-5, 0])]) :
    (∀ c ∈ cs, c.1.Valid) ∧ (∀ c ∈ cs, c.1.ShowsAt ![0, 0, 2] c.2) ∧ Spread (cs.map fun c => c.1.rayOf c.2) ∧
      ∃ c ∈ cs, ∃ c' ∈ cs, (c.1.rayOf c.2).direction ⨯₃ (c'.1.rayOf c'.2).direction ≠ 0 := by
  have hq : UnitQuat ⟨1, 0, 0, 0⟩ := by simp [UnitQuat]
  subst h
  refine ⟨?_, ?_, ?_, ?_⟩
  · intro c hc
    simp only [List.mem_cons, List.not_mem_nil, or_false] at hc
    rcases hc with rfl | rfl | rfl
    all_goals exact ⟨one_ne_zero, one_ne_zero, _, _, hq, rfl⟩
  · intro c hc
    simp only [List.mem_cons, List.not_mem_nil, or_false] at hc
    rcases hc with rfl | rfl | rfl
    · exact plain_shows _ _ (by simp) (by simp) (by simp)
    · exact plain_shows _ _ (by simp) (by simp) (by simp)
    · show parallelImage _ _ _ = _
      rw [parallelImage, ortho_worldToPixel, worldToCamera_row hq, rotate_apply]
      funext a
      fin_cases a <;> simp [orthographic, Points.single]
  · refine ⟨_, List.mem_map_of_mem (List.mem_cons_self), _,
      List.mem_map_of_mem (List.mem_cons_of_mem _ List.mem_cons_self), ?_⟩
    simp only [AnyCamera.rayOf, plain_ray, len_eq]
    simp only [dotProduct, Fin.sum_univ_three]
    simp only [Matrix.cons_val]
    norm_num
    have h : (11 / 10 : ℝ) ≤ √(5 / 4) := Real.le_sqrt_of_sq_le (by norm_num)
    rw [Real.sqrt_div (by norm_num)] at h
    linarith
  · refine ⟨_, List.mem_cons_self, _, List.mem_cons_of_mem _ List.mem_cons_self, ?_⟩
    simp only [AnyCamera.rayOf, plain_ray]
    intro h
    have := congrFun h 1
    simp [cross_apply] at this

end CamGeom
