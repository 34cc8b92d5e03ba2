import Verif.Model.RenderCube
import Verif.Props.Projective
import Verif.Props.InvalidRays

/-!
# C71: the wireframe example

Exact arithmetic; `top` stands for `f64::INFINITY`: any number at least as large as all pixel coordinates.
-/

namespace CamGeom
open Spec ExtrinsicParameters

/-- Real numbers with `top` in the role of infinity. -/
noncomputable def Spec.realOrder (top : ℝ) : F64Order ℝ := ⟨top, min, max⟩

/-- The vertices used by some edge. -/
def Spec.ends {n : ℕ} (edges : List (Fin n × Fin n)) : List (Fin n) := edges.flatMap fun e => [e.1, e.2]

/-- Edges as pairs of run-time indices. -/
def Spec.indices {n : ℕ} (edges : List (Fin n × Fin n)) : List (ℕ × ℕ) :=
  edges.map fun e => (e.1.val, e.2.val)

/-- The image magnified by `s` and shifted by `(tx, ty)`: for each edge a line and two end points. -/
noncomputable def Spec.picture {n : ℕ} (px : Mat n 2 ℝ) (s tx ty : ℝ) (edges : List (Fin n × Fin n)) :
    List (SvgElem ℝ) :=
  edges.flatMap fun e =>
    [.line (s * px e.1 0 + tx) (s * px e.2 0 + tx) (s * px e.1 1 + ty) (s * px e.2 1 + ty) 2,
     .circle (s * px e.1 0 + tx) (s * px e.1 1 + ty) 5,
     .circle (s * px e.2 0 + tx) (s * px e.2 1 + ty) 5]

theorem foldl_min_spec {α : Type} (f : α → ℝ) (l : List α) : ∀ m : ℝ,
    l.foldl (fun m v => min m (f v)) m ≤ m ∧ (∀ v ∈ l, l.foldl (fun m v => min m (f v)) m ≤ f v) ∧
    (l.foldl (fun m v => min m (f v)) m = m ∨ ∃ v ∈ l, l.foldl (fun m v => min m (f v)) m = f v) := by
  induction l with
  | nil => intro m; simp
  | cons a l ih =>
    intro m
    obtain ⟨h1, h2, h3⟩ := ih (min m (f a))
    simp only [List.foldl_cons]
    refine ⟨h1.trans (min_le_left _ _), ?_, ?_⟩
    · intro v hv
      rcases List.mem_cons.1 hv with rfl | hv
      · exact h1.trans (min_le_right _ _)
      · exact h2 v hv
    · rcases h3 with h3 | ⟨v, hv, h3⟩
      · rcases min_choice m (f a) with h | h
        · left; rw [h3, h]
        · right; exact ⟨a, List.mem_cons_self, by rw [h3, h]⟩
      · right; exact ⟨v, List.mem_cons_of_mem _ hv, h3⟩

theorem foldl_min_attained {α : Type} (f : α → ℝ) {l : List α} (hl : l ≠ []) {m : ℝ}
    (hm : ∀ v ∈ l, f v ≤ m) : ∃ v ∈ l, l.foldl (fun m v => min m (f v)) m = f v := by
  obtain ⟨-, h2, h3 | h3⟩ := foldl_min_spec f l m
  · obtain ⟨v, hv⟩ := List.exists_mem_of_ne_nil l hl
    exact ⟨v, hv, le_antisymm (h2 v hv) (by rw [h3]; exact hm v hv)⟩
  · exact h3

theorem foldl_max_neg {α : Type} (f : α → ℝ) (l : List α) : ∀ m : ℝ,
    l.foldl (fun m v => max m (f v)) m = -l.foldl (fun m v => min m (-f v)) (-m) := by
  induction l with
  | nil => intro m; simp
  | cons a l ih =>
    intro m
    simp only [List.foldl_cons]
    rw [ih, min_neg_neg]

theorem foldl_max_ge {α : Type} (f : α → ℝ) (l : List α) (m : ℝ) (v : α) (hv : v ∈ l) :
    f v ≤ l.foldl (fun m v => max m (f v)) m := by
  rw [foldl_max_neg]
  have := (foldl_min_spec (fun v => -f v) l (-m)).2.1 v hv
  linarith

theorem foldl_max_attained {α : Type} (f : α → ℝ) {l : List α} (hl : l ≠ []) {m : ℝ}
    (hm : ∀ v ∈ l, m ≤ f v) : ∃ v ∈ l, l.foldl (fun m v => max m (f v)) m = f v := by
  rw [foldl_max_neg]
  obtain ⟨v, hv, h⟩ := foldl_min_attained (fun v => -f v) hl (m := -m) (fun v hv => neg_le_neg (hm v hv))
  exact ⟨v, hv, by rw [h, neg_neg]⟩

section
variable {n : ℕ}

/-- The writer after all edges. -/
def writerOf {F : Type} (o : F64Order F) (px : Mat n 2 F) (edges : List (Fin n × Fin n)) (w : SvgWriter F) :
    SvgWriter F :=
  edges.foldl (fun w e => w.addEdge o (px e.1) (px e.2)) w

theorem writerOf_eq {F : Type} (o : F64Order F) (px : Mat n 2 F) (edges : List (Fin n × Fin n)) :
    ∀ w : SvgWriter F, writerOf o px edges w =
      { segs := w.segs ++ edges.map fun e => ((px e.1 0, px e.1 1), (px e.2 0, px e.2 1))
        xmin := (ends edges).foldl (fun m v => o.min m (px v 0)) w.xmin
        xmax := (ends edges).foldl (fun m v => o.max m (px v 0)) w.xmax
        ymin := (ends edges).foldl (fun m v => o.min m (px v 1)) w.ymin
        ymax := (ends edges).foldl (fun m v => o.max m (px v 1)) w.ymax } := by
  induction edges with
  | nil => intro w; simp [writerOf, ends]
  | cons e l ih =>
    intro w
    have : writerOf o px (e :: l) w = writerOf o px l (w.addEdge o (px e.1) (px e.2)) := rfl
    rw [this, ih]
    simp [SvgWriter.addEdge, ends, List.flatMap_cons]

theorem rowAt_fin {F : Type} (a : Mat n 2 F) (i : Fin n) : rowAt a i.val = .ok (a i) := by
  simp [rowAt, i.isLt]

theorem render_ok {F I : Type} [Scalar F] [IntrinsicParameters F I] (o : F64Order F) (verts : Points WorldFrame F n)
    (cam : Camera F I) (edges : List (Fin n × Fin n)) :
    renderWireframe o verts (indices edges) cam =
      .ok (writerOf o (cam.worldToPixel verts).data edges (SvgWriter.new o)).save := by
  unfold renderWireframe
  dsimp only
  generalize cam.worldToPixel verts = px
  have : ∀ w : SvgWriter F, ((indices edges).foldlM (init := w) fun wtr edge => do
      let pt0 ← rowAt px.data edge.1
      let pt1 ← rowAt px.data edge.2
      Outcome.ok (wtr.addEdge o pt0 pt1)) = .ok (writerOf o px.data edges w) := by
    induction edges with
    | nil => intro w; rfl
    | cons e l ih =>
      intro w
      simp only [indices, List.map_cons, List.foldlM_cons, rowAt_fin]
      exact ih _
  rw [this]
  rfl

/-- C71: the renderer panics exactly when an edge names a vertex that does not exist; it never fails
otherwise. -/
theorem c71_panics {F I : Type} [Scalar F] [IntrinsicParameters F I] (o : F64Order F)
    (verts : Points WorldFrame F n) (cam : Camera F I) (edges : List (ℕ × ℕ)) :
    (renderWireframe o verts edges cam = .panic ↔ ∃ e ∈ edges, n ≤ e.1 ∨ n ≤ e.2) ∧
    ∀ err, renderWireframe o verts edges cam ≠ .err err := by
  unfold renderWireframe
  dsimp only
  generalize cam.worldToPixel verts = px
  have key : ∀ w : SvgWriter F,
      ((edges.foldlM (init := w) fun wtr edge => do
        let pt0 ← rowAt px.data edge.1
        let pt1 ← rowAt px.data edge.2
        Outcome.ok (wtr.addEdge o pt0 pt1)) = .panic ∧ ∃ e ∈ edges, n ≤ e.1 ∨ n ≤ e.2) ∨
      ∃ w', (edges.foldlM (init := w) fun wtr edge => do
        let pt0 ← rowAt px.data edge.1
        let pt1 ← rowAt px.data edge.2
        Outcome.ok (wtr.addEdge o pt0 pt1)) = .ok w' ∧ ¬ ∃ e ∈ edges, n ≤ e.1 ∨ n ≤ e.2 := by
    induction edges with
    | nil => intro w; right; exact ⟨w, rfl, by simp⟩
    | cons e l ih =>
      intro w
      by_cases h0 : e.1 < n
      · by_cases h1 : e.2 < n
        · rcases ih (w.addEdge o (fun j => px.data ⟨e.1, h0⟩ j) (fun j => px.data ⟨e.2, h1⟩ j)) with h | h
          · left
            refine ⟨?_, ?_⟩
            · rw [List.foldlM_cons]
              simp only [rowAt, h0, h1, dif_pos]
              exact h.1
            · obtain ⟨x, hx, hx'⟩ := h.2
              exact ⟨x, List.mem_cons_of_mem _ hx, hx'⟩
          · right
            obtain ⟨w', h, h'⟩ := h
            refine ⟨w', ?_, ?_⟩
            · rw [List.foldlM_cons]
              simp only [rowAt, h0, h1, dif_pos]
              exact h
            · rintro ⟨x, hx, hx'⟩
              rcases List.mem_cons.1 hx with rfl | hx
              · omega
              · exact h' ⟨x, hx, hx'⟩
        · left
          refine ⟨?_, e, List.mem_cons_self, Or.inr (not_lt.1 h1)⟩
          rw [List.foldlM_cons]
          simp only [rowAt, h0, h1, dif_pos, dif_neg, not_false_eq_true]
          rfl
      · left
        refine ⟨?_, e, List.mem_cons_self, Or.inl (not_lt.1 h0)⟩
        rw [List.foldlM_cons]
        simp only [rowAt, h0, dif_neg, not_false_eq_true]
        rfl
  rcases key (SvgWriter.new o) with ⟨h, h'⟩ | ⟨w', h, h'⟩ <;> rw [h]
  · exact ⟨⟨fun _ => h', fun _ => rfl⟩, fun err he => by cases he⟩
  · exact ⟨⟨fun he => (by cases he), fun he => absurd he h'⟩, fun err he => by cases he⟩

/-- The bounding box the writer has computed. -/
theorem writer_box {top : ℝ} {px : Mat n 2 ℝ} (hb : ∀ i k, |px i k| ≤ top)
    {edges : List (Fin n × Fin n)} (hne : edges ≠ []) :
    let w := writerOf (realOrder top) px edges (SvgWriter.new (realOrder top))
    (w.segs = edges.map fun e => ((px e.1 0, px e.1 1), (px e.2 0, px e.2 1))) ∧
    ((∀ v ∈ ends edges, w.xmin ≤ px v 0 ∧ px v 0 ≤ w.xmax ∧ w.ymin ≤ px v 1 ∧ px v 1 ≤ w.ymax) ∧
    (∃ v ∈ ends edges, w.xmin = px v 0) ∧ (∃ v ∈ ends edges, w.xmax = px v 0) ∧
    (∃ v ∈ ends edges, w.ymin = px v 1) ∧ ∃ v ∈ ends edges, w.ymax = px v 1) := by
  intro w
  have hn : ends edges ≠ [] := by
    cases edges with
    | nil => exact absurd rfl hne
    | cons e l => simp [ends, List.flatMap_cons]
  have hw : w = _ := writerOf_eq (realOrder top) px edges _
  rw [hw]
  refine ⟨by simp [SvgWriter.new], fun v hv => ⟨?_, ?_, ?_, ?_⟩, ?_, ?_, ?_, ?_⟩
  · exact (foldl_min_spec (fun v => px v 0) _ _).2.1 v hv
  · exact foldl_max_ge (fun v => px v 0) _ _ v hv
  · exact (foldl_min_spec (fun v => px v 1) _ _).2.1 v hv
  · exact foldl_max_ge (fun v => px v 1) _ _ v hv
  · exact foldl_min_attained (fun v => px v 0) hn fun v _ => (abs_le.1 (hb v 0)).2
  · exact foldl_max_attained (fun v => px v 0) hn fun v _ => (abs_le.1 (hb v 0)).1
  · exact foldl_min_attained (fun v => px v 1) hn fun v _ => (abs_le.1 (hb v 1)).2
  · exact foldl_max_attained (fun v => px v 1) hn fun v _ => (abs_le.1 (hb v 1)).1

/-- C71: the rendering is the image at one common magnification `s` for both axes.  All end points keep
a border of 5 (the radius of the dots) inside the 300x200 picture, the picture touches the left and the
upper border, and the right or the lower one. -/
theorem c71_rendering {I : Type} [IntrinsicParameters ℝ I] (top : ℝ) (verts : Points WorldFrame ℝ n)
    (cam : Camera ℝ I) (edges : List (Fin n × Fin n))
    (hb : ∀ i k, |(cam.worldToPixel verts).data i k| ≤ top)
    (hx : ∃ v ∈ ends edges, ∃ v' ∈ ends edges,
      (cam.worldToPixel verts).data v 0 ≠ (cam.worldToPixel verts).data v' 0)
    (hy : ∃ v ∈ ends edges, ∃ v' ∈ ends edges,
      (cam.worldToPixel verts).data v 1 ≠ (cam.worldToPixel verts).data v' 1) :
    ∃ s tx ty : ℝ, 0 < s ∧
      renderWireframe (realOrder top) verts (indices edges) cam =
        .ok (picture (cam.worldToPixel verts).data s tx ty edges) ∧
      (∀ v ∈ ends edges,
        5 ≤ s * (cam.worldToPixel verts).data v 0 + tx ∧
        s * (cam.worldToPixel verts).data v 0 + tx ≤ 300 - 5 ∧
        5 ≤ s * (cam.worldToPixel verts).data v 1 + ty ∧
        s * (cam.worldToPixel verts).data v 1 + ty ≤ 200 - 5) ∧
      (∃ v ∈ ends edges, s * (cam.worldToPixel verts).data v 0 + tx = 5) ∧
      (∃ v ∈ ends edges, s * (cam.worldToPixel verts).data v 1 + ty = 5) ∧
      ((∃ v ∈ ends edges, s * (cam.worldToPixel verts).data v 0 + tx = 300 - 5) ∨
        ∃ v ∈ ends edges, s * (cam.worldToPixel verts).data v 1 + ty = 200 - 5) := by
  rw [render_ok]
  generalize (cam.worldToPixel verts).data = px at *
  have hne : edges ≠ [] := by
    rintro rfl
    obtain ⟨v, hv, -⟩ := hx
    simp [ends] at hv
  obtain ⟨hs, hbox, ⟨a, ha, hxmin⟩, ⟨b, hb', hxmax⟩, ⟨c, hc, hymin⟩, ⟨d, hd, hymax⟩⟩ :=
    writer_box hb hne
  generalize writerOf (realOrder top) px edges (SvgWriter.new (realOrder top)) = w at *
  have hX : 0 < w.xmax - w.xmin := by
    obtain ⟨v, hv, v', hv', h⟩ := hx
    have h1 := hbox v hv
    have h2 := hbox v' hv'
    rcases lt_or_gt_of_ne h with h | h <;> linarith [h1.1, h1.2.1, h2.1, h2.2.1]
  have hY : 0 < w.ymax - w.ymin := by
    obtain ⟨v, hv, v', hv', h⟩ := hy
    have h1 := hbox v hv
    have h2 := hbox v' hv'
    rcases lt_or_gt_of_ne h with h | h <;> linarith [h1.2.2.1, h1.2.2.2, h2.2.2.1, h2.2.2.2]
  have hsave : ∀ s : ℝ, (if Scalar.lt ((200 - 2 * 5) / (w.ymax - w.ymin)) ((300 - 2 * 5) / (w.xmax - w.xmin))
      then ((200 - 2 * 5) / (w.ymax - w.ymin)) else ((300 - 2 * 5) / (w.xmax - w.xmin)) : ℝ) = s →
      w.save = picture px s (-w.xmin * s + 5) (-w.ymin * s + 5) edges := by
    intro s h
    simp only [SvgWriter.save, lit_real, hs, picture, List.flatMap_map]
    push_cast
    split_ifs at h with hlt
    · simp only [hlt, if_true]
      simp only [h, mul_comm s]
    · simp only [hlt, Bool.false_eq_true, if_false]
      simp only [h, mul_comm s]
  have hXs : (300 - 2 * 5) / (w.xmax - w.xmin) * (w.xmax - w.xmin) = 290 := by
    rw [div_mul_cancel₀ _ hX.ne']; norm_num
  have hYs : (200 - 2 * 5) / (w.ymax - w.ymin) * (w.ymax - w.ymin) = 190 := by
    rw [div_mul_cancel₀ _ hY.ne']; norm_num
  have hXp : 0 < (300 - 2 * 5) / (w.xmax - w.xmin) := div_pos (by norm_num) hX
  have hYp : 0 < (200 - 2 * 5) / (w.ymax - w.ymin) := div_pos (by norm_num) hY
  generalize (300 - 2 * 5) / (w.xmax - w.xmin) = sx at *
  generalize (200 - 2 * 5) / (w.ymax - w.ymin) = sy at *
  have main : ∀ s : ℝ, 0 < s → s ≤ sx → s ≤ sy → (s = sx ∨ s = sy) →
      (∀ v ∈ ends edges, 5 ≤ s * px v 0 + (-w.xmin * s + 5) ∧ s * px v 0 + (-w.xmin * s + 5) ≤ 300 - 5 ∧
        5 ≤ s * px v 1 + (-w.ymin * s + 5) ∧ s * px v 1 + (-w.ymin * s + 5) ≤ 200 - 5) ∧
      (∃ v ∈ ends edges, s * px v 0 + (-w.xmin * s + 5) = 5) ∧
      (∃ v ∈ ends edges, s * px v 1 + (-w.ymin * s + 5) = 5) ∧
      ((∃ v ∈ ends edges, s * px v 0 + (-w.xmin * s + 5) = 300 - 5) ∨
        ∃ v ∈ ends edges, s * px v 1 + (-w.ymin * s + 5) = 200 - 5) := by
    intro s h0 h1 h2 h3
    refine ⟨fun v hv => ?_, ⟨a, ha, ?_⟩, ⟨c, hc, ?_⟩, ?_⟩
    · obtain ⟨g1, g2, g3, g4⟩ := hbox v hv
      have k1 : s * (w.xmax - w.xmin) ≤ sx * (w.xmax - w.xmin) := mul_le_mul_of_nonneg_right h1 hX.le
      have k2 : s * (w.ymax - w.ymin) ≤ sy * (w.ymax - w.ymin) := mul_le_mul_of_nonneg_right h2 hY.le
      refine ⟨?_, ?_, ?_, ?_⟩ <;> nlinarith
    · rw [hxmin]; ring
    · rw [hymin]; ring
    · rcases h3 with rfl | rfl
      · left; refine ⟨b, hb', ?_⟩; rw [← hxmax]; linarith
      · right; refine ⟨d, hd, ?_⟩; rw [← hymax]; linarith
  by_cases hlt : sy < sx
  · have hl : Scalar.lt sy sx = true := by simpa using hlt
    rw [hl] at hsave
    exact ⟨sy, _, _, hYp, congrArg _ (hsave sy rfl), main sy hYp hlt.le le_rfl (Or.inr rfl)⟩
  · have hl : Scalar.lt sy sx = false := by simpa using hlt
    rw [hl] at hsave
    exact ⟨sx, _, _, hXp, congrArg _ (hsave sx rfl), main sx hXp le_rfl (not_lt.1 hlt) (Or.inl rfl)⟩

/-- Shifting all pixels by the same amount does not change the rendering. -/
theorem render_shift {I I' : Type} [IntrinsicParameters ℝ I] [IntrinsicParameters ℝ I'] (top : ℝ)
    (verts : Points WorldFrame ℝ n) (cam : Camera ℝ I) (cam' : Camera ℝ I')
    (edges : List (Fin n × Fin n)) (hb : ∀ i k, |(cam.worldToPixel verts).data i k| ≤ top)
    (hb' : ∀ i k, |(cam'.worldToPixel verts).data i k| ≤ top) (d : Fin 2 → ℝ)
    (h : ∀ i k, (cam'.worldToPixel verts).data i k = (cam.worldToPixel verts).data i k + d k) :
    renderWireframe (realOrder top) verts (indices edges) cam' =
      renderWireframe (realOrder top) verts (indices edges) cam := by
  rw [render_ok, render_ok]
  generalize (cam.worldToPixel verts).data = px at *
  generalize (cam'.worldToPixel verts).data = px' at *
  by_cases hne : edges = []
  · subst hne; rfl
  obtain ⟨hs, hbox, ⟨a, ha, hxmin⟩, ⟨b, hv, hxmax⟩, ⟨c, hc, hymin⟩, ⟨e, he, hymax⟩⟩ := writer_box hb hne
  obtain ⟨hs', hbox', ⟨a', ha', hxmin'⟩, ⟨b', hv', hxmax'⟩, ⟨c', hc', hymin'⟩, ⟨e', he', hymax'⟩⟩ :=
    writer_box hb' hne
  generalize writerOf (realOrder top) px edges (SvgWriter.new (realOrder top)) = w at *
  generalize writerOf (realOrder top) px' edges (SvgWriter.new (realOrder top)) = w' at *
  have e1 : w'.xmin = w.xmin + d 0 := by
    have h1 := (hbox' a ha).1
    have h2 := (hbox a' ha').1
    rw [h] at h1
    rw [hxmin', h] at *
    rw [hxmin] at *
    linarith
  have e2 : w'.xmax = w.xmax + d 0 := by
    have h1 := (hbox' b hv).2.1
    have h2 := (hbox b' hv').2.1
    rw [h] at h1
    rw [hxmax', h] at *
    rw [hxmax] at *
    linarith
  have e3 : w'.ymin = w.ymin + d 1 := by
    have h1 := (hbox' c hc).2.2.1
    have h2 := (hbox c' hc').2.2.1
    rw [h] at h1
    rw [hymin', h] at *
    rw [hymin] at *
    linarith
  have e4 : w'.ymax = w.ymax + d 1 := by
    have h1 := (hbox' e he).2.2.2
    have h2 := (hbox e' he').2.2.2
    rw [h] at h1
    rw [hymax', h] at *
    rw [hymax] at *
    linarith
  congr 1
  simp only [SvgWriter.save, hs, hs', List.flatMap_map, h, e1, e2, e3, e4, add_sub_add_right_eq_sub]
  have r1 : ∀ x s : ℝ, (x + d 0) * s + (-(w.xmin + d 0) * s + Scalar.lit 5) =
      x * s + (-w.xmin * s + Scalar.lit 5) := by intro x s; ring
  have r2 : ∀ x s : ℝ, (x + d 1) * s + (-(w.ymin + d 1) * s + Scalar.lit 5) =
      x * s + (-w.ymin * s + Scalar.lit 5) := by intro x s; ring
  simp only [r1, r2]

/-- C71: the principal point of a perspective camera does not affect the rendering. -/
theorem c71_perspective_principal_point (top : ℝ) (verts : Points WorldFrame ℝ n)
    (p : PerspectiveParams ℝ) (cx cy : ℝ) (e : ExtrinsicParameters ℝ) (edges : List (Fin n × Fin n))
    (hz : ∀ i, (e.worldToCamera verts).data i 2 ≠ 0)
    (hb : ∀ i k, |((Camera.mk (IntrinsicParametersPerspective.ofParams p) e).worldToPixel
      verts).data i k| ≤ top)
    (hb' : ∀ i k, |((Camera.mk (IntrinsicParametersPerspective.ofParams { p with cx, cy }) e).worldToPixel
      verts).data i k| ≤ top) :
    renderWireframe (realOrder top) verts (indices edges)
        (Camera.mk (IntrinsicParametersPerspective.ofParams { p with cx, cy }) e) =
      renderWireframe (realOrder top) verts (indices edges)
        (Camera.mk (IntrinsicParametersPerspective.ofParams p) e) := by
  refine render_shift top verts _ _ edges hb hb' ![cx - p.cx, cy - p.cy] fun i k => ?_
  rw [persp_worldToPixel _ _ _ (hz i), persp_worldToPixel _ _ _ (hz i)]
  fin_cases k <;> simp [pinhole]

/-- C71: neither the image centre nor the position of an orthographic camera affects the rendering, only
its orientation and scale do. -/
theorem c71_orthographic_position (top : ℝ) (verts : Points WorldFrame ℝ n)
    (p : OrthographicParams ℝ) (cx cy : ℝ) {e e' : ExtrinsicParameters ℝ} (he : ValidExtrinsics e)
    (he' : ValidExtrinsics e') (hr : e'.rotation = e.rotation) (edges : List (Fin n × Fin n))
    (hb : ∀ i k, |((Camera.mk (IntrinsicParametersOrthographic.ofParams p) e).worldToPixel
      verts).data i k| ≤ top)
    (hb' : ∀ i k, |((Camera.mk (IntrinsicParametersOrthographic.ofParams { p with cx, cy })
      e').worldToPixel verts).data i k| ≤ top) :
    renderWireframe (realOrder top) verts (indices edges)
        (Camera.mk (IntrinsicParametersOrthographic.ofParams { p with cx, cy }) e') =
      renderWireframe (realOrder top) verts (indices edges)
        (Camera.mk (IntrinsicParametersOrthographic.ofParams p) e) := by
  refine render_shift top verts _ _ edges hb hb'
    (orthographic p.sx p.sy cx cy (e'.worldToCamera (.single 0) |>.data 0) -
      orthographic p.sx p.sy p.cx p.cy (e.worldToCamera (.single 0) |>.data 0)) fun i k => ?_
  rw [ortho_worldToPixel, ortho_worldToPixel, worldToCamera_rot he, worldToCamera_rot he',
    worldToCamera_rot he, worldToCamera_rot he', hr]
  simp only [Points.single, Matrix.mulVec_sub]
  fin_cases k <;> simp [orthographic] <;> ring

/-- Non-vacuity: a triangle seen by an orthographic camera in standard pose. -/
example :
    let cam := Camera.mk (IntrinsicParametersOrthographic.ofParams (⟨100, 102, 321, 240⟩ : OrthographicParams ℝ))
      (fromRotationAndCamcenter ⟨1, 0, 0, 0⟩ 0)
    let verts : Points WorldFrame ℝ 3 := ⟨![![0, 0, 1], ![1, 0, 2], ![0, 1, 3]]⟩
    let edges : List (Fin 3 × Fin 3) := [(0, 1), (1, 2), (2, 0)]
    (∀ i k, |(cam.worldToPixel verts).data i k| ≤ 1000) ∧
    (∃ v ∈ ends edges, ∃ v' ∈ ends edges,
      (cam.worldToPixel verts).data v 0 ≠ (cam.worldToPixel verts).data v' 0) ∧
    ∃ v ∈ ends edges, ∃ v' ∈ ends edges,
      (cam.worldToPixel verts).data v 1 ≠ (cam.worldToPixel verts).data v' 1 := by
  intro cam verts edges
  have hq : UnitQuat (⟨1, 0, 0, 0⟩ : Quat ℝ) := by norm_num [UnitQuat]
  have hd : ∀ i, (cam.worldToPixel verts).data i =
      ![100 * verts.data i 0 + 321, 102 * verts.data i 1 + 240] := by
    intro i
    rw [ortho_worldToPixel, worldToCamera_row hq, rotate_apply]
    simp [orthographic]
  refine ⟨?_, ⟨0, by simp [edges, ends], 1, by simp [edges, ends], ?_⟩,
    ⟨0, by simp [edges, ends], 2, by simp [edges, ends], ?_⟩⟩
  · intro i k
    rw [hd]
    fin_cases i <;> fin_cases k <;> norm_num [verts, abs_le]
  · rw [hd, hd]; norm_num [verts]
  · rw [hd, hd]
    show (102 * (0 : ℝ) + 240) ≠ 102 * 1 + 240
    norm_num

end
end CamGeom
