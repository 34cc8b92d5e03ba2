import Verif.Model.Debug
import Mathlib.Data.List.Basic
import Mathlib.Tactic.FinCases
import Mathlib.Data.Fintype.Basic

/-!
# C86: the `Debug` output shows the parameters and nothing else

Two cameras are printed alike exactly if their parameters are equal, whatever the caches contain, in the one-line
format and in the `{:#?}` format.
-/

namespace CamGeom

/-! ### Texts that can be told apart -/

/-- Characters that follow a value. -/
def isSep (c : Char) : Prop := c = ',' ∨ c = ' ' ∨ c = ']'

/-- If two values followed by separators begin a text, they are equal. -/
def Sep (v w : Text) : Prop := ∀ c d r s, isSep c → isSep d → v ++ c :: r = w ++ d :: s → v = w

theorem Sep.prefix {v w : Text} (h : ∀ r s, v ++ r = w ++ s → v = w) : Sep v w := fun _ _ _ _ _ _ e => h _ _ e

theorem sep_of_not_mem {v w : Text} (hv : ∀ c ∈ v, ¬ isSep c) (hw : ∀ c ∈ w, ¬ isSep c) : Sep v w := by
  intro c d r s hc hd e
  induction v generalizing w with
  | nil =>
    cases w with
    | nil => rfl
    | cons b w =>
      simp only [List.nil_append, List.cons_append, List.cons.injEq] at e
      exact absurd (e.1 ▸ hc) (hw b (by simp))
  | cons a v ih =>
    cases w with
    | nil =>
      simp only [List.nil_append, List.cons_append, List.cons.injEq] at e
      exact absurd (e.1 ▸ hd) (hv a (by simp))
    | cons b w =>
      simp only [List.cons_append, List.cons.injEq] at e
      rw [e.1, ih (fun c h => hv c (by simp [h])) (fun c h => hw c (by simp [h])) e.2]

/-- Padded texts that begin a common text come from texts one of which begins the other. -/
theorem pad_prefix {nl : Bool} {a b r s : Text} (h : padAdapter nl a ++ r = padAdapter nl b ++ s) :
    (∃ t, a = b ++ t) ∨ ∃ t, b = a ++ t := by
  induction a generalizing b nl with
  | nil => exact Or.inr ⟨b, rfl⟩
  | cons c a ih =>
    cases b with
    | nil => exact Or.inl ⟨c :: a, rfl⟩
    | cons d b =>
      simp only [padAdapter, List.append_assoc, List.append_cancel_left_eq, List.cons_append, List.cons.injEq] at h
      obtain ⟨rfl, h⟩ := h
      rcases ih h with ⟨t, e⟩ | ⟨t, e⟩
      · exact Or.inl ⟨t, by rw [e]; rfl⟩
      · exact Or.inr ⟨t, by rw [e]; rfl⟩

theorem pad_sep {v w : Text} (n : Text) (h : Sep v w) {r s : Text}
    (e : padAdapter true (n ++ v ++ ",\n".toList) ++ r = padAdapter true (n ++ w ++ ",\n".toList) ++ s) :
    v = w ∧ r = s := by
  have hv : v = w := by
    rcases pad_prefix e with ⟨t, e⟩ | ⟨t, e⟩
    · simp only [List.append_assoc, List.append_cancel_left_eq] at e
      exact h ',' ',' ['\n'] ('\n' :: t) (Or.inl rfl) (Or.inl rfl) e
    · simp only [List.append_assoc, List.append_cancel_left_eq] at e
      exact h ',' ',' ('\n' :: t) ['\n'] (Or.inl rfl) (Or.inl rfl) e.symm
  rw [hv] at e
  exact ⟨hv, List.append_cancel_left e⟩

/-- Fields with equal names and values that can be told apart. -/
abbrev SepFields : List (String × Text) → List (String × Text) → Prop :=
  List.Forall₂ fun f g => f.1 = g.1 ∧ Sep f.2 g.2

theorem fields_sep {alt : Bool} {fs gs : List (String × Text)} (h : SepFields fs gs) {r s : Text}
    (e : debugFields alt true fs ++ ((if alt then "}".toList else " }".toList) ++ r) =
      debugFields alt true gs ++ ((if alt then "}".toList else " }".toList) ++ s)) : fs = gs ∧ r = s := by
  induction h with
  | nil => exact ⟨rfl, List.append_cancel_left (List.append_cancel_left e)⟩
  | @cons f g fs gs hfg hrest ih =>
    obtain ⟨n, v⟩ := f
    obtain ⟨n', w⟩ := g
    obtain ⟨hn, hs⟩ := hfg
    simp only at hn hs
    subst hn
    have next : ∀ (l : List (String × Text)) (t : Text), ∃ c u, isSep c ∧
        debugFields false true l ++ (" }".toList ++ t) = c :: u := by
      intro l t
      cases l with
      | nil => exact ⟨' ', _, Or.inr (Or.inl rfl), rfl⟩
      | cons a l => exact ⟨',', _, Or.inl rfl, rfl⟩
    cases alt with
    | true =>
      simp only [debugFields, if_true, List.nil_append, List.append_assoc] at e
      rw [← List.append_assoc n.toList, ← List.append_assoc _ v, ← List.append_assoc n.toList,
        ← List.append_assoc _ w] at e
      obtain ⟨rfl, e'⟩ := pad_sep _ hs e
      obtain ⟨rfl, rfl⟩ := ih (by simpa using e')
      exact ⟨rfl, rfl⟩
    | false =>
      simp only [debugFields, if_true, List.append_assoc, Bool.false_eq_true, if_false,
        List.append_cancel_left_eq] at e
      obtain ⟨c, u, hc, eu⟩ := next fs r
      obtain ⟨d, u', hd, eu'⟩ := next gs s
      have hvw : v = w := by
        rw [eu, eu'] at e
        exact hs c d u u' hc hd e
      subst hvw
      obtain ⟨rfl, rfl⟩ := ih (by simpa using List.append_cancel_left e)
      exact ⟨rfl, rfl⟩

/-- The output of a struct determines its fields and where it ends. -/
theorem struct_sep {alt : Bool} {n : String} {fs gs : List (String × Text)} {r s : Text}
    (e : debugStruct alt n fs ++ r = debugStruct alt n gs ++ s) (h : SepFields fs gs) : fs = gs ∧ r = s := by
  cases h with
  | nil => exact ⟨rfl, List.append_cancel_left e⟩
  | @cons f g fs gs hfg hrest =>
    have key : ∀ (f : String × Text) (l : List (String × Text)) (t : Text), debugStruct alt n (f :: l) ++ t =
        n.toList ++ ((if alt then " {\n".toList else " {".toList) ++ (if alt then [] else " ".toList)) ++
          (debugFields alt true (f :: l) |>.drop (if alt then 0 else 2)) ++
          ((if alt then "}".toList else " }".toList) ++ t) := by
      intro f l t
      cases alt <;> simp [debugStruct, debugFields]
    rw [key, key] at e
    simp only [List.append_assoc, List.append_cancel_left_eq] at e
    refine fields_sep (alt := alt) (.cons hfg hrest) ?_
    cases alt with
    | true => simpa using e
    | false =>
      have := congrArg (',' :: ' ' :: ·) e
      simpa [debugFields] using this

theorem entries_sep {alt : Bool} {vs ws : List Text} (h : List.Forall₂ Sep vs ws) {r s : Text}
    (e : debugEntries alt true vs ++ ("]".toList ++ r) = debugEntries alt true ws ++ ("]".toList ++ s)) :
    vs = ws ∧ r = s := by
  induction h with
  | nil => exact ⟨rfl, List.append_cancel_left (List.append_cancel_left e)⟩
  | @cons v w vs ws hs hrest ih =>
    have next : ∀ (l : List Text) (t : Text), ∃ c u, isSep c ∧
        debugEntries false true l ++ ("]".toList ++ t) = c :: u := by
      intro l t
      cases l with
      | nil => exact ⟨']', _, Or.inr (Or.inr rfl), rfl⟩
      | cons a l => exact ⟨',', _, Or.inl rfl, rfl⟩
    cases alt with
    | true =>
      simp only [debugEntries, if_true, List.nil_append, List.append_assoc] at e
      obtain ⟨rfl, e'⟩ := pad_sep [] hs (by simpa using e)
      obtain ⟨rfl, rfl⟩ := ih (by simpa using e')
      exact ⟨rfl, rfl⟩
    | false =>
      simp only [debugEntries, if_true, List.append_assoc, Bool.false_eq_true, if_false,
        List.append_cancel_left_eq] at e
      obtain ⟨c, u, hc, eu⟩ := next vs r
      obtain ⟨d, u', hd, eu'⟩ := next ws s
      have hvw : v = w := by
        rw [eu, eu'] at e
        exact hs c d u u' hc hd e
      subst hvw
      obtain ⟨rfl, rfl⟩ := ih (List.append_cancel_left e)
      exact ⟨rfl, rfl⟩

theorem list_sep {alt : Bool} {vs ws : List Text} {r s : Text}
    (e : debugList alt vs ++ r = debugList alt ws ++ s) (h : List.Forall₂ Sep vs ws) : vs = ws ∧ r = s := by
  cases h with
  | nil => exact ⟨rfl, List.append_cancel_left e⟩
  | @cons v w vs ws hs hrest =>
    refine entries_sep (alt := alt) (.cons hs hrest) ?_
    cases alt with
    | true =>
      simp only [debugList, debugEntries, if_true, Bool.false_eq_true, if_false, List.append_assoc,
        List.append_cancel_left_eq, List.nil_append] at e ⊢
      exact e
    | false =>
      simp only [debugList, debugEntries, if_true, Bool.false_eq_true, if_false, List.append_assoc,
        List.append_cancel_left_eq, List.nil_append] at e ⊢
      exact e

/-! ### The claims -/

variable {R : Type}

/-- Numbers are written differently if they differ, and without commas, spaces and brackets. -/
structure Formatter.Readable (f : Formatter R) : Prop where
  injective : ∀ x y, f.num x = f.num y → x = y
  chars : ∀ x, ∀ c ∈ f.num x, c ≠ ',' ∧ c ≠ ' ' ∧ c ≠ ']'

theorem Formatter.Readable.sep {f : Formatter R} (h : f.Readable) (x y : R) : Sep (f.num x) (f.num y) :=
  sep_of_not_mem (fun c hc hs => by
    obtain ⟨h1, h2, h3⟩ := h.chars x c hc
    rcases hs with h | h | h <;> contradiction) (fun c hc hs => by
    obtain ⟨h1, h2, h3⟩ := h.chars y c hc
    rcases hs with h | h | h <;> contradiction)

theorem perspective_debug_sep {f : Formatter R} (h : f.Readable) {a b : IntrinsicParametersPerspective R} {r s : Text}
    (e : a.debug f ++ r = b.debug f ++ s) : a.params = b.params ∧ r = s := by
  have hp : ∀ (p q : PerspectiveParams R) (r s : Text), p.debug f ++ r = q.debug f ++ s → p = q ∧ r = s := by
    intro p q r s e
    have hs := h.sep
    rw [PerspectiveParams.debug, PerspectiveParams.debug] at e
    obtain ⟨e1, e2⟩ := struct_sep e (.cons ⟨rfl, hs _ _⟩ (.cons ⟨rfl, hs _ _⟩ (.cons ⟨rfl, hs _ _⟩ (.cons ⟨rfl, hs _ _⟩
      (.cons ⟨rfl, hs _ _⟩ .nil)))))
    simp only [List.cons.injEq, Prod.mk.injEq, true_and, and_true] at e1
    obtain ⟨h1, h2, h3, h4, h5⟩ := e1
    exact ⟨PerspectiveParams.ext (h.injective _ _ h1) (h.injective _ _ h2) (h.injective _ _ h3) (h.injective _ _ h4)
      (h.injective _ _ h5), e2⟩
  rw [IntrinsicParametersPerspective.debug, IntrinsicParametersPerspective.debug] at e
  obtain ⟨e1, e2⟩ := struct_sep e (.cons ⟨rfl, Sep.prefix fun r s e => by
    rw [(hp _ _ _ _ e).1]⟩ .nil)
  simp only [List.cons.injEq, Prod.mk.injEq, true_and, and_true] at e1
  exact ⟨(hp _ _ [] [] (by rw [e1])).1, e2⟩

theorem orthographic_debug_sep {f : Formatter R} (h : f.Readable) {a b : IntrinsicParametersOrthographic R} {r s : Text}
    (e : a.debug f ++ r = b.debug f ++ s) : a.params = b.params ∧ r = s := by
  have hp : ∀ (p q : OrthographicParams R) (r s : Text), p.debug f ++ r = q.debug f ++ s → p = q ∧ r = s := by
    intro p q r s e
    have hs := h.sep
    rw [OrthographicParams.debug, OrthographicParams.debug] at e
    obtain ⟨e1, e2⟩ := struct_sep e (.cons ⟨rfl, hs _ _⟩ (.cons ⟨rfl, hs _ _⟩ (.cons ⟨rfl, hs _ _⟩ (.cons ⟨rfl, hs _ _⟩
      .nil))))
    simp only [List.cons.injEq, Prod.mk.injEq, true_and, and_true] at e1
    obtain ⟨h1, h2, h3, h4⟩ := e1
    exact ⟨OrthographicParams.ext (h.injective _ _ h1) (h.injective _ _ h2) (h.injective _ _ h3) (h.injective _ _ h4), e2⟩
  rw [IntrinsicParametersOrthographic.debug, IntrinsicParametersOrthographic.debug] at e
  obtain ⟨e1, e2⟩ := struct_sep e (.cons ⟨rfl, Sep.prefix fun r s e => by
    rw [(hp _ _ _ _ e).1]⟩ .nil)
  simp only [List.cons.injEq, Prod.mk.injEq, true_and, and_true] at e1
  exact ⟨(hp _ _ [] [] (by rw [e1])).1, e2⟩

theorem extrinsics_debug_sep {f : Formatter R} (h : f.Readable) {a b : ExtrinsicParameters R} {r s : Text}
    (e : a.debug f ++ r = b.debug f ++ s) : a.rquat = b.rquat ∧ a.camcenter = b.camcenter ∧ r = s := by
  have hs := h.sep
  have hq : ∀ (p q : Quat R) (r s : Text), p.debug f ++ r = q.debug f ++ s → p = q ∧ r = s := by
    intro p q r s e
    rw [Quat.debug, Quat.debug] at e
    obtain ⟨e1, e2⟩ := list_sep e (.cons (hs _ _) (.cons (hs _ _) (.cons (hs _ _) (.cons (hs _ _) .nil))))
    simp only [List.cons.injEq, and_true] at e1
    obtain ⟨h1, h2, h3, h4⟩ := e1
    exact ⟨Quat.ext (h.injective _ _ h4) (h.injective _ _ h1) (h.injective _ _ h2) (h.injective _ _ h3), e2⟩
  have hv : ∀ (p q : V3 R) (r s : Text), V3.debug f p ++ r = V3.debug f q ++ s → p = q ∧ r = s := by
    intro p q r s e
    rw [V3.debug, V3.debug] at e
    obtain ⟨e1, e2⟩ := list_sep e (.cons (hs _ _) (.cons (hs _ _) (.cons (hs _ _) .nil)))
    simp only [List.cons.injEq, and_true] at e1
    obtain ⟨h1, h2, h3⟩ := e1
    refine ⟨funext fun a => ?_, e2⟩
    fin_cases a
    · exact h.injective _ _ h1
    · exact h.injective _ _ h2
    · exact h.injective _ _ h3
  rw [ExtrinsicParameters.debug, ExtrinsicParameters.debug] at e
  obtain ⟨e1, e2⟩ := struct_sep e (.cons ⟨rfl, Sep.prefix fun r s e => by rw [(hq _ _ _ _ e).1]⟩
    (.cons ⟨rfl, Sep.prefix fun r s e => by rw [(hv _ _ _ _ e).1]⟩ .nil))
  simp only [List.cons.injEq, Prod.mk.injEq, true_and, and_true] at e1
  exact ⟨(hq _ _ [] [] (by rw [e1.1])).1, (hv _ _ [] [] (by rw [e1.2])).1, e2⟩

/-- The one-line output of a perspective camera. -/
theorem c86_perspective_text (num : R → Text) (c : Camera R (IntrinsicParametersPerspective R)) :
    c.debug (IntrinsicParametersPerspective.debug ⟨false, num⟩) ⟨false, num⟩ =
      "Camera { intrinsics: IntrinsicParametersPerspective { params: PerspectiveParams { fx: ".toList ++
        num c.intrinsics.params.fx ++ ", fy: ".toList ++ num c.intrinsics.params.fy ++ ", skew: ".toList ++
        num c.intrinsics.params.skew ++ ", cx: ".toList ++ num c.intrinsics.params.cx ++ ", cy: ".toList ++
        num c.intrinsics.params.cy ++ " } }, extrinsics: ExtrinsicParameters { rquat: [".toList ++
        num c.extrinsics.rquat.i ++ ", ".toList ++ num c.extrinsics.rquat.j ++ ", ".toList ++
        num c.extrinsics.rquat.k ++ ", ".toList ++ num c.extrinsics.rquat.w ++ "], camcenter: [".toList ++
        num (c.extrinsics.camcenter 0) ++ ", ".toList ++ num (c.extrinsics.camcenter 1) ++ ", ".toList ++
        num (c.extrinsics.camcenter 2) ++ "] } }".toList := by
  have lit : ∀ (a b : String) (t : Text), a.toList ++ (b.toList ++ t) = (a ++ b).toList ++ t := fun a b t => by
    rw [String.toList_append, List.append_assoc]
  have lit' : ∀ (a b : String), a.toList ++ b.toList = (a ++ b).toList := fun a b => by rw [String.toList_append]
  rw [Camera.debug]
  simp only [IntrinsicParametersPerspective.debug, PerspectiveParams.debug, ExtrinsicParameters.debug,
    Quat.debug, V3.debug, debugStruct, debugFields, debugList, debugEntries, Bool.false_eq_true, if_false, if_true,
    List.isEmpty_cons, List.append_assoc, List.append_nil, List.nil_append, lit, lit']
  rfl

/-! ### The format with `#` -/

/-- A text without line breaks is copied. -/
theorem pad_line {v : Text} (h : '\n' ∉ v) (s : Text) : padAdapter false (v ++ s) = v ++ padAdapter false s := by
  induction v with
  | nil => rfl
  | cons c v ih =>
    have hc : (c == '\n') = false := by
      rw [beq_eq_false_iff_ne]
      rintro rfl
      exact h (by simp)
    simp only [List.cons_append, padAdapter, hc, Bool.false_eq_true, if_false, List.nil_append]
    rw [ih fun hv => h (by simp [hv])]

/-- A text without line breaks at the beginning of a line. -/
theorem pad_start {v : Text} (h : '\n' ∉ v) (s : Text) :
    padAdapter true (v ++ ',' :: s) = "    ".toList ++ (v ++ ',' :: padAdapter false s) := by
  have h1 : ∀ (c : Char) (t : Text), padAdapter true (c :: t) = "    ".toList ++ padAdapter false (c :: t) := by
    intro c t
    simp [padAdapter]
  have h2 : padAdapter true (v ++ ',' :: s) = "    ".toList ++ padAdapter false (v ++ ',' :: s) := by
    cases v <;> exact h1 _ _
  rw [h2, pad_line h]
  rfl

set_option maxRecDepth 100000 in
set_option maxHeartbeats 4000000 in
/-- The output of a perspective camera with the flag `#`: one field per line, indented by its depth.  Numbers are
written without line breaks. -/
theorem c86_perspective_alternate (num : R → Text) (hn : ∀ x, '\n' ∉ num x)
    (c : Camera R (IntrinsicParametersPerspective R)) :
    c.debug (IntrinsicParametersPerspective.debug ⟨true, num⟩) ⟨true, num⟩ =
      "Camera {\n    intrinsics: IntrinsicParametersPerspective {\n".toList ++
        "        params: PerspectiveParams {\n            fx: ".toList ++
        num c.intrinsics.params.fx ++ ",\n            fy: ".toList ++ num c.intrinsics.params.fy ++
        ",\n            skew: ".toList ++ num c.intrinsics.params.skew ++ ",\n            cx: ".toList ++
        num c.intrinsics.params.cx ++ ",\n            cy: ".toList ++ num c.intrinsics.params.cy ++
        ",\n        },\n    },\n    extrinsics: ExtrinsicParameters {\n        rquat: [\n            ".toList ++
        num c.extrinsics.rquat.i ++ ",\n            ".toList ++ num c.extrinsics.rquat.j ++
        ",\n            ".toList ++ num c.extrinsics.rquat.k ++ ",\n            ".toList ++
        num c.extrinsics.rquat.w ++ ",\n        ],\n        camcenter: [\n            ".toList ++
        num (c.extrinsics.camcenter 0) ++ ",\n            ".toList ++ num (c.extrinsics.camcenter 1) ++
        ",\n            ".toList ++ num (c.extrinsics.camcenter 2) ++ ",\n        ],\n    },\n}".toList := by
  rw [Camera.debug]
  simp [IntrinsicParametersPerspective.debug, PerspectiveParams.debug, ExtrinsicParameters.debug,
    Quat.debug, V3.debug, debugStruct, debugFields, debugList, debugEntries, padAdapter, pad_line, pad_start, hn]

set_option maxRecDepth 100000 in
set_option maxHeartbeats 4000000 in
/-- The output of an orthographic camera with the flag `#`. -/
theorem c86_orthographic_alternate (num : R → Text) (hn : ∀ x, '\n' ∉ num x)
    (c : Camera R (IntrinsicParametersOrthographic R)) :
    c.debug (IntrinsicParametersOrthographic.debug ⟨true, num⟩) ⟨true, num⟩ =
      "Camera {\n    intrinsics: IntrinsicParametersOrthographic {\n".toList ++
        "        params: OrthographicParams {\n            sx: ".toList ++
        num c.intrinsics.params.sx ++ ",\n            sy: ".toList ++ num c.intrinsics.params.sy ++
        ",\n            cx: ".toList ++ num c.intrinsics.params.cx ++ ",\n            cy: ".toList ++
        num c.intrinsics.params.cy ++
        ",\n        },\n    },\n    extrinsics: ExtrinsicParameters {\n        rquat: [\n            ".toList ++
        num c.extrinsics.rquat.i ++ ",\n            ".toList ++ num c.extrinsics.rquat.j ++
        ",\n            ".toList ++ num c.extrinsics.rquat.k ++ ",\n            ".toList ++
        num c.extrinsics.rquat.w ++ ",\n        ],\n        camcenter: [\n            ".toList ++
        num (c.extrinsics.camcenter 0) ++ ",\n            ".toList ++ num (c.extrinsics.camcenter 1) ++
        ",\n            ".toList ++ num (c.extrinsics.camcenter 2) ++ ",\n        ],\n    },\n}".toList := by
  rw [Camera.debug]
  simp [IntrinsicParametersOrthographic.debug, OrthographicParams.debug, ExtrinsicParameters.debug,
    Quat.debug, V3.debug, debugStruct, debugFields, debugList, debugEntries, padAdapter, pad_line, pad_start, hn]

/-- Non-vacuity: booleans written as `0` and `1` have no line breaks. -/
example : ∀ b : Bool, '\n' ∉ (if b then ['1'] else ['0']) := by decide

/-- C86 for perspective cameras: the output of one camera equals that of another exactly if all parameters are
equal; in particular it does not depend on the caches.  Both formats. -/
theorem c86_perspective {f : Formatter R} (h : f.Readable) (a b : Camera R (IntrinsicParametersPerspective R)) :
    a.debug (IntrinsicParametersPerspective.debug f) f = b.debug (IntrinsicParametersPerspective.debug f) f ↔
      a.intrinsics.params = b.intrinsics.params ∧ a.extrinsics.rquat = b.extrinsics.rquat ∧
        a.extrinsics.camcenter = b.extrinsics.camcenter := by
  constructor
  · intro e
    rw [Camera.debug, Camera.debug] at e
    obtain ⟨e1, -⟩ := struct_sep (congrArg (· ++ []) e)
      (.cons ⟨rfl, Sep.prefix fun r s e => by
        have := (perspective_debug_sep h (a := a.intrinsics) (b := b.intrinsics) e).1
        simp only [IntrinsicParametersPerspective.debug, this]⟩
      (.cons ⟨rfl, Sep.prefix fun r s e => by
        obtain ⟨h1, h2, -⟩ := extrinsics_debug_sep h (a := a.extrinsics) (b := b.extrinsics) e
        simp only [ExtrinsicParameters.debug, h1, h2]⟩ .nil))
    simp only [List.cons.injEq, Prod.mk.injEq, true_and, and_true] at e1
    have p1 := perspective_debug_sep h (a := a.intrinsics) (b := b.intrinsics) (r := []) (s := []) (by rw [e1.1])
    have p2 := extrinsics_debug_sep h (a := a.extrinsics) (b := b.extrinsics) (r := []) (s := []) (by rw [e1.2])
    exact ⟨p1.1, p2.1, p2.2.1⟩
  · rintro ⟨h1, h2, h3⟩
    rw [Camera.debug, Camera.debug]
    simp only [IntrinsicParametersPerspective.debug, ExtrinsicParameters.debug, h1, h2, h3]

/-- C86 for orthographic cameras. -/
theorem c86_orthographic {f : Formatter R} (h : f.Readable) (a b : Camera R (IntrinsicParametersOrthographic R)) :
    a.debug (IntrinsicParametersOrthographic.debug f) f = b.debug (IntrinsicParametersOrthographic.debug f) f ↔
      a.intrinsics = b.intrinsics ∧ a.extrinsics.rquat = b.extrinsics.rquat ∧
        a.extrinsics.camcenter = b.extrinsics.camcenter := by
  constructor
  · intro e
    rw [Camera.debug, Camera.debug] at e
    obtain ⟨e1, -⟩ := struct_sep (congrArg (· ++ []) e)
      (.cons ⟨rfl, Sep.prefix fun r s e => by
        have := (orthographic_debug_sep h (a := a.intrinsics) (b := b.intrinsics) e).1
        simp only [IntrinsicParametersOrthographic.debug, this]⟩
      (.cons ⟨rfl, Sep.prefix fun r s e => by
        obtain ⟨h1, h2, -⟩ := extrinsics_debug_sep h (a := a.extrinsics) (b := b.extrinsics) e
        simp only [ExtrinsicParameters.debug, h1, h2]⟩ .nil))
    simp only [List.cons.injEq, Prod.mk.injEq, true_and, and_true] at e1
    have p1 := orthographic_debug_sep h (a := a.intrinsics) (b := b.intrinsics) (r := []) (s := []) (by rw [e1.1])
    have p2 := extrinsics_debug_sep h (a := a.extrinsics) (b := b.extrinsics) (r := []) (s := []) (by rw [e1.2])
    exact ⟨IntrinsicParametersOrthographic.ext p1.1, p2.1, p2.2.1⟩
  · rintro ⟨h1, h2, h3⟩
    rw [Camera.debug, Camera.debug]
    simp only [ExtrinsicParameters.debug, h1, h2, h3]

/-- Cameras built by the constructors are printed alike only if they are the same camera. -/
theorem c86_identifies [Scalar R] {f : Formatter R} (h : f.Readable) (p p' : PerspectiveParams R) (q q' : Quat R)
    (c c' : V3 R) (a b : Camera R (IntrinsicParametersPerspective R))
    (ha : a = ⟨.ofParams p, .fromRotationAndCamcenter q c⟩) (hb : b = ⟨.ofParams p', .fromRotationAndCamcenter q' c'⟩)
    (e : a.debug (IntrinsicParametersPerspective.debug f) f = b.debug (IntrinsicParametersPerspective.debug f) f) :
    a = b := by
  obtain ⟨h1, h2, h3⟩ := (c86_perspective h a b).1 e
  subst ha hb
  have e1 : p = p' := h1
  have e2 : q = q' := h2
  have e3 : c = c' := h3
  rw [e1, e2, e3]

/-- `Display` of an error is its `Debug` output, and the four errors have four different texts. -/
theorem c86_error (a b : Error) : a.display = a.debug ∧ (a.display = b.display ↔ a = b) := by
  refine ⟨rfl, ?_⟩
  cases a <;> cases b <;> simp [Error.display, Error.debug]

/-- Non-vacuity: booleans written as `0` and `1`. -/
example : (⟨true, fun b : Bool => if b then ['1'] else ['0']⟩ : Formatter Bool).Readable :=
  ⟨fun x y h => by revert h; cases x <;> cases y <;> simp, fun x c hc => by revert hc; cases x <;> simp <;> rintro rfl <;> decide⟩

set_option maxRecDepth 10000 in
/-- The format with `#`, for one orthographic camera. -/
example : String.ofList ((IntrinsicParametersOrthographic.ofParams ⟨false, true, false, true⟩).debug
    ⟨true, fun b : Bool => if b then ['1'] else ['0']⟩) =
    "IntrinsicParametersOrthographic {\n    params: OrthographicParams {\n        sx: 0,\n        sy: 1,\n        cx: 0,\n        cy: 1,\n    },\n}" := by
  rfl

end CamGeom
