import Verif.Lemmas.Serde
import Verif.Lemmas.QuatDefect
import Verif.Props.PerspectiveMatrix

/-!
# C39–C42: serialization and caches

C39–C41 use no arithmetic law: `R` is any scalar type, `S` any type of serialized scalars.
-/

namespace CamGeom
open ExtrinsicParameters

section generic
variable {R S : Type} [SerScalar R S] [Scalar R]

/-! ### C41: caches -/

/-- Every way the API offers to obtain extrinsic parameters. -/
inductive Obtainable (S : Type) [SerScalar R S] : ExtrinsicParameters R → Prop
  | fromRotationAndCamcenter (q : Quat R) (c : V3 R) :
      Obtainable S (fromRotationAndCamcenter q c)
  | fromPose (p : Isometry R) : Obtainable S (fromPose p)
  | fromView (na : Linalg R) (camcenter lookat up : V3 R) :
      Obtainable S (fromView na camcenter lookat up)
  | fromPerspectiveMatrix (na : Linalg R) (pmat : Mat 3 4 R)
      (cam : Camera R (IntrinsicParametersPerspective R)) :
      Camera.fromPerspectiveMatrix na pmat = .ok cam → Obtainable S cam.extrinsics
  | deserialized (v : SVal S) (e : ExtrinsicParameters R) :
      deExtrinsics v = .ok e → Obtainable S e
  | deserializedCamera (I : Type) (deI : SVal S → Except DErr I) (v : SVal S) (cam : Camera R I) :
      deCamera deI v = .ok cam → Obtainable S cam.extrinsics

/-- Every way the API offers to obtain perspective intrinsics. -/
inductive ObtainableI (S : Type) [SerScalar R S] : IntrinsicParametersPerspective R → Prop
  | ofParams (p : PerspectiveParams R) : ObtainableI S (.ofParams p)
  | fromNormalized (eps : R) (m : Mat 3 4 R) (c : IntrinsicParametersPerspective R) :
      IntrinsicParametersPerspective.fromNormalized3x4Matrix eps m = .ok c → ObtainableI S c
  | fromPerspectiveMatrix (na : Linalg R) (pmat : Mat 3 4 R)
      (cam : Camera R (IntrinsicParametersPerspective R)) :
      Camera.fromPerspectiveMatrix na pmat = .ok cam → ObtainableI S cam.intrinsics
  | deserialized (v : SVal S) (c : IntrinsicParametersPerspective R) :
      dePerspective v = .ok c → ObtainableI S c
  | deserializedCamera (v : SVal S) (cam : Camera R (IntrinsicParametersPerspective R)) :
      deCamera dePerspective v = .ok cam → ObtainableI S cam.intrinsics

theorem bind_ok {ε α β : Type} {x : Except ε α} {f : α → Except ε β} {b : β} :
    (x >>= f) = .ok b ↔ ∃ a, x = .ok a ∧ f a = .ok b := by
  cases x with
  | error e =>
    constructor
    · intro h; cases h
    · rintro ⟨a, h, -⟩; cases h
  | ok a =>
    constructor
    · intro h; exact ⟨a, rfl, h⟩
    · rintro ⟨a', h, h'⟩; cases h; exact h'

theorem pure_ok {ε α : Type} {a b : α} : (pure a : Except ε α) = .ok b ↔ a = b := by
  constructor
  · intro h; exact Except.ok.inj h
  · rintro rfl; rfl

theorem throw_ok {ε α : Type} {e : ε} {b : α} : (throw e : Except ε α) = .ok b ↔ False := by
  constructor
  · intro h; cases h
  · exact False.elim

theorem guard_ok {ε α : Type} {c : Prop} [Decidable c] {e : ε} {x : Except ε α} {b : α} :
    (if c then (throw e >>= fun _ : PUnit => x) else x) = .ok b ↔ ¬ c ∧ x = .ok b := by
  by_cases h : c
  · simp only [h, if_true, bind_ok, throw_ok, not_true, false_and, exists_false]
  · simp [h]

/-! ### The visitors -/

omit [Scalar R] in
theorem extVisitEntry_ok {a : Option (Quat R)} {b : Option (V3 R)} {k : String} {v : SVal S}
    {st : ExtState R} :
    extVisitEntry ((a, b) : ExtState R) (k, v) = .ok st ↔
      (k = "rquat" ∧ a = none ∧ ∃ q, deQuat v = .ok q ∧ st = (some q, b)) ∨
      (k = "camcenter" ∧ b = none ∧ ∃ c, deVec3 v = .ok c ∧ st = (a, some c)) := by
  unfold extVisitEntry
  by_cases h1 : k = "rquat"
  · subst h1
    cases a with
    | some q => simp
    | none =>
      simp only [if_true, Option.isSome_none, Bool.false_eq_true, if_false, bind_ok, pure_ok]
      simp [eq_comm]
  · by_cases h2 : k = "camcenter"
    · subst h2
      cases b with
      | some c => simp
      | none =>
        simp only [h1, if_true, Option.isSome_none, Bool.false_eq_true, if_false, bind_ok, pure_ok]
        simp [eq_comm]
    · simp [h1, h2]

theorem ext_fold_full {q : Quat R} {c : V3 R} {l : List (String × SVal S)} {st : ExtState R} :
    l.foldlM extVisitEntry ((some q, some c) : ExtState R) = .ok st ↔
      l = [] ∧ st = (some q, some c) := by
  cases l with
  | nil =>
    simp only [List.foldlM_nil, pure_ok, true_and]
    exact eq_comm
  | cons kv l =>
    obtain ⟨k, v⟩ := kv
    simp [List.foldlM_cons, bind_ok, extVisitEntry_ok]

theorem ext_fold_rquat {q q' : Quat R} {c : V3 R} {l : List (String × SVal S)} :
    l.foldlM extVisitEntry ((some q, none) : ExtState R) = .ok (some q', some c) ↔
      ∃ w, l = [("camcenter", w)] ∧ q' = q ∧ deVec3 w = .ok c := by
  cases l with
  | nil => simp [List.foldlM_nil, pure_ok]
  | cons kv l =>
    obtain ⟨k, v⟩ := kv
    simp only [List.foldlM_cons, bind_ok, extVisitEntry_ok]
    constructor
    · rintro ⟨st', ⟨rfl, h, -⟩ | ⟨rfl, -, c', hc, rfl⟩, h2⟩
      · cases h
      · obtain ⟨rfl, h2⟩ := ext_fold_full.1 h2
        cases h2
        exact ⟨v, rfl, rfl, hc⟩
    · rintro ⟨w, h, rfl, hw⟩
      cases h
      exact ⟨(some q', some c), .inr ⟨rfl, trivial, c, hw, rfl⟩, ext_fold_full.2 ⟨rfl, rfl⟩⟩

theorem ext_fold_camcenter {q : Quat R} {c c' : V3 R} {l : List (String × SVal S)} :
    l.foldlM extVisitEntry ((none, some c) : ExtState R) = .ok (some q, some c') ↔
      ∃ v, l = [("rquat", v)] ∧ c' = c ∧ deQuat v = .ok q := by
  cases l with
  | nil => simp [List.foldlM_nil, pure_ok]
  | cons kv l =>
    obtain ⟨k, v⟩ := kv
    simp only [List.foldlM_cons, bind_ok, extVisitEntry_ok]
    constructor
    · rintro ⟨st', ⟨rfl, -, q', hq, rfl⟩ | ⟨rfl, h, -⟩, h2⟩
      · obtain ⟨rfl, h2⟩ := ext_fold_full.1 h2
        cases h2
        exact ⟨v, rfl, rfl, hq⟩
      · cases h
    · rintro ⟨w, h, rfl, hw⟩
      cases h
      exact ⟨(some q, some c'), .inl ⟨rfl, trivial, q, hw, rfl⟩, ext_fold_full.2 ⟨rfl, rfl⟩⟩

theorem perm_pair {α : Type} {a b : α} {l : List α} :
    l.Perm [a, b] ↔ l = [a, b] ∨ l = [b, a] := by
  constructor
  · intro h
    have hl := h.length_eq
    match l, hl with
    | [x, y], _ =>
      have hx : x ∈ [a, b] := h.mem_iff.1 (by simp)
      simp only [List.mem_cons, List.not_mem_nil, or_false] at hx
      rcases hx with rfl | rfl
      · have := (List.perm_cons x).1 h
        rw [List.perm_singleton] at this
        left; rw [this]
      · have := (List.perm_cons x).1 (h.trans (List.Perm.swap x a []))
        rw [List.perm_singleton] at this
        right; rw [this]
  · rintro (rfl | rfl)
    · exact List.Perm.refl _
    · exact List.Perm.swap _ _ _

theorem ext_fold {q : Quat R} {c : V3 R} {l : List (String × SVal S)} :
    l.foldlM extVisitEntry ((none, none) : ExtState R) = .ok (some q, some c) ↔
      ∃ v w, l.Perm [("rquat", v), ("camcenter", w)] ∧ deQuat v = .ok q ∧ deVec3 w = .ok c := by
  cases l with
  | nil =>
    simp only [List.foldlM_nil, pure_ok]
    constructor
    · intro h; cases h
    · rintro ⟨v, w, h, -⟩; have := h.length_eq; simp at this
  | cons kv l =>
    obtain ⟨k, v⟩ := kv
    simp only [List.foldlM_cons, bind_ok, extVisitEntry_ok]
    constructor
    · rintro ⟨st', ⟨rfl, -, q', hq, rfl⟩ | ⟨rfl, -, c', hc, rfl⟩, h2⟩
      · obtain ⟨w, rfl, rfl, hw⟩ := ext_fold_rquat.1 h2
        exact ⟨v, w, .refl _, hq, hw⟩
      · obtain ⟨w, rfl, rfl, hw⟩ := ext_fold_camcenter.1 h2
        exact ⟨w, v, .swap _ _ _, hw, hc⟩
    · rintro ⟨v', w, h, hv, hw⟩
      rcases perm_pair.1 h with h | h <;> cases h
      · exact ⟨(some q, none), .inl ⟨rfl, trivial, q, hv, rfl⟩, ext_fold_rquat.2 ⟨w, rfl, rfl, hw⟩⟩
      · exact ⟨(none, some c), .inr ⟨rfl, trivial, c, hw, rfl⟩,
          ext_fold_camcenter.2 ⟨v', rfl, rfl, hv⟩⟩

/-- C40, extrinsics from a map: accepted iff the entries are, in some order, exactly one `rquat` and
one `camcenter` whose values parse; the result is built from the parsed values. -/
theorem c40_extrinsics_map (l : List (String × SVal S)) (e : ExtrinsicParameters R) :
    deExtrinsics (.map l) = .ok e ↔
      ∃ v w q c, l.Perm [("rquat", v), ("camcenter", w)] ∧ deQuat v = .ok q ∧ deVec3 w = .ok c ∧
        e = fromRotationAndCamcenter q c := by
  simp only [deExtrinsics, extVisitMap, bind_ok]
  constructor
  · rintro ⟨⟨a, b⟩, h, h3⟩
    match a, b, h, h3 with
    | none, none, _, h3 => cases h3
    | none, some _, _, h3 => cases h3
    | some _, none, _, h3 => cases h3
    | some q', some c', h, h3 =>
      obtain ⟨v, w, hp, hv, hw⟩ := ext_fold.1 h
      exact ⟨v, w, q', c', hp, hv, hw, (Except.ok.inj h3).symm⟩
  · rintro ⟨v, w, q, c, hp, hv, hw, rfl⟩
    exact ⟨_, ext_fold.2 ⟨v, w, hp, hv, hw⟩, rfl⟩

/-- C40, extrinsics from a sequence: exactly two elements. -/
theorem c40_extrinsics_seq (l : List (SVal S)) (e : ExtrinsicParameters R) :
    deExtrinsics (.seq l) = .ok e ↔
      ∃ v w q c, l = [v, w] ∧ deQuat v = .ok q ∧ deVec3 w = .ok c ∧
        e = fromRotationAndCamcenter q c := by
  simp only [deExtrinsics]
  match l with
  | [] => simp [extVisitSeq]
  | [v] =>
    simp only [extVisitSeq, bind_ok]
    simp
  | [v, w] =>
    simp only [extVisitSeq, bind_ok, List.isEmpty_nil, if_true, pure_ok]
    constructor
    · rintro ⟨q, hq, c, hc, rfl⟩; exact ⟨v, w, q, c, rfl, hq, hc, rfl⟩
    · rintro ⟨v', w', q, c, h, hq, hc, rfl⟩; cases h; exact ⟨q, hq, c, hc, rfl⟩
  | v :: w :: x :: rest =>
    simp only [extVisitSeq, bind_ok, List.isEmpty_cons]
    constructor
    · rintro ⟨q, hq, c, hc, h⟩; simp at h
    · rintro ⟨v', w', q, c, h, -⟩; simp at h

omit [Scalar R] in
theorem perspVisitEntry_ok {a : Option (PerspectiveParams R)} {k : String} {v : SVal S}
    {st : Option (PerspectiveParams R)} :
    perspVisitEntry a (k, v) = .ok st ↔
      k = "params" ∧ a = none ∧ ∃ p, dePerspectiveParams v = .ok p ∧ st = some p := by
  unfold perspVisitEntry
  by_cases h1 : k = "params"
  · subst h1
    cases a with
    | some q => simp
    | none =>
      simp only [if_true, Option.isSome_none, Bool.false_eq_true, if_false, bind_ok, pure_ok]
      simp [eq_comm]
  · simp [h1]

omit [Scalar R] in
theorem persp_fold {p : PerspectiveParams R} {l : List (String × SVal S)} :
    l.foldlM perspVisitEntry (none : Option (PerspectiveParams R)) = .ok (some p) ↔
      ∃ v, l = [("params", v)] ∧ dePerspectiveParams v = .ok p := by
  match l with
  | [] => simp [List.foldlM_nil, pure_ok]
  | [(k, v)] =>
    simp only [List.foldlM_cons, List.foldlM_nil, bind_ok, perspVisitEntry_ok, pure_ok]
    constructor
    · rintro ⟨st, ⟨rfl, -, p', hp, rfl⟩, h⟩
      cases h
      exact ⟨v, rfl, hp⟩
    · rintro ⟨w, h, hw⟩
      cases h
      exact ⟨some p, ⟨rfl, trivial, p, hw, rfl⟩, rfl⟩
  | (k, v) :: (k', v') :: l =>
    simp only [List.foldlM_cons, bind_ok, perspVisitEntry_ok]
    constructor
    · rintro ⟨st, ⟨-, -, p', -, rfl⟩, st', ⟨-, h, -⟩, -⟩
      cases h
    · rintro ⟨w, h, -⟩
      cases h

/-- C40, perspective intrinsics from a map: exactly the one entry `params`. -/
theorem c40_perspective_map (l : List (String × SVal S)) (i : IntrinsicParametersPerspective R) :
    dePerspective (.map l) = .ok i ↔
      ∃ v p, l = [("params", v)] ∧ dePerspectiveParams v = .ok p ∧ i = .ofParams p := by
  simp only [dePerspective, perspVisitMap, bind_ok]
  constructor
  · rintro ⟨a, h, h3⟩
    match a, h, h3 with
    | none, _, h3 => cases h3
    | some p', h, h3 =>
      obtain ⟨v, hl, hv⟩ := persp_fold.1 h
      exact ⟨v, p', hl, hv, (Except.ok.inj h3).symm⟩
  · rintro ⟨v, p, hl, hv, rfl⟩
    exact ⟨_, persp_fold.2 ⟨v, hl, hv⟩, rfl⟩

/-- C40, perspective intrinsics from a sequence: exactly one element. -/
theorem c40_perspective_seq (l : List (SVal S)) (i : IntrinsicParametersPerspective R) :
    dePerspective (.seq l) = .ok i ↔
      ∃ v p, l = [v] ∧ dePerspectiveParams v = .ok p ∧ i = .ofParams p := by
  simp only [dePerspective]
  match l with
  | [] => simp [perspVisitSeq]
  | [v] =>
    simp only [perspVisitSeq, bind_ok, List.isEmpty_nil, if_true, pure_ok]
    constructor
    · rintro ⟨p, hp, rfl⟩; exact ⟨v, p, rfl, hp, rfl⟩
    · rintro ⟨v', p, h, hp, rfl⟩; cases h; exact ⟨p, hp, rfl⟩
  | v :: w :: rest =>
    simp only [perspVisitSeq, bind_ok, List.isEmpty_cons]
    constructor
    · rintro ⟨q, hq, h⟩; simp at h
    · rintro ⟨v', p, h, -⟩; simp at h

omit [Scalar R] in
/-- C40: the values themselves.  A rotation is exactly four scalars `i, j, k, w`. -/
theorem c40_quat (v : SVal S) (q : Quat R) :
    deQuat v = .ok q ↔ ∃ vi vj vk vw, v = .seq [vi, vj, vk, vw] ∧ deScalar vi = .ok q.i ∧
      deScalar vj = .ok q.j ∧ deScalar vk = .ok q.k ∧ deScalar vw = .ok q.w := by
  simp only [deQuat, bind_ok, pure_ok, deArray_ok]
  constructor
  · rintro ⟨x, ⟨l, rfl, h⟩, rfl⟩
    simp only [List.ofFn_succ, List.ofFn_zero] at h
    cases h with | cons h0 h =>
    cases h with | cons h1 h =>
    cases h with | cons h2 h =>
    cases h with | cons h3 h =>
    cases h
    exact ⟨_, _, _, _, rfl, h0, h1, h2, h3⟩
  · rintro ⟨vi, vj, vk, vw, rfl, h0, h1, h2, h3⟩
    exact ⟨![q.i, q.j, q.k, q.w], ⟨_, rfl, .cons h0 (.cons h1 (.cons h2 (.cons h3 .nil)))⟩, rfl⟩

omit [Scalar R] in
/-- C40: a point or vector is exactly three scalars. -/
theorem c40_vec3 (v : SVal S) (x : V3 R) :
    deVec3 v = .ok x ↔ ∃ a b c, v = .seq [a, b, c] ∧ deScalar a = .ok (x 0) ∧
      deScalar b = .ok (x 1) ∧ deScalar c = .ok (x 2) := by
  simp only [deVec3, deArray_ok]
  constructor
  · rintro ⟨l, rfl, h⟩
    simp only [List.ofFn_succ, List.ofFn_zero] at h
    cases h with | cons h0 h =>
    cases h with | cons h1 h =>
    cases h with | cons h2 h =>
    cases h
    exact ⟨_, _, _, rfl, h0, h1, h2⟩
  · rintro ⟨a, b, c, rfl, h0, h1, h2⟩
    exact ⟨_, rfl, .cons h0 (.cons h1 (.cons h2 .nil))⟩

/-- C40: nothing else is accepted. -/
theorem c40_other_forms (v : SVal S) (hm : ∀ l, v ≠ .map l) (hs : ∀ l, v ≠ .seq l) :
    deExtrinsics v = (.error .invalidType : Except DErr (ExtrinsicParameters R)) ∧
      dePerspective v = (.error .invalidType : Except DErr (IntrinsicParametersPerspective R)) := by
  cases v with
  | map l => exact absurd rfl (hm l)
  | seq l => exact absurd rfl (hs l)
  | num s => exact ⟨rfl, rfl⟩
  | nat n => exact ⟨rfl, rfl⟩
  | unit => exact ⟨rfl, rfl⟩

/-- C40: a missing, duplicated or unknown key is rejected, whatever the values are. -/
theorem c40_bad_keys (l : List (String × SVal S))
    (h : l.countP (fun kv => kv.1 = "rquat") ≠ 1 ∨ l.countP (fun kv => kv.1 = "camcenter") ≠ 1 ∨
      ∃ kv ∈ l, kv.1 ≠ "rquat" ∧ kv.1 ≠ "camcenter") :
    ∀ e : ExtrinsicParameters R, deExtrinsics (.map l) ≠ .ok e := by
  intro e he
  obtain ⟨v, w, q, c, hp, -⟩ := (c40_extrinsics_map l e).1 he
  rcases h with h | h | ⟨kv, hkv, h1, h2⟩
  · apply h; rw [hp.countP_eq]; simp
  · apply h; rw [hp.countP_eq]; simp
  · have := hp.mem_iff.1 hkv
    simp only [List.mem_cons, List.not_mem_nil, or_false] at this
    rcases this with rfl | rfl
    · exact h1 rfl
    · exact h2 rfl

/-- C40: the kind of error for each single fault. -/
theorem c40_error_kind (v w : SVal S) (q : Quat R) (c : V3 R) (hv : deQuat v = .ok q)
    (hw : deVec3 w = .ok c) (k : String) (hk1 : k ≠ "rquat") (hk2 : k ≠ "camcenter") (x : SVal S) :
    (deExtrinsics (.map [("camcenter", w)]) : Except DErr (ExtrinsicParameters R)) =
        .error (.missingField "rquat") ∧
      (deExtrinsics (.map [("rquat", v)]) : Except DErr (ExtrinsicParameters R)) =
        .error (.missingField "camcenter") ∧
      (deExtrinsics (.map [("rquat", v), ("rquat", x)]) : Except DErr (ExtrinsicParameters R)) =
        .error (.duplicateField "rquat") ∧
      (deExtrinsics (.map [("camcenter", w), ("camcenter", x)]) :
          Except DErr (ExtrinsicParameters R)) = .error (.duplicateField "camcenter") ∧
      (deExtrinsics (.map [("rquat", v), ("camcenter", w), (k, x)]) :
          Except DErr (ExtrinsicParameters R)) = .error (.unknownField k) := by
  refine ⟨?_, ?_, ?_, ?_, ?_⟩ <;>
    simp [deExtrinsics, extVisitMap, extVisitEntry, hv, hw, hk1, hk2, bind, Except.bind, pure,
      Except.pure, throw, throwThe, MonadExceptOf.throw]

omit [Scalar R] in
/-- C40: why a list of numbers is refused.  Too short: the length found.  Too long: the length expected, whatever
comes after the first superfluous number.  An element that is not a number: that element's error.  Not a list: a type
error. -/
theorem c40_array_errors (n : ℕ) :
    (∀ (l : List (SVal S)) (xs : List R), List.Forall₂ (fun v r => deScalar v = .ok r) l xs → l.length < n →
      (deArray n (.seq l) : Except DErr (Fin n → R)) = .error (.invalidLength l.length)) ∧
    (∀ (l rest : List (SVal S)) (xs : List R), List.Forall₂ (fun v r => deScalar v = .ok r) l xs → l.length = n + 1 →
      (deArray n (.seq (l ++ rest)) : Except DErr (Fin n → R)) = .error (.invalidLength n)) ∧
    (∀ (l rest : List (SVal S)) (xs : List R) (v : SVal S) (e : DErr),
      List.Forall₂ (fun v r => deScalar v = .ok r) l xs → l.length ≤ n →
      (deScalar v : Except DErr R) = .error e →
      (deArray n (.seq (l ++ v :: rest)) : Except DErr (Fin n → R)) = .error e) ∧
    ∀ v : SVal S, (∀ l, v ≠ .seq l) → (deArray n v : Except DErr (Fin n → R)) = .error .invalidType := by
  refine ⟨fun l xs h hn => ?_, fun l rest xs h hn => ?_, fun l rest xs v e h hn hv => ?_, fun v hv => ?_⟩
  · have e := h.length_eq
    simp only [deArray]
    rw [List.take_of_length_le (by omega), mapM_deScalar_ok.2 h]
    simp only [bind, Except.bind]
    rw [dif_neg (by omega), e, Nat.min_eq_left (by omega)]
  · have e := h.length_eq
    simp only [deArray]
    rw [← hn, List.take_left, mapM_deScalar_ok.2 h]
    simp only [bind, Except.bind]
    rw [dif_neg (by omega), Nat.min_eq_right (by omega)]
  · simp only [deArray]
    obtain ⟨j, hj⟩ : ∃ j, n + 1 - l.length = j + 1 := ⟨n - l.length, by omega⟩
    rw [List.take_append, List.take_of_length_le (by omega), hj, List.take_succ_cons,
      mapM_deScalar_error h hv]
    rfl
  · cases v with
    | seq l => exact absurd rfl (hv l)
    | num s => rfl
    | nat n => rfl
    | unit => rfl
    | map l => rfl

/-- C40: the same errors for a rotation and for a centre, and for the extrinsics that contain them. -/
theorem c40_bad_values (v w : SVal S) (e : DErr) :
    ((deArray 4 v : Except DErr (Fin 4 → R)) = .error e →
      (deQuat v : Except DErr (Quat R)) = .error e ∧
      (∀ l, (deExtrinsics (.map (("rquat", v) :: l)) : Except DErr (ExtrinsicParameters R)) = .error e) ∧
      ∀ l, (deExtrinsics (.seq (v :: l)) : Except DErr (ExtrinsicParameters R)) = .error e) ∧
    ((deArray 3 w : Except DErr (Fin 3 → R)) = .error e →
      (deVec3 w : Except DErr (V3 R)) = .error e ∧
      (∀ l, (deExtrinsics (.map (("camcenter", w) :: l)) : Except DErr (ExtrinsicParameters R)) = .error e) ∧
      ∀ v (q : Quat R) l l', deQuat v = .ok q →
        (deExtrinsics (.map (("rquat", v) :: ("camcenter", w) :: l)) : Except DErr (ExtrinsicParameters R)) = .error e ∧
        (deExtrinsics (.seq (v :: w :: l')) : Except DErr (ExtrinsicParameters R)) = .error e) := by
  constructor
  · intro h
    have hq : (deQuat v : Except DErr (Quat R)) = .error e := by rw [deQuat, h]; rfl
    refine ⟨hq, fun l => ?_, fun l => ?_⟩
    · simp [deExtrinsics, extVisitMap, extVisitEntry, hq, bind, Except.bind]
    · simp [deExtrinsics, extVisitSeq, hq, bind, Except.bind]
  · intro h
    have hw : (deVec3 w : Except DErr (V3 R)) = .error e := h
    refine ⟨hw, fun l => ?_, fun v q l l' hv => ⟨?_, ?_⟩⟩
    · simp [deExtrinsics, extVisitMap, extVisitEntry, hw, bind, Except.bind]
    · simp [deExtrinsics, extVisitMap, extVisitEntry, hw, hv, bind, Except.bind, pure, Except.pure]
    · simp [deExtrinsics, extVisitSeq, hw, hv, bind, Except.bind]

/-- Entries that the hand-written visitor of the extrinsics reads without complaint: readable values, no key twice. -/
structure ExtEntries (R : Type) [SerScalar R S] (l : List (String × SVal S)) : Prop where
  /-- no key occurs twice -/
  nodup : (l.map Prod.fst).Nodup
  /-- every entry is a rotation or a centre -/
  readable : ∀ kv ∈ l, (kv.1 = "rquat" ∧ ∃ q : Quat R, deQuat kv.2 = .ok q) ∨
    (kv.1 = "camcenter" ∧ ∃ c : V3 R, deVec3 kv.2 = .ok c)

omit [Scalar R] in
theorem ext_fold_entries {l : List (String × SVal S)} (h : ExtEntries R l) :
    ∃ st : ExtState R, (st.1.isSome ↔ "rquat" ∈ l.map Prod.fst) ∧ (st.2.isSome ↔ "camcenter" ∈ l.map Prod.fst) ∧
      ∀ l', (l ++ l').foldlM extVisitEntry ((none, none) : ExtState R) = l'.foldlM extVisitEntry st := by
  induction l using List.reverseRecOn with
  | nil => exact ⟨(none, none), by simp, by simp, fun _ => rfl⟩
  | append_singleton l kv ih =>
    obtain ⟨k, v⟩ := kv
    have hn := h.nodup
    rw [List.map_append, List.nodup_append] at hn
    obtain ⟨⟨a, b⟩, h1, h2, h3⟩ := ih ⟨hn.1, fun kv hkv => h.readable kv (List.mem_append_left _ hkv)⟩
    have hk : k ∉ l.map Prod.fst := fun hk => hn.2.2 k hk k (by simp) rfl
    rcases h.readable (k, v) (by simp) with ⟨rfl, q, hq⟩ | ⟨rfl, c, hc⟩
    · have ha : a = none := by
        cases a with
        | none => rfl
        | some _ => exact absurd (h1.1 rfl) hk
      subst ha
      refine ⟨(some q, b), by simp, by simpa using h2, fun l' => ?_⟩
      rw [List.append_assoc, h3, List.singleton_append, List.foldlM_cons,
        extVisitEntry_ok.2 (.inl ⟨rfl, rfl, q, hq, rfl⟩)]
      rfl
    · have hb : b = none := by
        cases b with
        | none => rfl
        | some _ => exact absurd (h2.1 rfl) hk
      subst hb
      refine ⟨(a, some c), by simpa using h1, by simp, fun l' => ?_⟩
      rw [List.append_assoc, h3, List.singleton_append, List.foldlM_cons,
        extVisitEntry_ok.2 (.inr ⟨rfl, rfl, c, hc, rfl⟩)]
      rfl

/-- C40: which error is reported for extrinsics.  Entries are read in order and the first fault counts; only after the
last entry are missing fields noticed, the rotation first. -/
theorem c40_extrinsics_errors :
    (∀ (l l' : List (String × SVal S)) (v : SVal S), ExtEntries R l →
      (∀ k, k ≠ "rquat" → k ≠ "camcenter" →
        (deExtrinsics (.map (l ++ (k, v) :: l')) : Except DErr (ExtrinsicParameters R)) = .error (.unknownField k)) ∧
      (∀ k, k = "rquat" ∨ k = "camcenter" → k ∈ l.map Prod.fst →
        (deExtrinsics (.map (l ++ (k, v) :: l')) : Except DErr (ExtrinsicParameters R)) = .error (.duplicateField k)) ∧
      (∀ e, "rquat" ∉ l.map Prod.fst → (deQuat v : Except DErr (Quat R)) = .error e →
        (deExtrinsics (.map (l ++ ("rquat", v) :: l')) : Except DErr (ExtrinsicParameters R)) = .error e) ∧
      ∀ e, "camcenter" ∉ l.map Prod.fst → (deVec3 v : Except DErr (V3 R)) = .error e →
        (deExtrinsics (.map (l ++ ("camcenter", v) :: l')) : Except DErr (ExtrinsicParameters R)) = .error e) ∧
    (∀ l : List (String × SVal S), ExtEntries R l →
      ("rquat" ∉ l.map Prod.fst →
        (deExtrinsics (.map l) : Except DErr (ExtrinsicParameters R)) = .error (.missingField "rquat")) ∧
      ("rquat" ∈ l.map Prod.fst → "camcenter" ∉ l.map Prod.fst →
        (deExtrinsics (.map l) : Except DErr (ExtrinsicParameters R)) = .error (.missingField "camcenter"))) ∧
    (deExtrinsics (.seq ([] : List (SVal S))) : Except DErr (ExtrinsicParameters R)) = .error (.invalidLength 0) ∧
    (∀ (v : SVal S) (q : Quat R), deQuat v = .ok q →
      (deExtrinsics (.seq [v]) : Except DErr (ExtrinsicParameters R)) = .error (.invalidLength 1)) ∧
    ∀ (v w x : SVal S) (l : List (SVal S)) (q : Quat R) (c : V3 R), deQuat v = .ok q → deVec3 w = .ok c →
      (deExtrinsics (.seq (v :: w :: x :: l)) : Except DErr (ExtrinsicParameters R)) =
        .error (.invalidLength (v :: w :: x :: l).length) := by
  refine ⟨fun l l' v h => ?_, fun l h => ?_, rfl, fun v q hv => ?_, fun v w x l q c hv hw => ?_⟩
  · obtain ⟨⟨a, b⟩, h1, h2, h3⟩ := ext_fold_entries h
    refine ⟨fun k hk1 hk2 => ?_, fun k hk hm => ?_, fun e hn he => ?_, fun e hn he => ?_⟩
    · simp [deExtrinsics, extVisitMap, h3, extVisitEntry, hk1, hk2, bind, Except.bind]
    · rcases hk with rfl | rfl
      · simp [deExtrinsics, extVisitMap, h3, extVisitEntry, h1.2 hm, bind, Except.bind]
      · simp [deExtrinsics, extVisitMap, h3, extVisitEntry, h2.2 hm, bind, Except.bind]
    · have ha : ¬ a.isSome := fun ha => hn (h1.1 ha)
      simp [deExtrinsics, extVisitMap, h3, extVisitEntry, ha, he, bind, Except.bind]
    · have ha : ¬ b.isSome := fun ha => hn (h2.1 ha)
      simp [deExtrinsics, extVisitMap, h3, extVisitEntry, ha, he, bind, Except.bind]
  · obtain ⟨⟨a, b⟩, h1, h2, h3⟩ := ext_fold_entries h
    have h3 := h3 []
    rw [List.append_nil] at h3
    refine ⟨fun hn => ?_, fun hm hn => ?_⟩
    · cases a with
      | some q => exact absurd (h1.1 rfl) hn
      | none => simp only [deExtrinsics, extVisitMap, h3]; rfl
    · cases b with
      | some q => exact absurd (h2.1 rfl) hn
      | none =>
        cases a with
        | none => exact absurd (h1.2 hm) (by simp)
        | some q => simp only [deExtrinsics, extVisitMap, h3]; rfl
  · simp [deExtrinsics, extVisitSeq, hv, bind, Except.bind]
  · simp [deExtrinsics, extVisitSeq, hv, hw, bind, Except.bind]
    omega

/-- C40: which error is reported for perspective intrinsics. -/
theorem c40_perspective_errors :
    (dePerspective (.map ([] : List (String × SVal S))) : Except DErr (IntrinsicParametersPerspective R)) =
      .error (.missingField "params") ∧
    (∀ (l : List (String × SVal S)) (k : String) (v : SVal S), k ≠ "params" →
      (dePerspective (.map ((k, v) :: l)) : Except DErr (IntrinsicParametersPerspective R)) = .error (.unknownField k)) ∧
    (∀ (l : List (String × SVal S)) (v : SVal S) (e : DErr),
      (dePerspectiveParams v : Except DErr (PerspectiveParams R)) = .error e →
      (dePerspective (.map (("params", v) :: l)) : Except DErr (IntrinsicParametersPerspective R)) = .error e) ∧
    (∀ (l : List (String × SVal S)) (v w : SVal S) (p : PerspectiveParams R), dePerspectiveParams v = .ok p →
      (dePerspective (.map (("params", v) :: ("params", w) :: l)) :
        Except DErr (IntrinsicParametersPerspective R)) = .error (.duplicateField "params") ∧
      ∀ k, k ≠ "params" → (dePerspective (.map (("params", v) :: (k, w) :: l)) :
        Except DErr (IntrinsicParametersPerspective R)) = .error (.unknownField k)) ∧
    (dePerspective (.seq ([] : List (SVal S))) : Except DErr (IntrinsicParametersPerspective R)) =
      .error (.invalidLength 0) ∧
    (∀ (l : List (SVal S)) (v : SVal S) (e : DErr),
      (dePerspectiveParams v : Except DErr (PerspectiveParams R)) = .error e →
      (dePerspective (.seq (v :: l)) : Except DErr (IntrinsicParametersPerspective R)) = .error e) ∧
    ∀ (l : List (SVal S)) (v w : SVal S) (p : PerspectiveParams R), dePerspectiveParams v = .ok p →
      (dePerspective (.seq (v :: w :: l)) : Except DErr (IntrinsicParametersPerspective R)) =
        .error (.invalidLength (v :: w :: l).length) := by
  refine ⟨rfl, fun l k v hk => ?_, fun l v e he => ?_, fun l v w p hp => ⟨?_, fun k hk => ?_⟩, rfl, fun l v e he => ?_,
    fun l v w p hp => ?_⟩
  · simp [dePerspective, perspVisitMap, perspVisitEntry, hk, bind, Except.bind]
  · simp [dePerspective, perspVisitMap, perspVisitEntry, he, bind, Except.bind]
  · simp [dePerspective, perspVisitMap, perspVisitEntry, hp, bind, Except.bind, pure, Except.pure]
  · simp [dePerspective, perspVisitMap, perspVisitEntry, hp, hk, bind, Except.bind, pure, Except.pure]
  · simp [dePerspective, perspVisitSeq, he, bind, Except.bind]
  · simp [dePerspective, perspVisitSeq, hp, bind, Except.bind]
    omega

/-! ### C41 -/

theorem deExtrinsics_built {v : SVal S} {e : ExtrinsicParameters R} (h : deExtrinsics v = .ok e) :
    ∃ q c, e = fromRotationAndCamcenter q c := by
  cases v with
  | map l => obtain ⟨-, -, q, c, -, -, -, he⟩ := (c40_extrinsics_map l e).1 h; exact ⟨q, c, he⟩
  | seq l => obtain ⟨-, -, q, c, -, -, -, he⟩ := (c40_extrinsics_seq l e).1 h; exact ⟨q, c, he⟩
  | num s => cases h
  | nat n => cases h
  | unit => cases h

theorem dePerspective_built {v : SVal S} {i : IntrinsicParametersPerspective R}
    (h : dePerspective v = .ok i) : ∃ p, i = .ofParams p := by
  cases v with
  | map l => obtain ⟨-, p, -, -, hp⟩ := (c40_perspective_map l i).1 h; exact ⟨p, hp⟩
  | seq l => obtain ⟨-, p, -, -, hp⟩ := (c40_perspective_seq l i).1 h; exact ⟨p, hp⟩
  | num s => cases h
  | nat n => cases h
  | unit => cases h

theorem deCamera_ok {I : Type} {deI : SVal S → Except DErr I} {v : SVal S} {cam : Camera R I}
    (h : deCamera deI v = .ok cam) :
    ∃ vi ve : SVal S, deI vi = .ok cam.intrinsics ∧ deExtrinsics ve = .ok cam.extrinsics := by
  simp only [deCamera, bind_ok] at h
  obtain ⟨l, -, h⟩ := h
  split at h
  · simp only [bind_ok, pure_ok] at h
    obtain ⟨i, hi, e, he, rfl⟩ := h
    exact ⟨_, _, hi, he⟩
  · simp [throw_ok] at h

theorem fromPerspectiveMatrix_built {na : Linalg R} {pmat : Mat 3 4 R}
    {cam : Camera R (IntrinsicParametersPerspective R)}
    (h : Camera.fromPerspectiveMatrix na pmat = .ok cam) :
    (∃ q c, cam.extrinsics = fromRotationAndCamcenter q c) ∧
      ∃ p, cam.intrinsics = .ofParams p := by
  simp only [Camera.fromPerspectiveMatrix, bind_ok] at h
  obtain ⟨a, -, h⟩ := h
  simp only [pure_ok] at h
  subst h
  exact ⟨⟨_, _, rfl⟩, ⟨_, rfl⟩⟩

/-- C41: whatever the way extrinsics were obtained, they are determined by rotation and centre. -/
theorem c41_extrinsics_cache {e : ExtrinsicParameters R} (h : Obtainable S e) :
    e = fromRotationAndCamcenter e.rquat e.camcenter := by
  have key : ∀ e : ExtrinsicParameters R, (∃ q c, e = fromRotationAndCamcenter q c) →
      e = fromRotationAndCamcenter e.rquat e.camcenter := by
    rintro e ⟨q, c, rfl⟩; rfl
  cases h with
  | fromRotationAndCamcenter q c => rfl
  | fromPose p => rfl
  | fromView na a b c => rfl
  | fromPerspectiveMatrix na pmat cam h => exact key _ (fromPerspectiveMatrix_built h).1
  | deserialized v e h => exact key _ (deExtrinsics_built h)
  | deserializedCamera I deI v cam h =>
    obtain ⟨vi, ve, -, he⟩ := deCamera_ok h
    exact key _ (deExtrinsics_built he)

/-- C41: two obtainable extrinsics with equal rotation and centre are equal, hence behave identically
in every function of the API. -/
theorem c41_extrinsics_determined {e e' : ExtrinsicParameters R} (h : Obtainable S e)
    (h' : Obtainable S e') (hq : e.rquat = e'.rquat) (hc : e.camcenter = e'.camcenter) : e = e' := by
  rw [c41_extrinsics_cache h, c41_extrinsics_cache h', hq, hc]

/-- C41: the accessors read the same pose: `matrix`, `rotation` and `translation` agree, and the pose
is (translation, rotation).  The cached values that no accessor returns are the inverse rotation, the
centre moved to `z = 0` and the inverse pose. -/
theorem c41_extrinsics_views {e : ExtrinsicParameters R} (h : Obtainable S e) :
    e.pose.rotation = e.rquat ∧ e.pose.translation = e.translation ∧
      e.rotation = e.rquat.toRotationMatrix ∧
      (∀ a, e.matrix a 3 = e.translation a) ∧
      (∀ a (b : Fin 3), e.matrix a b.castSucc = e.rotation a b) ∧
      (∀ a b, e.cache.qInv a b = e.rotation b a) ∧
      e.cache.camcenterZ0 = ![e.camcenter 0, e.camcenter 1, Scalar.lit 0] ∧
      e.cache.poseInv = e.pose.inverse := by
  rw [c41_extrinsics_cache h]
  refine ⟨rfl, rfl, rfl, ?_, ?_, fun a b => rfl, rfl, rfl⟩
  · intro a; fin_cases a <;> rfl
  · intro a b; fin_cases a <;> fin_cases b <;> rfl

theorem built_of_obtainableI {i : IntrinsicParametersPerspective R} (h : ObtainableI S i) :
    i = .ofParams i.params := by
  have key : ∀ i : IntrinsicParametersPerspective R, (∃ p, i = .ofParams p) →
      i = .ofParams i.params := by
    rintro e ⟨p, rfl⟩; rfl
  cases h with
  | ofParams p => rfl
  | fromNormalized eps m c h =>
    unfold IntrinsicParametersPerspective.fromNormalized3x4Matrix at h
    simp only [guard_ok, pure_ok] at h
    exact key _ ⟨_, h.2.2.2.2.2.2.2.symm⟩
  | fromPerspectiveMatrix na pmat cam h => exact key _ (fromPerspectiveMatrix_built h).2
  | deserialized v e h => exact key _ (dePerspective_built h)
  | deserializedCamera v cam h =>
    obtain ⟨vi, ve, hi, -⟩ := deCamera_ok h
    exact key _ (dePerspective_built hi)

/-- C41: perspective intrinsics are determined by their parameters, and their matrix has the
documented entries. -/
theorem c41_intrinsics_cache {i : IntrinsicParametersPerspective R} (h : ObtainableI S i) :
    i = .ofParams i.params ∧
      i.asIntrinsicsMatrix = ![![i.fx, i.skew, i.cx], ![Scalar.lit 0, i.fy, i.cy],
        ![Scalar.lit 0, Scalar.lit 0, Scalar.lit 1]] := by
  refine ⟨built_of_obtainableI h, ?_⟩
  rw [built_of_obtainableI h]
  funext a b
  fin_cases a <;> fin_cases b <;> rfl

/-- C41: two obtainable perspective intrinsics with equal parameters are equal. -/
theorem c41_intrinsics_determined {i i' : IntrinsicParametersPerspective R} (h : ObtainableI S i)
    (h' : ObtainableI S i') (hp : i.fx = i'.fx ∧ i.fy = i'.fy ∧ i.skew = i'.skew ∧ i.cx = i'.cx ∧
      i.cy = i'.cy) : i = i' := by
  rw [built_of_obtainableI h, built_of_obtainableI h']
  obtain ⟨h1, h2, h3, h4, h5⟩ := hp
  rw [PerspectiveParams.ext h1 h2 h3 h4 h5]

/-! ### C39: round trips -/

/-- Every scalar of the value survives serialization. -/
def QuatRT (S : Type) [SerScalar R S] (q : Quat R) : Prop :=
  RT S q.w ∧ RT S q.i ∧ RT S q.j ∧ RT S q.k

/-- C39, extrinsics. -/
theorem c39_extrinsics {e : ExtrinsicParameters R} (h : Obtainable S e) (hq : QuatRT S e.rquat)
    (hc : ∀ a, RT S (e.camcenter a)) : deExtrinsics (serExtrinsics e : SVal S) = .ok e := by
  obtain ⟨hw, hi, hj, hk⟩ := hq
  refine (c40_extrinsics_map _ _).2
    ⟨_, _, e.rquat, e.camcenter, .refl _, deQuat_ser hw hi hj hk, deVec3_ser hc,
      c41_extrinsics_cache h⟩

omit [Scalar R] in
theorem dePerspectiveParams_ser {p : PerspectiveParams R} (h1 : RT S p.fx) (h2 : RT S p.fy)
    (h3 : RT S p.skew) (h4 : RT S p.cx) (h5 : RT S p.cy) :
    dePerspectiveParams (serPerspectiveParams p : SVal S) = .ok p := by
  simp [dePerspectiveParams, serPerspectiveParams, structFields, visitEntries, structField, List.lookup, requiredField, bind, Except.bind, SeqRight.seqRight,
    pure, Except.pure, deScalar_ser h1, deScalar_ser h2, deScalar_ser h3, deScalar_ser h4,
    deScalar_ser h5]

/-- C39, perspective intrinsics. -/
theorem c39_perspective {i : IntrinsicParametersPerspective R} (h : ObtainableI S i)
    (h1 : RT S i.fx) (h2 : RT S i.fy) (h3 : RT S i.skew) (h4 : RT S i.cx) (h5 : RT S i.cy) :
    dePerspective (serPerspective i : SVal S) = .ok i :=
  (c40_perspective_map _ _).2
    ⟨_, i.params, rfl, dePerspectiveParams_ser h1 h2 h3 h4 h5, built_of_obtainableI h⟩

omit [Scalar R] in
/-- C39, orthographic intrinsics. -/
theorem c39_orthographic (i : IntrinsicParametersOrthographic R) (h1 : RT S i.params.sx)
    (h2 : RT S i.params.sy) (h3 : RT S i.params.cx) (h4 : RT S i.params.cy) :
    deOrthographic (serOrthographic i : SVal S) = .ok i := by
  simp [deOrthographic, serOrthographic, deOrthographicParams, serOrthographicParams, structFields,
    visitEntries, structField, List.lookup, requiredField, bind, Except.bind, SeqRight.seqRight, pure, Except.pure, deScalar_ser h1, deScalar_ser h2,
    deScalar_ser h3, deScalar_ser h4]

/-- C39, camera, for any intrinsics whose serialization round-trips. -/
theorem c39_camera {I : Type} {serI : I → SVal S} {deI : SVal S → Except DErr I} {c : Camera R I}
    (hI : deI (serI c.intrinsics) = .ok c.intrinsics) (h : Obtainable S c.extrinsics)
    (hq : QuatRT S c.extrinsics.rquat) (hc : ∀ a, RT S (c.extrinsics.camcenter a)) :
    deCamera deI (serCamera serI c) = .ok c := by
  have he := c39_extrinsics h hq hc
  simp [deCamera, serCamera, structFields, visitEntries, structField, List.lookup, requiredField, bind, Except.bind, SeqRight.seqRight, pure, Except.pure, hI, he]

omit [Scalar R] in
/-- C39, ray bundles with a static number of rays, for any bundle type that round-trips. -/
theorem c39_ray_bundle {Coords B : Type} {n : ℕ} {serB : B → SVal S} {deB : SVal S → Except DErr B}
    {b : RayBundle Coords B R n} (hB : deB (serB b.bundleType) = .ok b.bundleType)
    (hd : ∀ i j, RT S (b.data i j)) : deRayBundle deB (serRayBundle serB b) = .ok b := by
  have h : deArray (3 * n) (serArray (flatten3 b.data) : SVal S) = .ok (flatten3 b.data) :=
    deArray_ser fun i => hd _ _
  simp [deRayBundle, serRayBundle, structFields, visitEntries, structField, List.lookup, requiredField, bind, Except.bind, SeqRight.seqRight, pure,
    Except.pure, hB, h, dePhantom, unflatten3_flatten3]

omit [Scalar R] in
/-- C39, ray bundles with a run-time number of rays: the number of rays is recovered too. -/
theorem c39_ray_bundle_dyn {Coords B : Type} {n : ℕ} {serB : B → SVal S}
    {deB : SVal S → Except DErr B} {b : RayBundle Coords B R n}
    (hB : deB (serB b.bundleType) = .ok b.bundleType) (hd : ∀ i j, RT S (b.data i j)) :
    deRayBundleDyn deB (serRayBundleDyn serB b) =
      (.ok ⟨n, b⟩ : Except DErr (Σ n, RayBundle Coords B R n)) := by
  have h : deVecStorage (serVecStorage b.data : SVal S) = .ok ⟨n, b.data⟩ := by
    have hm := mapM_deScalar_ok.2
      (forall₂_ofFn (f := fun i => (SVal.num (SerScalar.ser (flatten3 b.data i)) : SVal S)) |>.2
        fun i => deScalar_ser (S := S) (hd _ _))
    simp only [deVecStorage, serVecStorage, serArray]
    rw [hm]
    simp only [bind, Except.bind]
    rw [dif_pos (by simp)]
    congr 2
    rw [← unflatten3_flatten3 b.data]
    congr 1
    funext i
    simp [unflatten3_flatten3]
  simp [deRayBundleDyn, serRayBundleDyn, structFields, visitEntries, structField, List.lookup, requiredField, bind, Except.bind, SeqRight.seqRight, pure,
    Except.pure, hB, h, dePhantom]

omit [Scalar R] in
/-- C39, the two bundle types of the crate (to be combined with `c39_ray_bundle`). -/
theorem c39_bundle_types (b : SharedOriginRayBundle R) (d : SharedDirectionRayBundle R)
    (hb : ∀ a, RT S (b.center a)) (hd : ∀ a, RT S (d.direction a)) :
    deSharedOrigin (serSharedOrigin b : SVal S) = .ok b ∧
      deSharedDirection (serSharedDirection d : SVal S) = .ok d := by
  constructor
  · simp [deSharedOrigin, serSharedOrigin, structFields, visitEntries, structField, List.lookup, requiredField, bind, Except.bind, SeqRight.seqRight, pure,
      Except.pure, deVec3_ser hb]
  · simp [deSharedDirection, serSharedDirection, structFields, visitEntries, structField, List.lookup, requiredField, bind, Except.bind, SeqRight.seqRight,
      pure, Except.pure, deVec3_ser hd]

end generic

/-! ### Examples: exact reals written as themselves -/

/-- Exact serialization of reals, for the examples. -/
instance instSerReal : SerScalar ℝ ℝ where
  ser := id
  de := some
  ofNat n := some n

theorem rt_real (r : ℝ) : RT ℝ r := rfl

/-- Non-vacuity of C39/C41: a camera obtained from a rotation and a centre, written and read back. -/
example : Obtainable ℝ (fromRotationAndCamcenter exQuat ![1, 2, 3]) ∧
    deCamera dePerspective (serCamera serPerspective
      (Camera.mk (IntrinsicParametersPerspective.ofParams exPersp)
        (fromRotationAndCamcenter exQuat ![1, 2, 3])) : SVal ℝ) =
      .ok (Camera.mk (IntrinsicParametersPerspective.ofParams exPersp)
        (fromRotationAndCamcenter exQuat ![1, 2, 3])) :=
  ⟨.fromRotationAndCamcenter _ _,
    c39_camera (c39_perspective (.ofParams _) (rt_real _) (rt_real _) (rt_real _) (rt_real _)
      (rt_real _)) (.fromRotationAndCamcenter _ _) ⟨rt_real _, rt_real _, rt_real _, rt_real _⟩
      fun _ => rt_real _⟩

/-- Non-vacuity of C40: fields in reverse order are accepted. -/
example : ∃ e : ExtrinsicParameters ℝ,
    deExtrinsics (.map [("camcenter", .seq [.num 1, .num 2, .num 3]),
      ("rquat", .seq [.num 0, .num 0, .num 0, .num 1])] : SVal ℝ) = .ok e ∧
    e.camcenter = ![1, 2, 3] ∧ e.rquat = ⟨1, 0, 0, 0⟩ :=
  ⟨fromRotationAndCamcenter ⟨1, 0, 0, 0⟩ ![1, 2, 3],
    (c40_extrinsics_map _ _).2 ⟨_, _, _, _, .swap _ _ _,
      (c40_quat _ _).2 ⟨_, _, _, _, rfl, rfl, rfl, rfl, rfl⟩,
      (c40_vec3 _ _).2 ⟨_, _, _, rfl, rfl, rfl, rfl⟩, rfl⟩, rfl, rfl⟩

/-- A centre, a rotation and then the centre again; and a centre alone. -/
example (v : SVal ℝ) :
    (deExtrinsics (.map [("camcenter", .seq [.num 1, .num 2, .num 3]), ("rquat", .seq [.num 0, .num 0, .num 0, .num 1]),
      ("camcenter", v)]) : Except DErr (ExtrinsicParameters ℝ)) = .error (.duplicateField "camcenter") ∧
    (deExtrinsics (.map [("camcenter", .seq [.num 1, .num 2, .num 3])] : SVal ℝ) :
      Except DErr (ExtrinsicParameters ℝ)) = .error (.missingField "rquat") := by
  have hc : deVec3 (.seq [.num 1, .num 2, .num 3] : SVal ℝ) = .ok (![1, 2, 3] : V3 ℝ) :=
    (c40_vec3 _ _).2 ⟨_, _, _, rfl, rfl, rfl, rfl⟩
  have hq : deQuat (.seq [.num 0, .num 0, .num 0, .num 1] : SVal ℝ) = .ok (⟨1, 0, 0, 0⟩ : Quat ℝ) :=
    (c40_quat _ _).2 ⟨_, _, _, _, rfl, rfl, rfl, rfl, rfl⟩
  have h2 : ExtEntries ℝ [("camcenter", (.seq [.num 1, .num 2, .num 3] : SVal ℝ)),
      ("rquat", .seq [.num 0, .num 0, .num 0, .num 1])] :=
    ⟨by simp, by
      intro kv hkv
      simp only [List.mem_cons, List.not_mem_nil, or_false] at hkv
      rcases hkv with rfl | rfl
      · exact .inr ⟨rfl, _, hc⟩
      · exact .inl ⟨rfl, _, hq⟩⟩
  have h1 : ExtEntries ℝ [("camcenter", (.seq [.num 1, .num 2, .num 3] : SVal ℝ))] :=
    ⟨by simp, by
      intro kv hkv
      simp only [List.mem_cons, List.not_mem_nil, or_false] at hkv
      subst hkv
      exact .inr ⟨rfl, _, hc⟩⟩
  exact ⟨(c40_extrinsics_errors.1 _ [] v h2).2.1 "camcenter" (.inr rfl) (by simp),
    (c40_extrinsics_errors.2.1 _ h1).1 (by simp)⟩

/-- A rotation with three numbers, a centre with five of which the last is not a number, and a centre that is one number. -/
example :
    (deExtrinsics (.map [("rquat", .seq [.num 0, .num 0, .num 1])] : SVal ℝ) : Except DErr (ExtrinsicParameters ℝ)) =
      .error (.invalidLength 3) ∧
    (deExtrinsics (.map [("camcenter", .seq [.num 1, .num 2, .num 3, .num 4, .unit])] : SVal ℝ) :
      Except DErr (ExtrinsicParameters ℝ)) = .error (.invalidLength 3) ∧
    (deExtrinsics (.map [("camcenter", .num 1)] : SVal ℝ) : Except DErr (ExtrinsicParameters ℝ)) =
      .error .invalidType :=
  ⟨((c40_bad_values _ (.unit) _).1 ((c40_array_errors 4).1 _ [0, 0, 1]
      (.cons rfl (.cons rfl (.cons rfl .nil))) (by decide))).2.1 [],
    ((c40_bad_values (.unit) _ _).2 ((c40_array_errors 3).2.1 [.num 1, .num 2, .num 3, .num 4] [.unit] [1, 2, 3, 4]
      (.cons rfl (.cons rfl (.cons rfl (.cons rfl .nil)))) rfl)).2.1 [],
    ((c40_bad_values (.unit) _ _).2 ((c40_array_errors 3).2.2.2 _ (by intro l h; cases h))).2.1 []⟩

/-! ### C42: no check of the norm -/

open Matrix Spec

/-- C42: any four scalars are accepted as a rotation; nothing is checked or normalized. -/
theorem c42_accepts_any {R S : Type} [SerScalar R S] [Scalar R] {q : Quat R} {c : V3 R}
    (hq : QuatRT S q) (hc : ∀ a, RT S (c a)) :
    ∃ e : ExtrinsicParameters R,
      deExtrinsics (.map [("rquat", serQuat q), ("camcenter", serVec3 c)] : SVal S) = .ok e ∧
        e.rquat = q ∧ e.camcenter = c :=
  ⟨_, (c40_extrinsics_map _ _).2 ⟨_, _, q, c, .refl _, deQuat_ser hq.1 hq.2.1 hq.2.2.1 hq.2.2.2,
    deVec3_ser hc, rfl⟩, rfl, rfl⟩

/-- C42: the exact defect of the round trip for extrinsics with an arbitrary quaternion. -/
theorem c42_defect (q : Quat ℝ) (c : V3 ℝ) {n : ℕ} (x : Points CameraFrame ℝ n) (i : Fin n) :
    let e := fromRotationAndCamcenter q c
    (e.worldToCamera (e.cameraToWorld x)).data i = x.data i +
      (4 * (1 - quatNormSq q)) • (q.vector ⨯₃ (q.vector ⨯₃ (x.data i - e.translation))) := by
  intro e
  rw [worldToCamera_data, cameraToWorld_data]
  have h1 : ∀ y : V3 ℝ, e.cache.poseInv.transformPoint y = q.inverse.rotate (y - e.translation) := by
    intro y
    rw [rotate_sub, sub_eq_add_neg, ← rotate_neg]
    rfl
  have h2 : ∀ y : V3 ℝ, e.cache.pose.transformPoint y = q.rotate y + e.translation := fun y => rfl
  beta_reduce
  rw [h1, h2, rotate_inverse_defect]
  abel

/-- C42: every quaternion that is not of unit norm and not real loses the round trip: some point is
not recovered. -/
theorem c42_not_unit (q : Quat ℝ) (hq : ¬ UnitQuat q) (hv : q.vector ≠ 0) (c : V3 ℝ) :
    ∃ x : V3 ℝ, ((fromRotationAndCamcenter q c).worldToCamera
      ((fromRotationAndCamcenter q c).cameraToWorld (.single x))).data 0 ≠ x := by
  have hn : 4 * (1 - quatNormSq q) ≠ 0 := by
    intro h
    apply hq
    unfold UnitQuat
    unfold quatNormSq at h
    linarith
  -- a vector orthogonal to the axis
  obtain ⟨y, hy⟩ : ∃ y : V3 ℝ, q.vector ⨯₃ (q.vector ⨯₃ y) ≠ 0 := by
    by_contra hcon
    push Not at hcon
    apply hv
    have e0 := hcon ![1, 0, 0]
    have e1 := hcon ![0, 1, 0]
    have e2 := hcon ![0, 0, 1]
    simp only [cross_apply, Matrix.cons_val, Matrix.cons_eq_zero_iff] at e0 e1 e2
    have a0 := e0.1
    have a1 := e1.2.1
    have a2 := e2.2.2.1
    ring_nf at a0 a1 a2
    funext a
    fin_cases a <;> simp <;> nlinarith [sq_nonneg (q.vector 0), sq_nonneg (q.vector 1),
      sq_nonneg (q.vector 2)]
  refine ⟨y + (fromRotationAndCamcenter q c).translation, ?_⟩
  have h := c42_defect q c (.single (y + (fromRotationAndCamcenter q c).translation)) 0
  simp only [Points.single] at h ⊢
  rw [h, add_sub_cancel_right]
  intro hcon
  have : (4 * (1 - quatNormSq q)) • (q.vector ⨯₃ (q.vector ⨯₃ y)) = 0 := by
    simpa using hcon
  rcases smul_eq_zero.1 this with h | h
  · exact hn h
  · exact hy h

/-- C42: a concrete accepted input whose extrinsics do not round-trip points. -/
theorem c42_counterexample :
    ∃ (v : SVal ℝ) (e : ExtrinsicParameters ℝ), deExtrinsics v = .ok e ∧
      ∃ x : V3 ℝ, (e.worldToCamera (e.cameraToWorld (.single x))).data 0 ≠ x := by
  obtain ⟨x, hx⟩ := c42_not_unit ⟨1, 1, 0, 0⟩ (by norm_num [UnitQuat])
    (by intro h; have := congrFun h 0; simp [Quat.vector] at this) ![1, 2, 3]
  exact ⟨.map [("rquat", .seq [.num 1, .num 0, .num 0, .num 1]),
      ("camcenter", .seq [.num 1, .num 2, .num 3])],
    fromRotationAndCamcenter ⟨1, 1, 0, 0⟩ ![1, 2, 3],
    (c40_extrinsics_map _ _).2 ⟨_, _, _, _, .refl _,
      (c40_quat _ _).2 ⟨_, _, _, _, rfl, rfl, rfl, rfl, rfl⟩,
      (c40_vec3 _ _).2 ⟨_, _, _, rfl, rfl, rfl, rfl⟩, rfl⟩, x, hx⟩

end CamGeom
