import Verif.Model.Serde
import Verif.Lemmas.Loops

/-!
# Reading and writing the serialized values
-/

namespace CamGeom

variable {R S : Type} [SerScalar R S]

/-- The scalar `r` survives serialization (for JSON: every finite float). -/
def RT (S : Type) {R : Type} [SerScalar R S] (r : R) : Prop :=
  SerScalar.de (SerScalar.ser r : S) = some r

theorem deScalar_ok {v : SVal S} {r : R} :
    deScalar v = .ok r ↔ (∃ s, v = .num s ∧ SerScalar.de s = some r) ∨
      ∃ n, v = .nat n ∧ SerScalar.ofNat S n = some r := by
  cases v with
  | num s =>
    simp only [deScalar, SVal.num.injEq, exists_eq_left', reduceCtorEq, false_and, exists_false, or_false]
    cases h : (SerScalar.de s : Option R) <;> simp
  | nat n =>
    simp only [deScalar, SVal.nat.injEq, exists_eq_left', reduceCtorEq, false_and, exists_false, false_or]
    cases h : (SerScalar.ofNat S n : Option R) <;> simp
  | unit => simp [deScalar]
  | seq l => simp [deScalar]
  | map l => simp [deScalar]

theorem deScalar_ser {r : R} (h : RT S r) : deScalar (.num (SerScalar.ser r : S)) = .ok r :=
  deScalar_ok.2 (.inl ⟨_, rfl, h⟩)

theorem mapM_deScalar_ok {l : List (SVal S)} {xs : List R} :
    l.mapM deScalar = (.ok xs : Except DErr (List R)) ↔
      List.Forall₂ (fun v r => deScalar v = .ok r) l xs := by
  induction l generalizing xs with
  | nil =>
    simp only [List.mapM_nil, List.forall₂_nil_left_iff]
    constructor
    · intro h; exact (Except.ok.inj h).symm
    · rintro rfl; rfl
  | cons v l ih =>
    rw [List.mapM_cons]
    cases hv : (deScalar v : Except DErr R) with
    | error e =>
      simp only [bind, Except.bind]
      constructor
      · intro h; cases h
      · intro h; cases h with | cons h1 h2 => rw [hv] at h1; cases h1
    | ok r =>
      cases hl : (l.mapM deScalar : Except DErr (List R)) with
      | error e =>
        simp only [bind, Except.bind]
        constructor
        · intro h; cases h
        · intro h
          cases h with
          | cons h1 h2 => rw [ih.2 h2] at hl; cases hl
      | ok ys =>
        simp only [bind, Except.bind, pure, Except.pure]
        constructor
        · intro h
          cases h
          exact .cons hv (ih.1 hl)
        · intro h
          cases h with
          | cons h1 h2 =>
            rw [hv] at h1; cases h1
            rw [ih.2 h2] at hl; cases hl
            rfl

/-- What an array reads as: exactly `n` scalars, in order. -/
theorem deArray_ok {n : ℕ} {v : SVal S} {x : Fin n → R} :
    deArray n v = .ok x ↔
      ∃ l : List (SVal S), v = .seq l ∧
        List.Forall₂ (fun v r => deScalar v = .ok r) l (List.ofFn x) := by
  cases v with
  | num s => simp [deArray]
  | nat n => simp [deArray]
  | unit => simp [deArray]
  | map l => simp [deArray]
  | seq l =>
    simp only [deArray, SVal.seq.injEq, exists_eq_left']
    have ht : List.Forall₂ (fun v r => deScalar v = (.ok r : Except DErr R)) l (List.ofFn x) ↔
        List.Forall₂ (fun v r => deScalar v = .ok r) (l.take (n + 1)) (List.ofFn x) := by
      constructor <;> intro h
      · have e := h.length_eq
        rw [List.length_ofFn] at e
        rwa [List.take_of_length_le (by omega)]
      · have e := h.length_eq
        rw [List.length_ofFn, List.length_take] at e
        rwa [List.take_of_length_le (by omega)] at h
    rw [ht, ← mapM_deScalar_ok]
    cases hl : ((l.take (n + 1)).mapM deScalar : Except DErr (List R)) with
    | error e =>
      simp only [bind, Except.bind]
      constructor <;> intro h <;> cases h
    | ok ys =>
      simp only [bind, Except.bind]
      by_cases hn : ys.length = n
      · simp only [hn, dite_true, Except.ok.injEq]
        constructor
        · rintro rfl; subst hn; exact (List.ofFn_get ys).symm
        · intro h
          subst h
          funext i
          simp
      · simp only [hn, dite_false]
        constructor
        · intro h; cases h
        · intro h
          cases h
          simp at hn

/-- The elements read successfully, then one that does not parse. -/
theorem mapM_deScalar_error {l rest : List (SVal S)} {xs : List R} {v : SVal S} {e : DErr}
    (hl : List.Forall₂ (fun v r => deScalar v = .ok r) l xs) (hv : (deScalar v : Except DErr R) = .error e) :
    ((l ++ v :: rest).mapM deScalar : Except DErr (List R)) = .error e := by
  induction hl with
  | nil => rw [List.nil_append, List.mapM_cons, hv]; rfl
  | cons h1 _ ih => rw [List.cons_append, List.mapM_cons, h1]; simp only [bind, Except.bind, ih]

theorem forall₂_ofFn {α β : Type} {p : α → β → Prop} {n : ℕ} {f : Fin n → α} {g : Fin n → β} :
    List.Forall₂ p (List.ofFn f) (List.ofFn g) ↔ ∀ i, p (f i) (g i) := by
  rw [List.forall₂_iff_get]
  simp only [List.length_ofFn, List.get_eq_getElem, List.getElem_ofFn, true_and]
  constructor
  · intro h i; exact h i i.2 i.2
  · intro h i hi _; exact h ⟨i, hi⟩

theorem deArray_ser {n : ℕ} {x : Fin n → R} (h : ∀ i, RT S (x i)) :
    deArray n (serArray x : SVal S) = .ok x :=
  deArray_ok.2 ⟨_, rfl, forall₂_ofFn.2 fun i => deScalar_ser (h i)⟩

theorem deQuat_ser {q : Quat R} (hw : RT S q.w) (hi : RT S q.i) (hj : RT S q.j) (hk : RT S q.k) :
    deQuat (serQuat q : SVal S) = .ok q := by
  unfold deQuat serQuat
  rw [deArray_ser (by intro a; fin_cases a <;> assumption)]
  rfl

theorem deVec3_ser {v : V3 R} (h : ∀ a, RT S (v a)) : deVec3 (serVec3 v : SVal S) = .ok v :=
  deArray_ser h

theorem unflatten3_flatten3 {n : ℕ} (m : Mat n 3 R) : unflatten3 (flatten3 m) = m := by
  funext i j
  have hn : 0 < n := lt_of_le_of_lt (Nat.zero_le _) i.2
  simp only [unflatten3, flatten3]
  congr 1
  · ext
    simp [Nat.add_mod, Nat.mod_eq_of_lt i.2]
  · ext
    simp only
    rw [Nat.add_comm, Nat.add_mul_div_right _ _ hn, Nat.div_eq_of_lt i.2, Nat.zero_add]

end CamGeom
