import Verif.Model.Selection
import Verif.Props.DemoUni

/-!
# Selections and type-erased selections (C74)
-/

set_option linter.unusedSectionVars false
set_option linter.unusedVariables false

namespace V11

/-- What an iterator yields: `Yielding next s l` says that repeated `next` from state `s` gives the items `l` and then ends. -/
inductive Yielding {σ : Type} (next : σ → Option (Nat × σ)) : σ → List Nat → Prop
  | done {s : σ} : next s = none → Yielding next s []
  | item {s s' : σ} {i : Nat} {l : List Nat} : next s = some (i, s') → Yielding next s' l → Yielding next s (i :: l)

/-- The same for an iterator. -/
abbrev Yields (I : RowIter) (s : I.σ) (l : List Nat) : Prop := Yielding I.next s l

/-- C74: `iter_or_all` yields the selected rows in the order they were selected, with repetitions, and never touches the
caller's iterator; for `All` it yields what the caller's iterator yields. Its `size_hint` is exact for selected rows. -/
theorem C74_iter_or_all (I : RowIter) (s : Select (List Nat)) (all : Unit → I.σ) (l : List Nat) :
    (Yields (SelectIter.iter I) (s.iterOrAll I all) l ↔
      match s with
      | .these rows => l = rows
      | .all => Yields I (all ()) l) ∧
    ((SelectIter.iter I).hint (s.iterOrAll I all) =
      match s with
      | .these rows => (rows.length, some rows.length)
      | .all => I.hint (all ())) := by
  have hthese : ∀ rows l, Yielding (SelectIter.next (I := I)) (SelectIter.these rows) l ↔ l = rows := by
    intro rows
    induction rows with
    | nil =>
      intro l
      constructor
      · intro h
        cases h with
        | done _ => rfl
        | item h _ => cases h
      · rintro rfl; exact .done rfl
    | cons i r ih =>
      intro l
      constructor
      · intro h
        cases h with
        | done h => cases h
        | item h h' =>
          have h : some (i, SelectIter.these r) = some _ := h
          cases h
          rw [(ih _).1 h']
      · rintro rfl; exact .item (s' := SelectIter.these r) rfl ((ih r).2 rfl)
  have hall : ∀ r l, Yielding (SelectIter.next (I := I)) (SelectIter.all r) l ↔ Yielding I.next r l := by
    intro r l
    constructor
    · intro h
      generalize hs : (SelectIter.all r : SelectIter I) = s' at h
      induction h generalizing r with
      | done h =>
        subst hs
        have h : (I.next r).map (fun p => (p.1, SelectIter.all (I := I) p.2)) = none := h
        exact .done (by simpa using h)
      | item h h' ih =>
        subst hs
        have h : (I.next r).map (fun p => (p.1, SelectIter.all (I := I) p.2)) = some _ := h
        cases hn : I.next r with
        | none => rw [hn] at h; cases h
        | some p =>
          rw [hn] at h
          cases h
          exact .item hn (ih _ rfl)
    · intro h
      induction h with
      | done h => exact .done (by show (I.next _).map _ = none; rw [h]; rfl)
      | item h h' ih => exact .item (by show (I.next _).map _ = some _; rw [h]; rfl) ih
  cases s with
  | all => exact ⟨hall _ _, rfl⟩
  | these rows => exact ⟨hthese _ _, rfl⟩

/-- C74: `All` absorbs pushes and sorting; otherwise a push adds the row at the end, also when it is already there, and
sorting gives the same rows with the same multiplicities in ascending order. -/
theorem C74_push_sort (s : Select (List Nat)) (i : Nat) :
    (s = .all → s.push i = .all ∧ s.sort = .all ∧ s.isEmpty = false) ∧
    (∀ rows, s = .these rows → s.push i = .these (rows ++ [i]) ∧
      (∃ l, s.sort = .these l ∧ l.Perm rows ∧ l.Pairwise (· ≤ ·)) ∧ (s.isEmpty = true ↔ rows = [])) ∧
    (s.isAll = true ↔ s = .all) := by
  refine ⟨?_, ?_, ?_⟩
  · rintro rfl; exact ⟨rfl, rfl, rfl⟩
  · rintro rows rfl
    refine ⟨rfl, ⟨_, rfl, List.perm_insertionSort _ _, List.pairwise_insertionSort _ _⟩, ?_⟩
    show rows.isEmpty = true ↔ _
    simp
  · cases s <;> simp [Select.isAll]

/-- C74: `map` applies the function to the selected rows and keeps `All`; `unwrap` panics exactly on `All`. -/
theorem C74_map_unwrap {α β : Type} (f : α → β) (s : Select α) :
    (s.map f = .all ↔ s = .all) ∧ (∀ b, s.map f = .these b ↔ ∃ a, s = .these a ∧ f a = b) ∧
    (∀ a, s.unwrap = .ok a ↔ s = .these a) ∧ (s.unwrap = .error .unwrapNone ↔ s = .all) := by
  cases s <;> simp [Select.map, Select.unwrap]

/-- C74: type erasure is sound and exact: asking an erased slice for the element type it was made from gives back
exactly its elements, asking for any other type gives nothing, and neither reads foreign memory. -/
theorem C74_downcast {M : Memory} {E : M.Ty} (s : SliceOf M E) (F : M.Ty) :
    (AnySlice.from s).downcast E = .ok (some s.elems) ∧
    (F ≠ E → (AnySlice.from s).downcast F = .ok none) ∧
    ((AnySlice.from s).isEmpty = true ↔ s.elems = []) := by
  refine ⟨?_, ?_, ?_⟩
  · have h : fromRawParts M E s.ptr s.len = .ok s.elems := by
      unfold fromRawParts
      rw [s.here]
      simp only [dif_pos]
      exact if_pos s.fits
    unfold AnySlice.downcast
    have h2 : ¬ (AnySlice.from s).id ≠ E := fun e => e rfl
    rw [if_neg h2]
    show (do let l ← fromRawParts M E s.ptr s.len; Except.ok (some l)) = _
    rw [h]
    rfl
  · intro h
    unfold AnySlice.downcast
    have h2 : (AnySlice.from s).id ≠ F := fun e => h (Eq.symm e)
    rw [if_pos h2]
  · unfold AnySlice.isEmpty AnySlice.from SliceOf.elems
    have := s.fits
    simp only [beq_iff_eq, List.take_eq_nil_iff]
    constructor
    · intro h; exact Or.inl h
    · rintro (h | h)
      · exact h
      · rw [h] at this; simpa using this

variable {T : Type} [DecidableEq T] {S : T → Schema}

/-- C74: an erased selection of a table's own rows reaches the table as it was; a selection of rows of another table is
refused with a panic; `All` carries no type and is accepted from anybody. -/
theorem C74_typed (t u : T) (s : Select (List Nat)) :
    downcastSel t (s.asAny t) = .ok s ∧
    (∀ rows, t ≠ u → downcastSel t (Select.asAny u (.these rows)) = .error .wrongRows) ∧
    downcastSel t (Select.asAny u .all) = .ok .all := by
  refine ⟨?_, ?_, rfl⟩
  · cases s with
    | all => rfl
    | these rows => exact if_pos rfl
  · intro rows h
    exact if_neg (fun e => h e.symm)

/-- C74: deleting through the type-erased remover: with the table's own rows (or `All`) it is the typed removal; with
another table's rows it panics without changing anything, unless it cannot even get the lock. -/
theorem C74_remove_rows (doFlush : FlushFn S) (t u : T) (ev : Event) (s : Select (List Nat)) (env : Env S) :
    removeRowsAny doFlush t ev (s.asAny t) env = tableRemoveRows doFlush t ev s env ∧
    removeRowsAny doFlush t ev (Select.asAny u .all) env = tableRemoveRows doFlush t ev .all env ∧
    (∀ rows, t ≠ u → ∃ p, removeRowsAny doFlush t ev (Select.asAny u (.these rows)) env = .error p ∧
      (p = .wrongRows ↔ ((S t).kind = .consistent ∨ (S t).kind = .sorted) ∧ env.reads t = 0 ∧ env.writer t = false)) := by
  have own : ∀ x : AnySel T, ∀ s : Select (List Nat), downcastSel t x = .ok s →
      removeRowsAny doFlush t ev x env = tableRemoveRows doFlush t ev s env := by
    intro x s hx
    unfold removeRowsAny tableRemoveRows
    rw [hx]
    generalize hk : (S t).kind = k
    cases hl : env.lock t with
    | error e => cases k <;> rfl
    | ok p => cases k <;> simp only [bind, Except.bind, hk, hl]
  refine ⟨own _ _ (C74_typed t t s).1, own _ _ rfl, ?_⟩
  intro rows hu
  have hw := (C74_typed t u s).2.1 rows hu
  unfold removeRowsAny
  rw [hw]
  by_cases hl : env.reads t ≠ 0 ∨ env.writer t = true
  · have : env.lock t = .error .deadlock := if_pos hl
    rw [this]
    generalize (S t).kind = k
    have hn : ¬ (env.reads t = 0 ∧ env.writer t = false) := by
      rintro ⟨h1, h2⟩
      rcases hl with h | h
      · exact h h1
      · rw [h2] at h; cases h
    cases k
    all_goals first
      | exact ⟨.deadlock, rfl, ⟨fun h => (by cases h), fun h => absurd h.2 hn⟩⟩
      | exact ⟨.notRemovable, rfl, by simp⟩
  · have : env.lock t = .ok _ := if_neg hl
    rw [this]
    have h1 : env.reads t = 0 := by
      by_contra h; exact hl (Or.inl h)
    have h2 : env.writer t = false := by
      cases h : env.writer t
      · rfl
      · exact absurd (Or.inr h) hl
    generalize (S t).kind = k
    cases k
    all_goals first
      | exact ⟨.wrongRows, rfl, by simp [h1, h2]⟩
      | exact ⟨.notRemovable, rfl, by simp⟩

/-- C74: `generic_select` and `extract` are the typed functions on the table's own rows, and refuse other tables' rows. -/
theorem C74_select_extract (cfg : Cfg S) (n : Nat) (t u : T) (ev : Event) (s : Select (List Nat)) (env : Env S) (sig : Sig)
    (hfree : env.writer t = false) :
    genericSelect cfg n t ev (s.asAny t) env = readSelect cfg n t ev s env ∧
    extractAny t sig (s.asAny t) (env.tbl t) = (env.tbl t).extractSelection sig s ∧
    (∀ rows, t ≠ u → genericSelect cfg n t ev (Select.asAny u (.these rows)) env = .error .wrongRows ∧
      extractAny t sig (Select.asAny u (.these rows)) (env.tbl t) = .error .wrongRows) := by
  refine ⟨?_, ?_, ?_⟩
  · unfold genericSelect readSelect
    rw [(C74_typed t t s).1]
    have : env.peek t = .ok (env.tbl t) := by unfold Env.peek; rw [hfree]; rfl
    rw [this]
    rfl
  · unfold extractAny
    rw [(C74_typed t t s).1]
    rfl
  · intro rows h
    constructor
    · unfold genericSelect; rw [(C74_typed t u s).2.1 rows h]; rfl
    · unfold extractAny; rw [(C74_typed t u s).2.1 rows h]; rfl

/-- An iterator over the ids below `n`. -/
def belowIter (n : Nat) : RowIter :=
  { σ := Nat, next := fun k => if k < n then some (k, k + 1) else none, hint := fun k => (n - k, some (n - k)) }

example : Yields (SelectIter.iter (belowIter 2)) ((Select.all : Select (List Nat)).iterOrAll (belowIter 2) fun _ => (0 : Nat)) [0, 1] ∧
    Yields (SelectIter.iter (belowIter 2)) ((Select.these [7, 3, 7]).iterOrAll (belowIter 2) fun _ => (0 : Nat)) [7, 3, 7] := by
  refine ⟨(C74_iter_or_all (belowIter 2) .all (fun _ => (0 : Nat)) _).1.2 ?_, (C74_iter_or_all (belowIter 2) _ _ _).1.2 rfl⟩
  exact .item (s' := (1 : Nat)) rfl (.item (s' := (2 : Nat)) rfl (.done rfl))

/-- Two element types; three numbers at address 5. -/
def demoMemory : Memory :=
  { Ty := Bool, dec := inferInstance, Elem := fun b => if b then Nat else Bool,
    at_ := fun a => if a = 5 then some ⟨true, ([4, 8, 15] : List Nat)⟩ else none }

example : ∃ s : SliceOf demoMemory true, s.elems = ([4, 8] : List Nat) ∧
    (AnySlice.from s).downcast (false : Bool) = .ok none :=
  ⟨{ ptr := 5, store := ([4, 8, 15] : List Nat), here := rfl, len := 2, fits := (by decide : 2 ≤ 3) }, rfl, rfl⟩

end V11
