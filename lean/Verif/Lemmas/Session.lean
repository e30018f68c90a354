import Verif.Lemmas.Flush
import Verif.Spec.Session

/-!
# What a sequence of calls on one write lock leaves behind
-/

set_option linter.unusedSimpArgs false
set_option linter.unusedSectionVars false
set_option linter.unusedVariables false

namespace V11
section
variable {S : Schema} [LS : LawfulSchema S] {K : Type} [LinearOrder K] {key : Row S → K}

theorem select_push_isEmpty (s : Select (List Nat)) (i : Nat) : (s.push i).isEmpty = false := by
  cases s <;> simp [Select.push, Select.isEmpty]

/-- The bookkeeping of a lock, apart from the table. -/
structure Book (w w' : W S) (adds deletes touches : Bool) : Prop where
  pushed : w'.pushed = (w.pushed || adds)
  delete : w'.delete = (w.delete || deletes)
  empty : w'.changes.isEmpty = (w.changes.isEmpty && !touches)

theorem Book.trans {w w' w'' : W S} {a b c a' b' c' : Bool} (h : Book w w' a b c) (h' : Book w' w'' a' b' c') :
    Book w w'' (a || a') (b || b') (c || c') := by
  refine ⟨?_, ?_, ?_⟩
  · rw [h'.pushed, h.pushed, Bool.or_assoc]
  · rw [h'.delete, h.delete, Bool.or_assoc]
  · rw [h'.empty, h.empty]; cases w.changes.isEmpty <;> cases c <;> cases c' <;> rfl

theorem pushEnd_book (hk : S.kind = .consistent) {w w' : W S} {row : Row S} {i : Nat} (h : w.pushEnd row = .ok (w', i)) :
    Book w w' true false true := by
  unfold W.pushEnd at h
  cases e : w.tbl.pushOnly row with
  | error p => rw [e] at h; cases h
  | ok x =>
    rw [e, okBind] at h
    injection h with h
    injection h with h1 h2
    subst h1
    unfold W.eventAdd
    rw [if_pos hk]
    exact ⟨by simp, by simp, by simp [select_push_isEmpty]⟩

theorem push_book (hk : S.kind = .consistent) {w w' : W S} {row : Row S} {i : Nat} (h : w.push row = .ok (w', i)) :
    Book w w' true false true := by
  unfold W.push at h
  cases hf : w.tbl.free with
  | nil => rw [hf] at h; exact pushEnd_book hk h
  | cons old rest =>
    rw [hf] at h
    simp only [] at h
    unfold W.eventAdd at h
    rw [if_pos hk] at h
    simp only [] at h
    cases e : ({ w.tbl with free := BSet.erase old (old :: rest) } : Tbl S).swapOutRow old row with
    | error p => rw [e] at h; cases h
    | ok x =>
      rw [e, okBind] at h
      injection h with h
      injection h with h1 h2
      subst h1
      exact ⟨by simp, by simp, by simp [select_push_isEmpty]⟩

theorem pushArrayLoop_book (hk : S.kind = .consistent) (rows : List (Row S)) {w w' : W S} {last i : Nat}
    (h : w.pushArrayLoop last rows = .ok (w', i)) : Book w w' (!rows.isEmpty) false (!rows.isEmpty) := by
  induction rows generalizing w last with
  | nil =>
    unfold W.pushArrayLoop at h
    injection h with h; injection h with h1 h2; subst h1
    exact ⟨by simp, by simp, by simp⟩
  | cons r rs ih =>
    unfold W.pushArrayLoop at h
    cases e : w.pushEnd r with
    | error p => rw [e] at h; cases h
    | ok x =>
      obtain ⟨w1, i1⟩ := x
      rw [e, okBind] at h
      simpa using (pushEnd_book hk e).trans (ih h)

theorem pushArray_book (hk : S.kind = .consistent) (rows : List (Row S)) {w w' : W S} {x : Nat × Nat}
    (h : w.pushArray rows = .ok (w', x)) : Book w w' (!rows.isEmpty) false (!rows.isEmpty) := by
  cases rows with
  | nil =>
    unfold W.pushArray at h
    injection h with h; injection h with h1 h2; subst h1
    exact ⟨by simp, by simp, by simp⟩
  | cons r rs =>
    unfold W.pushArray at h
    simp only [] at h
    cases e : w.pushEnd r with
    | error p => rw [e] at h; cases h
    | ok y =>
      obtain ⟨w1, i1⟩ := y
      rw [e, okBind] at h
      simp only [] at h
      cases e2 : w1.pushArrayLoop i1 rs with
      | error p => rw [e2] at h; cases h
      | ok z =>
        obtain ⟨w2, i2⟩ := z
        rw [e2, okBind] at h
        simp only [] at h
        cases e3 : nextId S.max i2 with
        | error p => rw [e3] at h; cases h
        | ok v =>
          rw [e3, okBind] at h
          injection h with h; injection h with h1 h2; subst h1
          simpa using (pushEnd_book hk e).trans (pushArrayLoop_book hk rs e2)

theorem step_book (hk : S.kind = .consistent) {w w' : W S} {op : LOp S} (h : w.step key op = .ok w') :
    Book w w' op.adds op.deletes op.touches := by
  unfold W.step at h
  cases op with
  | push row =>
    simp only [] at h
    cases e : w.push row with
    | error p => rw [e] at h; cases h
    | ok x =>
      obtain ⟨w1, i⟩ := x
      rw [e, okBind] at h; injection h with h; subst h
      exact push_book hk e
  | pushArray rows =>
    simp only [] at h
    cases e : w.pushArray rows with
    | error p => rw [e] at h; cases h
    | ok x =>
      obtain ⟨w1, i⟩ := x
      rw [e, okBind] at h; injection h with h; subst h
      exact pushArray_book hk rows e
  | delete i =>
    simp only [W.deleteRow] at h
    rw [hk] at h
    simp only [] at h
    cases e : w.tbl.check i with
    | error p => rw [e] at h; cases h
    | ok x =>
      rw [e, okBind] at h; injection h with h; subst h
      unfold W.eventDel
      rw [if_pos hk]
      exact ⟨by simp [LOp.adds], by simp [LOp.deletes], by simp [LOp.touches, select_push_isEmpty]⟩
  | clear =>
    simp only [W.clear] at h
    rw [hk] at h
    injection h with h; subst h
    exact ⟨by simp [LOp.adds], by simp [LOp.deletes], by simp [LOp.touches, Select.isEmpty]⟩
  | select i =>
    injection h with h; subst h
    unfold W.select
    exact ⟨by simp [LOp.adds], by simp [LOp.deletes], by simp [LOp.touches, select_push_isEmpty]⟩
  | selectAll =>
    injection h with h; subst h
    unfold W.selectAll
    exact ⟨by simp [LOp.adds], by simp [LOp.deletes], by simp [LOp.touches, Select.isEmpty]⟩
  | set j i v =>
    simp only [W.setCell] at h
    cases e : w.tbl.setCell j i v with
    | error p => rw [e] at h; cases h
    | ok x =>
      rw [e, okBind] at h; injection h with h; subst h
      exact ⟨by simp [LOp.adds], by simp [LOp.deletes], by simp [LOp.touches]⟩
  | retain f =>
    simp only [] at h
    cases e : (TOp.retain f).run key w.tbl with
    | error p => rw [e] at h; cases h
    | ok x =>
      rw [e, okBind] at h; injection h with h; subst h
      exact ⟨by simp [LOp.adds], by simp [LOp.deletes], by simp [LOp.touches]⟩
  | visit f =>
    simp only [] at h
    cases e : (TOp.visit f).run key w.tbl with
    | error p => rw [e] at h; cases h
    | ok x =>
      rw [e, okBind] at h; injection h with h; subst h
      exact ⟨by simp [LOp.adds], by simp [LOp.deletes], by simp [LOp.touches]⟩
  | merge rows =>
    simp only [] at h
    cases e : (TOp.merge rows).run key w.tbl with
    | error p => rw [e] at h; cases h
    | ok x =>
      rw [e, okBind] at h; injection h with h; subst h
      exact ⟨by simp [LOp.adds], by simp [LOp.deletes], by simp [LOp.touches]⟩
  | removeRows ids =>
    simp only [] at h
    cases e : (TOp.removeRows ids).run key w.tbl with
    | error p => rw [e] at h; cases h
    | ok x =>
      rw [e, okBind] at h; injection h with h; subst h
      exact ⟨by simp [LOp.adds], by simp [LOp.deletes], by simp [LOp.touches]⟩

theorem steps_book (hk : S.kind = .consistent) {w w' : W S} (ops : List (LOp S)) (h : w.steps key ops = .ok w') :
    Book w w' (ops.any LOp.adds) (ops.any LOp.deletes) (ops.any LOp.touches) := by
  unfold W.steps at h
  induction ops generalizing w with
  | nil =>
    injection h with h; subst h
    exact ⟨by simp, by simp, by simp⟩
  | cons op ops ih =>
    rw [List.foldlM_cons] at h
    cases e : w.step key op with
    | error p => rw [e] at h; cases h
    | ok w1 =>
      rw [e, okBind] at h
      simpa using (step_book hk e).trans (ih h)

/-- Calls that only mark rows: the table is untouched and the marks are listed in order. -/
theorem steps_marks (hk : S.kind = .consistent) {w w' : W S} {rows : List Nat} (hw : w.changes = .these rows) (ops : List (LOp S))
    (hm : ∀ op ∈ ops, op.mark.isSome = true) (h : w.steps key ops = .ok w') :
    w'.tbl = w.tbl ∧ w'.changes = .these (rows ++ ops.filterMap LOp.mark) := by
  unfold W.steps at h
  induction ops generalizing w rows with
  | nil =>
    injection h with h; subst h
    simp [hw]
  | cons op ops ih =>
    rw [List.foldlM_cons] at h
    cases e : w.step key op with
    | error p => rw [e] at h; cases h
    | ok w1 =>
      rw [e, okBind] at h
      have h1 : ∃ i, op.mark = some i ∧ w1.tbl = w.tbl ∧ w1.changes = .these (rows ++ [i]) := by
        have := hm op (by simp)
        cases op with
        | delete i =>
          simp only [W.step, W.deleteRow] at e
          rw [hk] at e
          simp only [] at e
          cases e2 : w.tbl.check i with
          | error p => rw [e2] at e; cases e
          | ok x =>
            rw [e2, okBind] at e; injection e with e; subst e
            have hx : x = i := by
              unfold Tbl.check at e2
              split at e2
              · cases e2
              · split at e2
                · cases e2
                · injection e2 with e2; exact e2.symm
            subst hx
            unfold W.eventDel
            rw [if_pos hk]
            exact ⟨x, rfl, rfl, by simp [hw, Select.push]⟩
        | select i =>
          injection e with e; subst e
          exact ⟨i, rfl, rfl, by simp [W.select, hw, Select.push]⟩
        | _ => simp [LOp.mark] at this
      obtain ⟨i, a, b, c⟩ := h1
      obtain ⟨d1, d2⟩ := ih c (fun op h => hm op (by simp [h])) h
      refine ⟨d1.trans b, ?_⟩
      rw [d2, List.filterMap_cons, a]
      simp

/-- Deleting live rows succeeds. -/
theorem steps_delete_ok (hk : S.kind = .consistent) (w : W S) (rows : List Nat) (hl : ∀ i ∈ rows, w.tbl.contains i = true) :
    ∃ w', w.steps key (rows.map .delete) = .ok w' := by
  unfold W.steps
  induction rows generalizing w with
  | nil => exact ⟨w, rfl⟩
  | cons i rows ih =>
    rw [List.map_cons, List.foldlM_cons]
    have hc : w.tbl.check i = .ok i := by
      have := hl i (by simp)
      unfold Tbl.contains at this
      rw [if_pos hk] at this
      simp only [Bool.and_eq_true, decide_eq_true_eq, Bool.not_eq_true'] at this
      unfold Tbl.check Tbl.isDeleted
      rw [if_neg (by omega), if_neg (by rw [this.2]; simp)]
    have : w.step key (.delete i) = .ok (w.eventDel i) := by
      simp only [W.step, W.deleteRow]
      rw [hk]
      simp only []
      rw [hc, okBind]
    rw [this, okBind]
    have ht : (w.eventDel i).tbl = w.tbl := by unfold W.eventDel; rw [if_pos hk]
    exact ih (w.eventDel i) (by intro j hj; rw [ht]; exact hl j (by simp [hj]))

end
end V11
