import Verif.Model.RowId
import Verif.Props.Demo
import Mathlib.Order.Compare

/-!
# Row ids as values (C73)
-/

set_option linter.unusedSectionVars false
set_option linter.unusedVariables false

namespace V11
variable {I : IdTy} {τ : Type}

theorem RowId.ext' {a b : RowId I} (h : a.i = b.i) : a = b := by
  cases a; cases b; cases h; rfl

/-- C73: `==` and the four mixed comparisons between checked and generic ids compare the numbers and nothing else — the
borrowed table takes no part, so ids checked against different tables can be equal. `cmp` is a total order that agrees
with `==`. -/
theorem C73_order (a b c : SomeId I τ) :
    (a.eq b = true ↔ a.uncheck = b.uncheck) ∧
    (a.cmp b = .lt ↔ a.uncheck.i < b.uncheck.i) ∧
    (a.cmp b = .eq ↔ a.eq b = true) ∧
    (a.cmp b = .gt ↔ b.cmp a = .lt) ∧
    (a.cmp b = .lt → b.cmp c = .lt → a.cmp c = .lt) := by
  have key : ∀ x y : SomeId I τ, x.cmp y = compare x.uncheck.i y.uncheck.i := by
    intro x y; cases x <;> cases y <;> rfl
  have heq : a.eq b = true ↔ a.uncheck.i = b.uncheck.i := by
    cases a <;> cases b <;> simp [SomeId.eq, SomeId.uncheck]
  refine ⟨⟨fun h => RowId.ext' (heq.1 h), fun h => heq.2 (by rw [h])⟩, ?_, ?_, ?_, ?_⟩
  · rw [key]; exact compare_lt_iff_lt
  · rw [key, heq]; exact compare_eq_iff_eq
  · rw [key, key, compare_lt_iff_lt]; exact compare_gt_iff_gt
  · rw [key, key, key, compare_lt_iff_lt, compare_lt_iff_lt, compare_lt_iff_lt]; exact lt_trans

/-- C73: `next` is the least greater id and `prev` the greatest smaller one; each undoes the other. -/
theorem C73_next_prev (a b : RowId I) (hc : I.checks = true) :
    (a.next = .ok b ↔ a.i < b.i ∧ ∀ c : RowId I, a.i < c.i → b.i ≤ c.i) ∧
    (a.prev = .ok b ↔ b.i < a.i ∧ ∀ c : RowId I, c.i < a.i → c.i ≤ b.i) ∧
    (a.next = .ok b ↔ b.prev = .ok a) ∧
    (a.next = .error .idxOverflow ↔ a = RowId.default I) ∧
    (a.prev = .error .idxOverflow ↔ a.i = I.lo) := by
  have ha := a.inTy
  have hb := b.inTy
  have up : a.next = .ok b ↔ b.i = a.i + 1 := by
    unfold RowId.next RowId.arith
    rw [hc]
    constructor
    · intro h
      split at h
      · injection h with h; rw [← h]
      · cases h
    · intro h
      rw [dif_pos (by omega)]
      exact congrArg Except.ok (RowId.ext' h.symm)
  have down : ∀ x y : RowId I, x.prev = .ok y ↔ y.i = x.i - 1 := by
    intro x y
    have hy := y.inTy
    unfold RowId.prev RowId.arith
    rw [hc]
    constructor
    · intro h
      split at h
      · injection h with h; rw [← h]
      · cases h
    · intro h
      rw [dif_pos (by omega)]
      exact congrArg Except.ok (RowId.ext' h.symm)
  refine ⟨?_, ?_, ?_, ?_, ?_⟩
  · rw [up]
    constructor
    · intro h; exact ⟨by omega, fun c hc => by omega⟩
    · rintro ⟨h1, h2⟩
      have := h2 ⟨a.i + 1, by omega, by omega⟩ (by simp only []; omega)
      simp only [] at this
      omega
  · rw [down]
    constructor
    · intro h; exact ⟨by omega, fun c hc => by omega⟩
    · rintro ⟨h1, h2⟩
      have := h2 ⟨a.i - 1, by omega, by omega⟩ (by simp only []; omega)
      simp only [] at this
      omega
  · rw [up, down]; omega
  · unfold RowId.next RowId.arith
    rw [hc]
    constructor
    · intro h
      split at h
      · cases h
      · apply RowId.ext'; simp only [RowId.default]; omega
    · intro h
      rw [dif_neg]
      · rfl
      · rw [h]; simp only [RowId.default]; omega
  · unfold RowId.prev RowId.arith
    rw [hc]
    constructor
    · intro h
      split at h
      · cases h
      · omega
    · intro h
      rw [dif_neg (by omega)]
      rfl

/-- C73: without overflow checks (the release profile) `next` of the greatest id is the least one, and `prev` of the
least is the greatest: the order is not respected. -/
theorem C73_wraps (hc : I.checks = false) :
    (∃ b, (RowId.default I).next = .ok b ∧ b.i = I.lo ∧ b.i < (RowId.default I).i) ∧
    ∀ a : RowId I, a.i = I.lo → a.prev = .ok (RowId.default I) := by
  have := I.zero
  constructor
  · refine ⟨⟨I.lo, by omega, by omega⟩, ?_, rfl, ?_⟩
    · unfold RowId.next RowId.arith
      rw [hc, dif_neg (by simp only [RowId.default]; omega)]
      simp only [Bool.false_eq_true, if_false]
      rw [if_pos (by simp only [RowId.default]; omega)]
    · simp only [RowId.default]; omega
  · intro a ha
    unfold RowId.prev RowId.arith
    rw [hc, dif_neg (by omega)]
    simp only [Bool.false_eq_true, if_false]
    rw [if_neg (by omega)]
    rfl

/-- C73: `from_usize` and `to_usize` are inverse on the numbers the type can hold, and panic on the others; ids keep the
order of the numbers. -/
theorem C73_usize (n : Nat) (hn : n ≤ I.usize) (a : RowId I) :
    (RowId.fromUsize I n = .ok a ↔ a.toUsize = .ok n) ∧
    ((∃ b, RowId.fromUsize I n = .ok b) ↔ (n : Int) ≤ I.hi) ∧
    (RowId.fromUsize I n = .error .idxOverflow ↔ I.hi < n) ∧
    ((∃ m, a.toUsize = .ok m) ↔ 0 ≤ a.i ∧ a.i ≤ I.usize) := by
  have ha := a.inTy
  refine ⟨?_, ?_, ?_, ?_⟩
  · unfold RowId.fromUsize RowId.toUsize
    constructor
    · intro h
      split at h
      · injection h with h
        rw [← h]
        simp only []
        rw [if_pos (by omega)]
        simp
      · cases h
    · intro h
      split at h
      · injection h with h
        rw [dif_pos (by omega)]
        apply congrArg Except.ok
        apply RowId.ext'
        simp only []
        omega
      · cases h
  · unfold RowId.fromUsize
    constructor
    · rintro ⟨b, h⟩
      split at h
      · assumption
      · cases h
    · intro h; exact ⟨_, dif_pos h⟩
  · unfold RowId.fromUsize
    constructor
    · intro h
      split at h
      · cases h
      · omega
    · intro h; exact dif_neg (by omega)
  · unfold RowId.toUsize
    constructor
    · rintro ⟨b, h⟩
      split at h
      · assumption
      · cases h
    · intro h; exact ⟨_, if_pos h⟩

/-- C73: a serialised id reads back as itself; any other number either reads back as the id with that number or is
rejected, and it is rejected exactly when the id type cannot hold it. No table is consulted. -/
theorem C73_serde (a b : RowId I) (x : Int) :
    RowId.de I a.ser = some a ∧ (a.ser = b.ser → a = b) ∧
    (RowId.de I x = some a ↔ x = a.i) ∧ (RowId.de I x = none ↔ x < I.lo ∨ I.hi < x) := by
  have ha := a.inTy
  refine ⟨?_, fun h => RowId.ext' h, ?_, ?_⟩
  · unfold RowId.de RowId.ser; rw [dif_pos ha]
  · unfold RowId.de
    constructor
    · intro h
      split at h
      · injection h with h; rw [← h]
      · cases h
    · intro h
      subst h
      rw [dif_pos ha]
  · unfold RowId.de
    constructor
    · intro h
      split at h
      · cases h
      · omega
    · intro h
      rw [dif_neg (by omega)]

/-- C73: the "undefined" id is the greatest id of its type, but it is not always undefined: it is a valid id of exactly
those tables that are full and whose last row is live. -/
theorem C73_default {S : Schema} [LS : LawfulSchema S] {K : Type} [LinearOrder K] {key : Row S → K} (c : Bool) (t : Tbl S)
    (ht : Reach key c t) (a : RowId I) :
    a.i ≤ (RowId.default I).i ∧
    (t.check S.max = .ok S.max ↔ t.len = S.max + 1 ∧ t.contains S.max = true) ∧
    (t.len ≤ S.max → t.check S.max = .error .indexOob ∧ t.view S.max = none) := by
  obtain ⟨L, d, h⟩ := ht.aligned
  have hlen : t.len ≤ S.max + 1 := by
    have := h.rep.le
    rw [h.rep.len]
    exact this
  refine ⟨a.inTy.2, ?_, ?_⟩
  · unfold Tbl.check Tbl.contains Tbl.isDeleted
    by_cases h1 : t.len ≤ S.max
    · rw [if_pos h1]
      constructor
      · intro h; cases h
      · rintro ⟨h, -⟩; omega
    · rw [if_neg h1]
      have h2 : t.len = S.max + 1 := by omega
      cases hk : decide (S.kind = .consistent) <;> cases hf : t.free.contains S.max <;>
        simp_all
  · intro hl
    refine ⟨?_, ?_⟩
    · unfold Tbl.check; rw [if_pos hl]
    · unfold Tbl.view Tbl.contains
      rw [if_neg]
      have : ¬ S.max < t.len := by omega
      simp [this]

/-- A table of two rows with ids of one bit: its last row has the "undefined" id. -/
example : ∃ t : Tbl (Demo .consistent 1), Reach demoKey true t ∧ t.check 1 = .ok 1 ∧
    (RowId.default (IdTy.unsigned 1 255 true (by decide))).i = 1 ∧ (t.view 1).map demoVals = some (6, false, 2) := by
  refine ⟨match runOps demoKey Tbl.new ([.push (demoRow 5 true 1), .push (demoRow 6 false 2)] : List (TOp (Demo .consistent 1))) with
    | .ok t => t | .error _ => Tbl.new, ?_, by decide, by decide, by decide⟩
  refine Reach.ofOps (ops := [.push (demoRow 5 true 1), .push (demoRow 6 false 2)]) Reach.new ?_ rfl
  intro op hop
  simp only [List.mem_cons, List.not_mem_nil, or_false] at hop
  rcases hop with rfl | rfl <;> simp [TOp.Allowed, TOp.clears]

example : (IdTy.unsigned 255 65535 true (by decide)).checks = true ∧ (IdTy.unsigned 255 65535 false (by decide)).checks = false ∧
    (200 : Nat) ≤ (IdTy.unsigned 255 65535 true (by decide)).usize ∧
    (SomeId.checked (⟨3, by decide⟩ : RowId (IdTy.unsigned 255 65535 true (by decide))) "here").cmp (.generic ⟨10, by decide⟩) = .lt ∧
    (SomeId.checked (⟨3, by decide⟩ : RowId (IdTy.unsigned 255 65535 true (by decide))) "here").eq (.checked ⟨3, by decide⟩ "there") = true :=
  ⟨rfl, rfl, by decide, by decide, by decide⟩

end V11
