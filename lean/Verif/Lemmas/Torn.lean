import Verif.Lemmas.Tear
import Verif.Lemmas.Rug

/-!
# Tables left by panics: no unchecked access is out of bounds
-/

set_option linter.unusedSimpArgs false
set_option linter.unusedSectionVars false
set_option linter.unusedVariables false

namespace V11

/-- The column and the ones before it have no index. -/
def BeforeIndex (S : Schema) (j : Fin (S.n + 1)) : Prop := ∀ i, i ≤ j → ¬ Indexed (S.C i)
/-- The first indexed column. -/
def FirstIndex (S : Schema) (j : Fin (S.n + 1)) : Prop := Indexed (S.C j) ∧ ∀ i, i < j → ¬ Indexed (S.C i)
/-- There is an indexed column before this one. -/
def AfterIndex (S : Schema) (j : Fin (S.n + 1)) : Prop := ∃ i, i < j ∧ Indexed (S.C i)

theorem exists_firstIndex {S : Schema} (j : Fin (S.n + 1)) (h : Indexed (S.C j)) : ∃ k, k ≤ j ∧ FirstIndex S k := by
  obtain ⟨m, hm⟩ : ∃ m, m = j.val := ⟨_, rfl⟩
  induction m using Nat.strong_induction_on generalizing j with
  | _ m ih =>
    by_cases hb : ∃ i, i < j ∧ Indexed (S.C i)
    · obtain ⟨i, hi, hx⟩ := hb
      obtain ⟨k, hk, hf⟩ := ih i.val (by rw [hm]; exact hi) i hx rfl
      exact ⟨k, le_of_lt (lt_of_le_of_lt hk hi), hf⟩
    · exact ⟨j, le_refl _, h, fun i hi hx => hb ⟨i, hi, hx⟩⟩

theorem index_cases {S : Schema} (j : Fin (S.n + 1)) : BeforeIndex S j ∨ FirstIndex S j ∨ AfterIndex S j := by
  by_cases ha : ∃ i, i < j ∧ Indexed (S.C i)
  · exact Or.inr (Or.inr ha)
  · by_cases hj : Indexed (S.C j)
    · exact Or.inr (Or.inl ⟨hj, fun i hi hx => ha ⟨i, hi, hx⟩⟩)
    · left
      intro i hi hx
      rcases lt_or_eq_of_le hi with h | rfl
      · exact ha ⟨i, h, hx⟩
      · exact hj hx

/-- The lengths of the columns. -/
structure Torn {S : Schema} (t : Tbl S) (c d : Nat) : Prop where
  before : ∀ j, BeforeIndex S j → (S.C j).len (t.cols j) = c
  first : ∀ j, FirstIndex S j → (S.C j).len (t.cols j) = d
  after : ∀ j, AfterIndex S j → (S.C j).len (t.cols j) = min d (S.max + 1)
  le : c ≤ d

/-- Some such lengths. -/
def IsTorn {S : Schema} (t : Tbl S) : Prop := ∃ c d, Torn t c d

variable {S : Schema} [LV : LeavesSchema S] [LN : LenSchema S]

instance (j : Fin (S.n + 1)) : LenLaws S.max (S.C j) := LN.law j

section
omit LV LN

theorem not_after_zero : ¬ AfterIndex S 0 := fun ⟨i, hi, _⟩ => absurd hi (Fin.not_lt_zero i)

theorem Torn.len_cases {t : Tbl S} {c d : Nat} (h : Torn t c d) :
    (BeforeIndex S 0 ∧ t.len = c) ∨ (FirstIndex S 0 ∧ t.len = d) := by
  rcases index_cases (S := S) 0 with h0 | h0 | h0
  · exact Or.inl ⟨h0, h.before 0 h0⟩
  · exact Or.inr ⟨h0, h.first 0 h0⟩
  · exact absurd h0 not_after_zero

theorem Torn.len_le {t : Tbl S} {c d : Nat} (h : Torn t c d) : t.len ≤ d := by
  have := h.le
  rcases h.len_cases with ⟨-, h0⟩ | ⟨-, h0⟩ <;> omega

/-- A column before the first index has as many rows as the table. -/
theorem Torn.len_before {t : Tbl S} {c d : Nat} (h : Torn t c d) {j : Fin (S.n + 1)} (hj : BeforeIndex S j) : t.len = c := by
  rcases h.len_cases with ⟨-, h0⟩ | ⟨h0, -⟩
  · exact h0
  · exact absurd h0.1 (hj 0 (Fin.zero_le j))

/-- Ids in range that the row-id type can hold are in range for every column. -/
theorem Torn.inRange {t : Tbl S} {c d : Nat} (h : Torn t c d) {i : Nat} (hi : i < t.len) (j : Fin (S.n + 1))
    (hm : i ≤ S.max ∨ ¬ AfterIndex S j) : i < (S.C j).len (t.cols j) := by
  have := h.len_le
  rcases index_cases (S := S) j with hj | hj | hj
  · rw [h.before j hj, ← h.len_before hj]; exact hi
  · rw [h.first j hj]; omega
  · rw [h.after j hj]
    rcases hm with hm | hm
    · omega
    · exact absurd hj hm

theorem indexed_iff_notBefore {j : Fin (S.n + 1)} (hj : BeforeIndex S j) : ¬ Indexed (S.C j) := hj j (le_refl j)

/-- One call per column, from what it does to each column. -/
theorem Torn.seq {t : Tbl S} {c d c' d1 d2 : Nat} {α : Fin (S.n + 1) → Type}
    {f : (j : Fin (S.n + 1)) → (S.C j).σ → (S.C j).σ × R (α j)} {OK : Prop} (h : Torn t c d)
    (hb : ∀ j, BeforeIndex S j → ∃ s x, f j (t.cols j) = (s, .ok x) ∧ (S.C j).len s = c')
    (hf : OK → ∀ j, FirstIndex S j → ∃ s x, f j (t.cols j) = (s, .ok x) ∧ (S.C j).len s = d1)
    (he : ¬ OK → ∀ j, FirstIndex S j → ∃ s, f j (t.cols j) = (s, .error .idxOverflow) ∧ (S.C j).len s = d2)
    (ha : OK → ∀ j, AfterIndex S j → ∃ s x, f j (t.cols j) = (s, .ok x) ∧ (S.C j).len s = min d1 (S.max + 1))
    (l1 : OK → c' ≤ d1) (l2 : ¬ OK → c' ≤ d2 ∧ min d2 (S.max + 1) = min d (S.max + 1)) :
    IsTorn { t with cols := (seqTear (S.n + 1) t.cols f).1 } ∧
      ((∃ x, (seqTear (S.n + 1) t.cols f).2 = .ok x) ∧ (OK ∨ ∀ j, BeforeIndex S j) ∨
        ¬ OK ∧ (∃ j, FirstIndex S j) ∧ (seqTear (S.n + 1) t.cols f).2 = .error .idxOverflow) := by
  rcases seqTear_cases t.cols f with ⟨x, h1, h2⟩ | ⟨k, p, h1, h2, h3, h4, h5⟩
  · by_cases hok : OK
    · refine ⟨⟨c', d1, ⟨?_, ?_, ?_, l1 hok⟩⟩, Or.inl ⟨⟨x, h1⟩, Or.inl hok⟩⟩
      · intro j hj
        obtain ⟨s, y, e1, e2⟩ := hb j hj
        show (S.C j).len ((seqTear (S.n + 1) t.cols f).1 j) = c'
        rw [(h2 j).1, e1]; exact e2
      · intro j hj
        obtain ⟨s, y, e1, e2⟩ := hf hok j hj
        show (S.C j).len ((seqTear (S.n + 1) t.cols f).1 j) = d1
        rw [(h2 j).1, e1]; exact e2
      · intro j hj
        obtain ⟨s, y, e1, e2⟩ := ha hok j hj
        show (S.C j).len ((seqTear (S.n + 1) t.cols f).1 j) = _
        rw [(h2 j).1, e1]; exact e2
    · have hno : ∀ j, ¬ FirstIndex S j := by
        intro j hj
        obtain ⟨s, e1, -⟩ := he hok j hj
        have := (h2 j).2
        rw [e1] at this
        cases this
      have hno' : ∀ j, ¬ AfterIndex S j := by
        rintro j ⟨i, hi, hx⟩
        obtain ⟨k, -, hk⟩ := exists_firstIndex i hx
        exact hno k hk
      have hall : ∀ j, BeforeIndex S j := by
        intro j
        rcases index_cases (S := S) j with hj | hj | hj
        · exact hj
        · exact absurd hj (hno j)
        · exact absurd hj (hno' j)
      refine ⟨⟨c', c', ⟨?_, fun j hj => absurd hj (hno j), fun j hj => absurd hj (hno' j), le_refl _⟩⟩,
        Or.inl ⟨⟨x, h1⟩, Or.inr hall⟩⟩
      intro j hj
      obtain ⟨s, y, e1, e2⟩ := hb j hj
      show (S.C j).len ((seqTear (S.n + 1) t.cols f).1 j) = c'
      rw [(h2 j).1, e1]; exact e2
  · have hk : FirstIndex S k ∧ ¬ OK := by
      rcases index_cases (S := S) k with hk | hk | hk
      · obtain ⟨s, y, e1, -⟩ := hb k hk
        rw [e1] at h2; cases h2
      · refine ⟨hk, fun hok => ?_⟩
        obtain ⟨s, y, e1, -⟩ := hf hok k hk
        rw [e1] at h2; cases h2
      · exfalso
        obtain ⟨i, hi, hx⟩ := hk
        obtain ⟨i', hi', hf'⟩ := exists_firstIndex i hx
        obtain ⟨y, hy⟩ := h4 i' (lt_of_le_of_lt hi' hi)
        by_cases hok : OK
        · obtain ⟨s, y, e1, -⟩ := ha hok k ⟨i, hi, hx⟩
          rw [e1] at h2; cases h2
        · obtain ⟨s, e1, -⟩ := he hok i' hf'
          rw [e1] at hy; cases hy
    obtain ⟨hk, hok⟩ := hk
    obtain ⟨sk, ek, lk⟩ := he hok k hk
    have hp : p = .idxOverflow := by
      rw [ek] at h2; injection h2 with h2; exact h2.symm
    subst hp
    refine ⟨⟨c', d2, ⟨?_, ?_, ?_, (l2 hok).1⟩⟩, Or.inr ⟨hok, ⟨k, hk⟩, h1⟩⟩
    · intro j hj
      obtain ⟨s, y, e1, e2⟩ := hb j hj
      have hjk : j ≤ k := by
        by_contra hlt
        exact hj k (le_of_lt (not_le.1 hlt)) hk.1
      show (S.C j).len ((seqTear (S.n + 1) t.cols f).1 j) = c'
      rw [h3 j hjk, e1]; exact e2
    · intro j hj
      obtain ⟨s, e1, e2⟩ := he hok j hj
      have hjk : j ≤ k := by
        by_contra hlt
        exact hj.2 k (not_le.1 hlt) hk.1
      show (S.C j).len ((seqTear (S.n + 1) t.cols f).1 j) = d2
      rw [h3 j hjk, e1]; exact e2
    · intro j hj
      have hkj : k < j := by
        obtain ⟨i, hi, hx⟩ := hj
        by_contra hle
        exact hk.2 i (lt_of_lt_of_le hi (not_lt.1 hle)) hx
      show (S.C j).len ((seqTear (S.n + 1) t.cols f).1 j) = _
      rw [h5 j hkj, h.after j hj, (l2 hok).2]

end

/-! ## Programs -/

/-- Not an unchecked access out of bounds, nor a checked one. -/
def InBounds {α : Type} (r : R α) : Prop := r ≠ .error .ub ∧ r ≠ .error .vecOob

/-- From a torn table satisfying `P`, the program leaves a torn table, makes no access out of bounds, and if it returns
`a` then `Q a` holds of the table. -/
def Tri {α : Type} (P : Tbl S → Prop) (x : Cr S α) (Q : α → Tbl S → Prop) : Prop :=
  ∀ t, IsTorn t → P t → IsTorn (x t).1 ∧ InBounds (x t).2 ∧ ∀ a, (x t).2 = .ok a → Q a (x t).1

/-- The trivial condition. -/
abbrev Any {S : Schema} : Tbl S → Prop := fun _ => True

section
omit LV LN
variable {α β : Type} {P P' : Tbl S → Prop}

theorem InBounds.ok {a : α} : InBounds (.ok a : R α) := ⟨by simp, by simp⟩

theorem Tri.bind {x : Cr S α} {f : α → Cr S β} {Q : α → Tbl S → Prop} {Q' : β → Tbl S → Prop} (hx : Tri P x Q)
    (hf : ∀ a, Tri (Q a) (f a) Q') : Tri P (x >>= f) Q' := by
  intro t ht hp
  obtain ⟨h1, h2, h3⟩ := hx t ht hp
  have e : (x >>= f) t = match x t with | (t, .ok a) => f a t | (t, .error p) => (t, .error p) := rfl
  rw [e]
  cases hr : x t with
  | mk t' r =>
    rw [hr] at h1 h2 h3
    cases r with
    | ok a => exact hf a t' h1 (h3 a rfl)
    | error p =>
      refine ⟨h1, ⟨?_, ?_⟩, fun a ha => nomatch ha⟩
      · intro hh; injection hh with hh; subst hh; exact h2.1 rfl
      · intro hh; injection hh with hh; subst hh; exact h2.2 rfl

theorem Tri.ret {a : α} {Q : α → Tbl S → Prop} (h : ∀ t, P t → Q a t) : Tri P (Cr.ret a) Q :=
  fun t ht hp => ⟨ht, InBounds.ok, fun b hb => by injection hb with hb; subst hb; exact h t hp⟩

theorem Tri.fail {p : Panic} {Q : α → Tbl S → Prop} (h1 : p ≠ .ub) (h2 : p ≠ .vecOob) : Tri P (Cr.fail p) Q :=
  fun t ht hp => ⟨ht, ⟨fun h => h1 (by injection h), fun h => h2 (by injection h)⟩, fun b hb => nomatch hb⟩

theorem Tri.look {f : Tbl S → R α} {Q : α → Tbl S → Prop} (hb : ∀ t, IsTorn t → P t → InBounds (f t))
    (hq : ∀ t a, IsTorn t → P t → f t = .ok a → Q a t) : Tri P (Cr.look f) Q :=
  fun t ht hp => ⟨ht, hb t ht hp, fun a ha => hq t a ht hp ha⟩

theorem Tri.lift {r : R α} {Q : α → Tbl S → Prop} (hb : InBounds r) (hq : ∀ t a, P t → r = .ok a → Q a t) :
    Tri P (Cr.lift r) Q :=
  fun t ht hp => ⟨ht, hb, fun a ha => hq t a hp ha⟩

theorem Tri.weaken {x : Cr S α} {Q Q' : α → Tbl S → Prop} (hx : Tri P x Q) (hp : ∀ t, P' t → P t)
    (hq : ∀ a t, Q a t → Q' a t) : Tri P' x Q' := by
  intro t ht h
  obtain ⟨h1, h2, h3⟩ := hx t ht (hp t h)
  exact ⟨h1, h2, fun a ha => hq a _ (h3 a ha)⟩

theorem Tri.ite {b : Prop} [Decidable b] {x y : Cr S α} {Q : α → Tbl S → Prop} (hx : b → Tri P x Q) (hy : ¬ b → Tri P y Q) :
    Tri P (if b then x else y) Q := by
  by_cases h : b
  · rw [if_pos h]; exact hx h
  · rw [if_neg h]; exact hy h

theorem fromUsize_inBounds (m i : Nat) : InBounds (fromUsize m i) := by
  unfold fromUsize; split
  · exact InBounds.ok
  · exact ⟨by simp, by simp⟩

theorem fromUsize_le {m i a : Nat} (h : fromUsize m i = .ok a) : a = i ∧ i ≤ m := by
  unfold fromUsize at h; split at h
  · injection h with h; exact ⟨h.symm, by assumption⟩
  · cases h

theorem nextId_inBounds (m i : Nat) : InBounds (nextId m i) := by
  unfold nextId; split
  · exact InBounds.ok
  · exact ⟨by simp, by simp⟩

theorem nextId_le {m i a : Nat} (h : nextId m i = .ok a) : a = i + 1 ∧ a ≤ m := by
  unfold nextId at h; split at h
  · injection h with h; subst h; exact ⟨rfl, by assumption⟩
  · cases h

theorem check_ok {t : Tbl S} {i a : Nat} (h : t.check i = .ok a) : a = i ∧ i < t.len := by
  unfold Tbl.check at h
  split at h
  · cases h
  · split at h
    · cases h
    · injection h with h; exact ⟨h.symm, by omega⟩

theorem check_inBounds (t : Tbl S) (i : Nat) : InBounds (t.check i) := by
  unfold Tbl.check
  split
  · exact ⟨by simp, by simp⟩
  · split
    · exact ⟨by simp, by simp⟩
    · exact InBounds.ok

/-- The check of a row id. -/
theorem Tri.check {i : Nat} : Tri P (Cr.look (Tbl.check · i)) (fun a t => a = i ∧ i < t.len ∧ P t) :=
  Tri.look (fun t _ _ => check_inBounds t i) (fun t a _ hp h => ⟨(check_ok h).1, (check_ok h).2, hp⟩)

end

/-- `get_row` is in bounds for every id the row-id type can hold. -/
theorem Torn.getRow {t : Tbl S} (h : IsTorn t) {i : Nat} (hm : i ≤ S.max) : InBounds (t.getRow i) := by
  obtain ⟨c, d, h⟩ := h
  unfold Tbl.getRow
  cases hc : t.check i with
  | error p =>
    rw [errBind]
    have := check_inBounds t i
    rw [hc] at this
    exact ⟨fun hh => this.1 (by injection hh with hh; rw [hh]), fun hh => this.2 (by injection hh with hh; rw [hh])⟩
  | ok a =>
    obtain ⟨rfl, hi⟩ := check_ok hc
    rw [okBind]
    have : ∀ j, ∃ e, (S.C j).index (t.cols j) a = .ok e := fun j => (LN.law j).index (h.inRange hi j (Or.inl hm))
    unfold Tbl.rowAt
    rw [seqFin_ok (g := fun j => (this j).choose) (fun j => (this j).choose_spec)]
    exact InBounds.ok

theorem InBounds.overflow {α : Type} : InBounds (.error .idxOverflow : R α) := ⟨by simp, by simp⟩

/-- From what a call per column does, the triple. -/
theorem tri_cols {f : (j : Fin (S.n + 1)) → (S.C j).σ → (S.C j).σ × R Unit} {t : Tbl S}
    (h : IsTorn { t with cols := (seqTear (S.n + 1) (α := fun _ => Unit) t.cols f).1 } ∧
      ((∃ x, (seqTear (S.n + 1) (α := fun _ => Unit) t.cols f).2 = .ok x) ∨
        (seqTear (S.n + 1) (α := fun _ => Unit) t.cols f).2 = .error .idxOverflow)) :
    IsTorn (Cr.cols f t).1 ∧ InBounds (Cr.cols f t).2 := by
  refine ⟨h.1, ?_⟩
  show InBounds ((seqTear (S.n + 1) (α := fun _ => Unit) t.cols f).2.map fun _ => ())
  rcases h.2 with ⟨x, hx⟩ | hx
  · rw [hx]; exact InBounds.ok
  · rw [hx]; exact InBounds.overflow

theorem Tri.clearRaw : Tri Any (Cr.clearRaw (S := S)) (fun _ _ => True) := by
  rintro t ⟨c, d, h⟩ -
  have := h.seq (f := fun j s => colStep ((S.C j).clear s) s) (OK := True) (c' := 0) (d1 := 0) (d2 := 0)
    (fun j _ => by
      obtain ⟨s, e1, e2⟩ := (LN.law j).clear (t.cols j)
      exact ⟨s, (), by simp only [colStep, e1], e2⟩)
    (fun _ j _ => by
      obtain ⟨s, e1, e2⟩ := (LN.law j).clear (t.cols j)
      exact ⟨s, (), by simp only [colStep, e1], e2⟩)
    (fun h => absurd trivial h)
    (fun _ j _ => by
      obtain ⟨s, e1, e2⟩ := (LN.law j).clear (t.cols j)
      exact ⟨s, (), by simp only [colStep, e1], by simpa using e2⟩)
    (fun _ => le_refl _) (fun h => absurd trivial h)
  obtain ⟨a, b⟩ := tri_cols ⟨this.1, this.2.imp (fun h => h.1) (fun h => h.2.2)⟩
  exact ⟨a, b, fun _ _ => trivial⟩

theorem Tri.pushCols (row : Row S) :
    Tri Any (Cr.cols (S := S) fun j s => colStep ((S.C j).push s (row j)) (Leaves.push s (row j))) (fun _ _ => True) := by
  rintro t ⟨c, d, h⟩ -
  have hle := h.le
  have := h.seq (f := fun j s => colStep ((S.C j).push s (row j)) (Leaves.push s (row j))) (OK := d ≤ S.max)
    (c' := c + 1) (d1 := d + 1) (d2 := d + 1)
    (fun j hj => by
      obtain ⟨s, e1, e2⟩ := (LN.law j).push (s := t.cols j) (row j) (fun hx => absurd hx (hj j (le_refl j)))
      exact ⟨s, (), by simp only [colStep, e1], by rw [e2, h.before j hj]⟩)
    (fun hd j hj => by
      obtain ⟨s, e1, e2⟩ := (LN.law j).push (s := t.cols j) (row j) (fun _ => by rw [h.first j hj]; exact hd)
      exact ⟨s, (), by simp only [colStep, e1], by rw [e2, h.first j hj]⟩)
    (fun hd j hj => by
      obtain ⟨e1, e2⟩ := (LN.law j).push_err (s := t.cols j) (row j) hj.1 (by rw [h.first j hj]; omega)
      exact ⟨Leaves.push (t.cols j) (row j), by simp only [colStep, e1], by rw [e2, h.first j hj]⟩)
    (fun hd j hj => by
      obtain ⟨s, e1, e2⟩ := (LN.law j).push (s := t.cols j) (row j) (fun _ => by rw [h.after j hj]; omega)
      exact ⟨s, (), by simp only [colStep, e1], by rw [e2, h.after j hj]; omega⟩)
    (fun _ => by omega) (fun _ => ⟨by omega, by omega⟩)
  obtain ⟨a, b⟩ := tri_cols ⟨this.1, this.2.imp (fun h => h.1) (fun h => h.2.2)⟩
  exact ⟨a, b, fun _ _ => trivial⟩

omit LV LN in
theorem last_inBounds (t : Tbl S) : InBounds t.last := by
  unfold Tbl.last
  split
  · exact InBounds.ok
  · unfold fromUsize
    split
    · rw [okBind]; exact InBounds.ok
    · rw [errBind]; exact InBounds.overflow

theorem Tri.pushOnly (row : Row S) : Tri Any (Cr.pushOnly (S := S) row) (fun _ _ => True) := by
  refine Tri.bind (Tri.pushCols row) (fun _ => ?_)
  refine Tri.bind (Q := fun _ _ => True) (Tri.look (fun t _ _ => last_inBounds t) (fun _ _ _ _ _ => trivial)) (fun o => ?_)
  cases o with
  | some i => exact Tri.ret (fun _ _ => trivial)
  | none => exact Tri.fail (by simp) (by simp)

theorem Tri.swapOutRow (i : Nat) (row : Row S) : Tri Any (Cr.swapOutRow (S := S) i row) (fun _ _ => True) := by
  refine Tri.bind (P := Any) Tri.check (fun a => ?_)
  rintro t ⟨c, d, h⟩ ⟨rfl, hi, -⟩
  have hle := h.len_le
  have := h.seq (α := S.E) (f := fun j s => outStep ((S.C j).swapOut s a (row j)) s) (OK := a ≤ S.max) (c' := c) (d1 := d) (d2 := d)
    (fun j hj => by
      obtain ⟨s, o, e1, e2⟩ := (LN.law j).swapOut (s := t.cols j) (row j)
        (h.inRange hi j (Or.inr (fun ⟨k, hk, hx⟩ => hj k (le_of_lt hk) hx))) (fun hx => absurd hx (hj j (le_refl j)))
      exact ⟨s, o, by simp only [outStep, e1], by rw [e2, h.before j hj]⟩)
    (fun hm j hj => by
      obtain ⟨s, o, e1, e2⟩ := (LN.law j).swapOut (s := t.cols j) (row j) (h.inRange hi j (Or.inl hm)) (fun _ => hm)
      exact ⟨s, o, by simp only [outStep, e1], by rw [e2, h.first j hj]⟩)
    (fun hm j hj => by
      have e1 := (LN.law j).swapOut_err (s := t.cols j) (row j)
        (h.inRange hi j (Or.inr (fun ⟨k, hk, hx⟩ => hj.2 k hk hx))) hj.1 (by omega)
      exact ⟨t.cols j, by simp only [outStep, e1], h.first j hj⟩)
    (fun hm j hj => by
      obtain ⟨s, o, e1, e2⟩ := (LN.law j).swapOut (s := t.cols j) (row j) (h.inRange hi j (Or.inl hm)) (fun _ => hm)
      exact ⟨s, o, by simp only [outStep, e1], by rw [e2, h.after j hj]⟩)
    (fun _ => h.le) (fun _ => ⟨h.le, rfl⟩)
  refine ⟨this.1, ?_, fun _ _ => trivial⟩
  rcases this.2 with ⟨⟨x, hx⟩, -⟩ | ⟨-, -, hx⟩
  · show InBounds (seqTear (S.n + 1) (α := S.E) t.cols _).2
    rw [hx]; exact InBounds.ok
  · show InBounds (seqTear (S.n + 1) (α := S.E) t.cols _).2
    rw [hx]; exact InBounds.overflow

theorem Tri.swapRaw (a b : Nat) : Tri (fun t => a < t.len ∧ b < t.len) (Cr.swapRaw (S := S) a b) (fun _ _ => True) := by
  rintro t ⟨c, d, h⟩ ⟨ha, hb⟩
  have := h.seq (f := fun j s => colStep ((S.C j).swap s a b) s) (OK := a ≤ S.max ∧ b ≤ S.max)
    (c' := c) (d1 := d) (d2 := d)
    (fun j hj => by
      have hna : ¬ AfterIndex S j := fun ⟨k, hk, hx⟩ => hj k (le_of_lt hk) hx
      obtain ⟨s, e1, e2⟩ := (LN.law j).swap (h.inRange ha j (Or.inr hna)) (h.inRange hb j (Or.inr hna))
        (fun hx => absurd hx (hj j (le_refl j)))
      exact ⟨s, (), by simp only [colStep, e1], by rw [e2, h.before j hj]⟩)
    (fun hm j hj => by
      obtain ⟨s, e1, e2⟩ := (LN.law j).swap (h.inRange ha j (Or.inl hm.1)) (h.inRange hb j (Or.inl hm.2)) (fun _ => hm)
      exact ⟨s, (), by simp only [colStep, e1], by rw [e2, h.first j hj]⟩)
    (fun hm j hj => by
      have hna : ¬ AfterIndex S j := fun ⟨k, hk, hx⟩ => hj.2 k hk hx
      have e1 := (LN.law j).swap_err (h.inRange ha j (Or.inr hna)) (h.inRange hb j (Or.inr hna)) hj.1 (by omega)
      exact ⟨t.cols j, by simp only [colStep, e1], h.first j hj⟩)
    (fun hm j hj => by
      obtain ⟨s, e1, e2⟩ := (LN.law j).swap (h.inRange ha j (Or.inl hm.1)) (h.inRange hb j (Or.inl hm.2)) (fun _ => hm)
      exact ⟨s, (), by simp only [colStep, e1], by rw [e2, h.after j hj]⟩)
    (fun _ => h.le) (fun _ => ⟨h.le, rfl⟩)
  obtain ⟨x, y⟩ := tri_cols ⟨this.1, this.2.imp (fun h => h.1) (fun h => h.2.2)⟩
  exact ⟨x, y, fun _ _ => trivial⟩

theorem Tri.truncate (n : Nat) : Tri Any (Cr.truncate (S := S) n) (fun _ _ => True) := by
  rintro t ⟨c, d, h⟩ -
  have hle := h.le
  have := h.seq (f := fun j s => colStep ((S.C j).truncate s n) (Leaves.truncate s n)) (OK := d ≤ S.max + 1 ∨ d ≤ n)
    (c' := min n c) (d1 := min n d) (d2 := d)
    (fun j hj => by
      obtain ⟨s, e1, e2⟩ := (LN.law j).truncate (s := t.cols j) n (fun hx => absurd hx (hj j (le_refl j)))
      exact ⟨s, (), by simp only [colStep, e1], by rw [e2, h.before j hj]⟩)
    (fun hd j hj => by
      obtain ⟨s, e1, e2⟩ := (LN.law j).truncate (s := t.cols j) n (fun _ => by rw [h.first j hj]; exact hd)
      exact ⟨s, (), by simp only [colStep, e1], by rw [e2, h.first j hj]⟩)
    (fun hd j hj => by
      obtain ⟨e1, e2⟩ := (LN.law j).truncate_err (s := t.cols j) n hj.1 (by rw [h.first j hj]; omega)
        (by rw [h.first j hj]; omega)
      exact ⟨Leaves.truncate (t.cols j) n, by simp only [colStep, e1], by rw [e2, h.first j hj]⟩)
    (fun hd j hj => by
      obtain ⟨s, e1, e2⟩ := (LN.law j).truncate (s := t.cols j) n (fun _ => by rw [h.after j hj]; omega)
      exact ⟨s, (), by simp only [colStep, e1], by rw [e2, h.after j hj]; omega⟩)
    (fun _ => by omega) (fun _ => ⟨by omega, rfl⟩)
  obtain ⟨x, y⟩ := tri_cols ⟨this.1, this.2.imp (fun h => h.1) (fun h => h.2.2)⟩
  exact ⟨x, y, fun _ _ => trivial⟩

end V11
