import Verif.Model.Column
import Mathlib.Order.Lex
import Mathlib.Tactic.Tauto

/-!
# Lawful columns

`LawfulCol max C` says that the column storage `C` behaves as a list, and — if it is an indexed
column — that its index is the graph of the rows that are not `dead`.
-/

set_option linter.unusedSimpArgs false
set_option linter.unusedSectionVars false

namespace V11

/-- What the table code may assume of a column: it is a list (`abs`), and its bookkeeping (`Inv`),
relative to a set of dead rows, is maintained by each operation. -/
class LawfulCol {E : Type} (max : Nat) (C : TCol E) where
  abs : C.σ → List E
  Inv : (Nat → Prop) → C.σ → Prop
  inv_congr : ∀ {d d' : Nat → Prop} {s : C.σ}, (∀ i, i < (abs s).length → (d i ↔ d' i)) → Inv d s → Inv d' s
  new_ok : ∀ d, Inv d C.new ∧ abs C.new = []
  len_ok : ∀ s, C.len s = (abs s).length
  index_ok : ∀ {d s} i, Inv d s → (h : i < (abs s).length) → C.index s i = .ok (abs s)[i]
  index_oob : ∀ {d s} i, Inv d s → (abs s).length ≤ i → C.index s i = .error .ub ∨ C.index s i = .error .vecOob
  indexMut_ok : ∀ {d s} i, Inv d s → (h : i < (abs s).length) →
    C.indexMut s i = .error .indexedMut ∨
    ∃ put, C.indexMut s i = .ok ((abs s)[i], put) ∧ ∀ e, Inv d (put e) ∧ abs (put e) = (abs s).set i e
  truncate_ok : ∀ {d s} n, Inv d s → ∃ s', C.truncate s n = .ok s' ∧ Inv d s' ∧ abs s' = (abs s).take n
  clear_ok : ∀ {d s}, Inv d s → ∀ d', ∃ s', C.clear s = .ok s' ∧ Inv d' s' ∧ abs s' = []
  push_ok : ∀ {d s} e, Inv d s → ¬ d (abs s).length → (abs s).length ≤ max →
    ∃ s', C.push s e = .ok s' ∧ Inv d s' ∧ abs s' = abs s ++ [e]
  push_full : ∀ {d s} e, Inv d s → max < (abs s).length →
    C.push s e = .error .idxOverflow ∨ ∃ s', C.push s e = .ok s' ∧ C.len s' = (abs s).length + 1
  swapOut_ok : ∀ {d s} i e, Inv d s → (h : i < (abs s).length) →
    ∃ s', C.swapOut s i e = .ok (s', (abs s)[i]) ∧ Inv (fun x => d x ∧ x ≠ i) s' ∧ abs s' = (abs s).set i e
  swap_ok : ∀ {d s} a b, Inv d s → (ha : a < (abs s).length) → (hb : b < (abs s).length) →
    ¬ d a → ¬ d b →
    ∃ s', C.swap s a b = .ok s' ∧ Inv d s' ∧ abs s' = ((abs s).set a (abs s)[b]).set b (abs s)[a]
  deleted_ok : ∀ {d s} i, Inv d s → i < (abs s).length →
    ∃ s', C.deleted s i = .ok s' ∧ Inv (fun x => d x ∨ x = i) s' ∧ abs s' = abs s
  toList_ok : ∀ {d s}, Inv d s → C.toList s = abs s
  find_ok : ∀ {f}, C.find = some f → ∀ {d s} e, Inv d s →
    ∃ l, f s e = .ok l ∧ l.Pairwise (· < ·) ∧
      ∀ i, i ∈ l ↔ i < max ∧ (abs s)[i]? = some e ∧ ¬ d i
  range_ok : ∀ {f}, C.range = some f → ∀ {d s} lo hi, Inv d s →
    (C.le lo hi → ∃ ps : List (E × Nat), f s lo hi = .ok (ps.map Prod.snd) ∧
      ps.Pairwise (fun p q => C.le p.1 q.1 ∧ (C.le q.1 p.1 → p.2 < q.2)) ∧
      ∀ e i, (e, i) ∈ ps ↔ C.le lo e ∧ C.le e hi ∧ (e = hi → i < max) ∧ (abs s)[i]? = some e ∧ ¬ d i) ∧
    (¬ C.le lo hi → f s lo hi = .error .rangeOrder)

section Vec
variable {E : Type}

theorem uncheckedGet_ok {l : List E} {i : Nat} (h : i < l.length) : uncheckedGet l i = .ok l[i] := by
  simp [uncheckedGet, h]

theorem checkedGet_ok {l : List E} {i : Nat} (h : i < l.length) : checkedGet l i = .ok l[i] := by
  simp [checkedGet, h]

theorem checkedSet_ok {l : List E} {i : Nat} (e : E) (h : i < l.length) :
    checkedSet l i e = .ok (l.set i e) := by
  simp [checkedSet, h]

@[simp] theorem okBind {α β : Type} (a : α) (f : α → R β) : (Except.ok a >>= f) = f a := rfl
@[simp] theorem errBind {α β : Type} (p : Panic) (f : α → R β) : ((Except.error p : R α) >>= f) = .error p := rfl

/-- `VecCol` is lawful; it has no bookkeeping. -/
instance vecLawful (max : Nat) : LawfulCol max (vecCol E) where
  abs s := s
  Inv _ _ := True
  inv_congr _ h := h
  new_ok _ := ⟨trivial, rfl⟩
  len_ok _ := rfl
  index_ok i _ h := uncheckedGet_ok h
  index_oob {d s} i _ h := by
    refine Or.inl ?_
    show uncheckedGet s i = _
    unfold uncheckedGet
    rw [List.getElem?_eq_none h]
  indexMut_ok {d s} i _ h := by
    refine Or.inr ⟨fun v => List.set s i v, ?_, fun e => ⟨trivial, rfl⟩⟩
    show (uncheckedGet s i >>= _) = _
    rw [uncheckedGet_ok h]; rfl
  truncate_ok {d s} n _ := ⟨s.take n, rfl, trivial, rfl⟩
  clear_ok _ _ := ⟨[], rfl, trivial, rfl⟩
  push_ok {d s} e _ _ _ := ⟨List.append s [e], rfl, trivial, rfl⟩
  push_full {d s} e _ _ := Or.inr ⟨List.append s [e], rfl, by simp⟩
  swapOut_ok {d s} i e _ h := by
    refine ⟨List.set s i e, ?_, trivial, rfl⟩
    show (uncheckedGet s i >>= _) = _
    rw [uncheckedGet_ok h]; rfl
  swap_ok {d s} a b _ ha hb _ _ := by
    refine ⟨_, ?_, trivial, rfl⟩
    show (uncheckedGet s a >>= _) = _
    rw [uncheckedGet_ok ha]
    show (uncheckedGet s b >>= _) = _
    rw [uncheckedGet_ok hb]; rfl
  deleted_ok {d s} i _ _ := ⟨s, rfl, trivial, rfl⟩
  toList_ok _ := rfl
  find_ok h := by simp [vecCol] at h
  range_ok h := by simp [vecCol] at h

end Vec

section Bool

/-- The boolean vector a `BoolCol` denotes: its bits, with the cached write applied. -/
def BoolState.abs (s : BoolState) : List Bool :=
  match s.refIdx with
  | none => s.data
  | some i => s.data.set i s.refVal

/-- The cache, when in use, points into the vector. -/
def BoolState.Inv (s : BoolState) : Prop := ∀ i, s.refIdx = some i → i < s.data.length

theorem BoolState.abs_length (s : BoolState) : s.abs.length = s.data.length := by
  unfold abs; split <;> simp

theorem BoolState.flush_ok {s : BoolState} (h : s.Inv) :
    s.flush = .ok { refVal := s.refVal, refIdx := none, data := s.abs } := by
  unfold flush abs
  rcases s with ⟨v, ri, data⟩
  cases ri with
  | none => rfl
  | some i =>
    have hi : i < data.length := h i rfl
    simp [checkedSet, hi]

/-- `BoolCol` is lawful: the cache is invisible. -/
instance boolLawful (max : Nat) : LawfulCol max boolCol where
  abs s := BoolState.abs s
  Inv _ s := BoolState.Inv s
  inv_congr _ h := h
  new_ok _ := ⟨by intro i h; simp [boolCol] at h, rfl⟩
  len_ok s := (BoolState.abs_length s).symm
  index_ok {d s} i h hi := by
    obtain ⟨v, ri, data⟩ := s
    show (if ri = some i then _ else _) = _
    split
    · rename_i e
      subst e
      simp [BoolState.abs]
    · rename_i e
      rw [BoolState.abs_length] at hi
      rw [checkedGet_ok hi]
      cases ri with
      | none => rfl
      | some j =>
        have : j ≠ i := fun h => e (by rw [h])
        simp [BoolState.abs, List.getElem_set, this]
  index_oob {d s} i h hi := by
    rw [BoolState.abs_length] at hi
    refine Or.inr ?_
    show (if s.refIdx = some i then _ else _) = _
    rw [if_neg (fun e => absurd (h i e) (by omega))]
    unfold checkedGet
    rw [List.getElem?_eq_none hi]
  indexMut_ok {d s} i h hi := by
    refine Or.inr ⟨fun b => { refVal := b, refIdx := some i, data := BoolState.abs s }, ?_, ?_⟩
    · show (BoolState.flush s >>= _) = _
      rw [BoolState.flush_ok h]
      show (checkedGet (BoolState.abs s) i >>= _) = _
      rw [checkedGet_ok hi]; rfl
    · intro e
      refine ⟨?_, rfl⟩
      intro j hj
      simp only [Option.some.injEq] at hj
      subst hj; exact hi
  truncate_ok {d s} n h := by
    refine ⟨{ refVal := s.refVal, refIdx := none, data := (BoolState.abs s).take n }, ?_, ?_, rfl⟩
    · show (BoolState.flush s >>= _) = _
      rw [BoolState.flush_ok h]; rfl
    · intro j hj; simp at hj
  clear_ok {d s} h _ := by
    refine ⟨{ refVal := s.refVal, refIdx := none, data := [] }, ?_, ?_, rfl⟩
    · show (BoolState.flush s >>= _) = _
      rw [BoolState.flush_ok h]; rfl
    · intro j hj; simp at hj
  push_ok {d s} e h _ _ := by
    obtain ⟨v, ri, data⟩ := s
    refine ⟨_, rfl, ?_, ?_⟩
    · intro j hj
      have := h j hj
      simp at this ⊢; omega
    · cases ri with
      | none => rfl
      | some j =>
        have : j < data.length := h j rfl
        simp [BoolState.abs, List.set_append, this]
  push_full {d s} e h _ := by
    refine Or.inr ⟨_, rfl, ?_⟩
    rw [BoolState.abs_length]
    simp [boolCol]
  swapOut_ok {d s} i e h hi := by
    refine ⟨{ refVal := s.refVal, refIdx := none, data := (BoolState.abs s).set i e }, ?_, ?_, rfl⟩
    · show (BoolState.flush s >>= _) = _
      rw [BoolState.flush_ok h]
      show (checkedGet (BoolState.abs s) i >>= _) = _
      rw [checkedGet_ok hi]
      show (checkedSet (BoolState.abs s) i e >>= _) = _
      rw [checkedSet_ok e hi]; rfl
    · intro j hj; simp at hj
  swap_ok {d s} a b h ha hb _ _ := by
    refine ⟨{ refVal := s.refVal, refIdx := none,
              data := ((BoolState.abs s).set a (BoolState.abs s)[b]).set b (BoolState.abs s)[a] }, ?_, ?_, rfl⟩
    · show (BoolState.flush s >>= _) = _
      rw [BoolState.flush_ok h]
      show (checkedGet (BoolState.abs s) a >>= _) = _
      rw [checkedGet_ok ha]
      show (checkedGet (BoolState.abs s) b >>= _) = _
      rw [checkedGet_ok hb]
      show (checkedSet (BoolState.abs s) a _ >>= _) = _
      rw [checkedSet_ok _ ha]
      show (checkedSet _ b _ >>= _) = _
      rw [checkedSet_ok _ (by simpa using hb)]; rfl
    · intro j hj; simp at hj
  deleted_ok {d s} i h _ := ⟨s, rfl, h, rfl⟩
  toList_ok {d s} h := by
    show (match BoolState.flush s with | .ok s => s.data | .error _ => []) = _
    rw [BoolState.flush_ok h]
  find_ok h := by simp [boolCol] at h
  range_ok h := by simp [boolCol] at h

end Bool

section Index
variable {E : Type} [LinearOrder E] (max : Nat) (C : TCol E) [L : LawfulCol max C]

/-- The index of a `BTreeIndex` is exactly the graph of its live rows. -/
def IndexState.Inv (d : Nat → Prop) (s : IndexState E C) : Prop :=
  L.Inv d s.inner ∧ BSet.Ok s.index ∧ (L.abs s.inner).length ≤ max + 1 ∧
    ∀ e i, toLex (e, i) ∈ s.index ↔ (L.abs s.inner)[i]? = some e ∧ ¬ d i

variable {max C}

theorem fromUsize_ok {max i : Nat} (h : i ≤ max) : fromUsize max i = .ok i := by simp [fromUsize, h]

theorem fromUsize_err {max i : Nat} (h : max < i) : fromUsize max i = .error .idxOverflow := by
  simp [fromUsize, Nat.not_le.2 h]

omit [LinearOrder E] in
theorem toLex_inj {e e' : E} {i i' : Nat} : (toLex (e, i) : E ×ₗ Nat) = toLex (e', i') ↔ e = e' ∧ i = i' := by
  constructor
  · intro h
    have := toLex.injective h
    simpa using this
  · rintro ⟨rfl, rfl⟩; rfl

theorem btreeDeleted_ok {d : Nat → Prop} {s : IndexState E C} (i : Nat)
    (h : IndexState.Inv max C d s) (hi : i < (L.abs s.inner).length) :
    ∃ s', btreeDeleted max C s i = .ok s' ∧ IndexState.Inv max C (fun x => d x ∨ x = i) s' ∧
      L.abs s'.inner = L.abs s.inner := by
  obtain ⟨h1, h2, h3, h4⟩ := h
  obtain ⟨t, ht, hInv, habs⟩ := L.deleted_ok i h1 hi
  refine ⟨{ inner := t, index := BSet.erase (toLex ((L.abs s.inner)[i], i)) s.index }, ?_, ⟨hInv, BSet.ok_erase h2, by rw [habs]; exact h3, ?_⟩, habs⟩
  · show btreeDeleted max C s i = .ok { inner := t, index := BSet.erase (toLex ((L.abs s.inner)[i], i)) s.index }
    unfold btreeDeleted
    rw [L.index_ok i h1 hi, okBind, fromUsize_ok (by omega), okBind, ht, okBind]
  · intro e j
    rw [BSet.mem_erase, h4, habs, Ne, toLex_inj]
    by_cases hj : j = i
    · subst hj
      simp [hi]
      intro h1 h2; exact absurd h2.symm h1
    · simp [hj]

theorem btreeDeletedMany_ok {d : Nat → Prop} (l : List Nat) {s : IndexState E C}
    (h : IndexState.Inv max C d s) (hl : ∀ i ∈ l, i < (L.abs s.inner).length) :
    ∃ s', l.foldlM (btreeDeleted max C) s = .ok s' ∧
      IndexState.Inv max C (fun x => d x ∨ x ∈ l) s' ∧ L.abs s'.inner = L.abs s.inner := by
  induction l generalizing s d with
  | nil => exact ⟨s, rfl, by simpa using h, rfl⟩
  | cons i l ih =>
    obtain ⟨s1, e1, i1, a1⟩ := btreeDeleted_ok i h (hl i (by simp))
    obtain ⟨s2, e2, i2, a2⟩ := ih i1 (by intro j hj; rw [a1]; exact hl j (by simp [hj]))
    refine ⟨s2, ?_, ?_, by rw [a2, a1]⟩
    · rw [List.foldlM_cons, e1, okBind, e2]
    · have : (fun x => (d x ∨ x = i) ∨ x ∈ l) = (fun x => d x ∨ x ∈ i :: l) := by
        funext x; simp [or_assoc]
      rw [← this]; exact i2

theorem lex_range_mem {k : E} {m : Nat} {p : E ×ₗ Nat} :
    (toLex (k, 0) ≤ p ∧ p < toLex (k, m)) ↔ (ofLex p).1 = k ∧ (ofLex p).2 < m := by
  obtain ⟨e, i⟩ := p
  show (toLex (k, 0) ≤ toLex (e, i) ∧ toLex (e, i) < toLex (k, m)) ↔ e = k ∧ i < m
  rw [Prod.Lex.toLex_le_toLex, Prod.Lex.toLex_lt_toLex]
  constructor
  · rintro ⟨h | ⟨h, -⟩, h' | ⟨h', h2⟩⟩
    · exact absurd (lt_trans h h') (lt_irrefl _)
    · dsimp at *; subst h'; exact absurd h (lt_irrefl _)
    · dsimp at *; subst h; exact absurd h' (lt_irrefl _)
    · exact ⟨h', h2⟩
  · rintro ⟨h, h2⟩
    exact ⟨Or.inr ⟨h.symm, Nat.zero_le _⟩, Or.inr ⟨h, h2⟩⟩

/-- `find` on a well-formed index. -/
theorem btreeFind_ok {d : Nat → Prop} {s : IndexState E C} (e : E) (h : IndexState.Inv max C d s) :
    ∃ l, btreeFind max C s e = .ok l ∧ l.Pairwise (· < ·) ∧
      ∀ i, i ∈ l ↔ i < max ∧ (L.abs s.inner)[i]? = some e ∧ ¬ d i := by
  obtain ⟨h1, h2, h3, h4⟩ := h
  have hle : ¬ (toLex (e, max) : E ×ₗ Nat) < toLex (e, 0) := by
    rw [Prod.Lex.toLex_lt_toLex]; simp
  refine ⟨(s.index.filter fun k => toLex (e, 0) ≤ k ∧ k < toLex (e, max)).map fun p => (ofLex p).2, ?_, ?_, ?_⟩
  · unfold btreeFind BSet.range
    rw [if_neg hle, okBind]
  · rw [List.pairwise_map]
    refine List.Pairwise.imp_of_mem ?_ (h2.filter _)
    intro p q hp hq hpq
    simp only [List.mem_filter, decide_eq_true_eq] at hp hq
    have hp' := lex_range_mem.1 hp.2
    have hq' := lex_range_mem.1 hq.2
    rcases Prod.Lex.lt_iff.1 hpq with hlt | ⟨-, hlt⟩
    · rw [hp'.1, hq'.1] at hlt; exact absurd hlt (lt_irrefl _)
    · exact hlt
  · intro i
    simp only [List.mem_map, List.mem_filter, decide_eq_true_eq]
    constructor
    · rintro ⟨p, ⟨hp, hr⟩, rfl⟩
      have hr' := lex_range_mem.1 hr
      have : toLex ((ofLex p).1, (ofLex p).2) ∈ s.index := hp
      rw [h4, hr'.1] at this
      exact ⟨hr'.2, this⟩
    · rintro ⟨hm, hx⟩
      exact ⟨toLex (e, i), ⟨(h4 e i).2 hx, lex_range_mem.2 ⟨rfl, hm⟩⟩, rfl⟩

/-- `range` on a well-formed index: the ids of the live (element, id) pairs in the half-open
lexicographic interval, in order. -/
theorem btreeRange_ok {d : Nat → Prop} {s : IndexState E C} (lo hi : E) (hlh : lo ≤ hi)
    (h : IndexState.Inv max C d s) :
    ∃ ps : List (E ×ₗ Nat), btreeRange max C s lo hi = .ok (ps.map fun p => (ofLex p).2) ∧
      ps.Pairwise (· < ·) ∧
      ∀ e i, toLex (e, i) ∈ ps ↔ lo ≤ e ∧ (e < hi ∨ e = hi ∧ i < max) ∧
        (L.abs s.inner)[i]? = some e ∧ ¬ d i := by
  obtain ⟨h1, h2, h3, h4⟩ := h
  have hle : ¬ (toLex (hi, max) : E ×ₗ Nat) < toLex (lo, 0) := by
    rw [Prod.Lex.toLex_lt_toLex]; simp [hlh]
  refine ⟨s.index.filter fun k => toLex (lo, 0) ≤ k ∧ k < toLex (hi, max), ?_, h2.filter _, ?_⟩
  · unfold btreeRange BSet.range
    rw [if_neg hle, okBind]
  · intro e i
    simp only [List.mem_filter, decide_eq_true_eq, h4, Prod.Lex.toLex_le_toLex, Prod.Lex.toLex_lt_toLex]
    constructor
    · rintro ⟨hx, hl, hr⟩
      refine ⟨?_, hr, hx⟩
      rcases hl with hl | ⟨hl, -⟩
      · exact le_of_lt hl
      · exact le_of_eq hl
    · rintro ⟨hl, hr, hx⟩
      refine ⟨hx, ?_, hr⟩
      rcases lt_or_eq_of_le hl with hl | hl
      · exact Or.inl hl
      · exact Or.inr ⟨hl, Nat.zero_le _⟩

theorem btreeRange_err {s : IndexState E C} (lo hi : E) (hlh : hi < lo) :
    btreeRange max C s lo hi = .error .rangeOrder := by
  unfold btreeRange BSet.range
  rw [if_pos (by rw [Prod.Lex.toLex_lt_toLex]; exact Or.inl hlh), errBind]

/-- `BTreeIndex` over a lawful column is lawful. -/
instance indexLawful : LawfulCol max (btreeIndex max C) where
  abs s := L.abs s.inner
  Inv d s := IndexState.Inv max C d s
  inv_congr {d d' s} hd h := by
    obtain ⟨h1, h2, h3, h4⟩ := h
    refine ⟨L.inv_congr hd h1, h2, h3, fun e i => ?_⟩
    rw [h4]
    constructor
    · rintro ⟨he, hn⟩
      have : i < (L.abs s.inner).length := by
        by_contra hc
        rw [List.getElem?_eq_none (by omega)] at he; simp at he
      exact ⟨he, fun h => hn ((hd i this).2 h)⟩
    · rintro ⟨he, hn⟩
      have : i < (L.abs s.inner).length := by
        by_contra hc
        rw [List.getElem?_eq_none (by omega)] at he; simp at he
      exact ⟨he, fun h => hn ((hd i this).1 h)⟩
  new_ok d := by
    obtain ⟨h1, h2⟩ := L.new_ok d
    refine ⟨⟨h1, BSet.ok_nil, ?_, ?_⟩, h2⟩
    · show (L.abs C.new).length ≤ _
      rw [h2]; simp
    · intro e i
      show _ ∈ ([] : List (E ×ₗ Nat)) ↔ (L.abs C.new)[i]? = _ ∧ _
      rw [h2]; simp
  len_ok s := L.len_ok s.inner
  index_ok i h hi := L.index_ok i h.1 hi
  index_oob i h hi := L.index_oob i h.1 hi
  indexMut_ok i _ _ := Or.inl rfl
  truncate_ok {d s} n h := by
    have hlen := L.len_ok s.inner
    obtain ⟨s1, e1, i1, a1⟩ := btreeDeletedMany_ok (max := max) (C := C)
      (List.range' n (C.len s.inner - n)) h (by
        intro i hi
        rw [List.mem_range'_1] at hi
        rw [hlen] at hi; omega)
    obtain ⟨j1, j2, j3, j4⟩ := i1
    obtain ⟨t, et, it, at_⟩ := L.truncate_ok n j1
    have hmem : ∀ i, i ∈ List.range' n (C.len s.inner - n) ↔ n ≤ i ∧ i < (L.abs s.inner).length := by
      intro i; rw [List.mem_range'_1, hlen]; omega
    refine ⟨{ s1 with inner := t }, ?_, ⟨?_, j2, ?_, ?_⟩, ?_⟩
    · show (List.foldlM (btreeDeleted max C) s _ >>= _) = _
      rw [e1, okBind, et, okBind]
    · refine L.inv_congr ?_ it
      intro i hi
      rw [at_, a1] at hi
      simp only [List.length_take] at hi
      have : ¬ i ∈ List.range' n (C.len s.inner - n) := by rw [hmem]; omega
      simp [this]
    · rw [at_, a1]; simp only [List.length_take]
      have := h.2.2.1; omega
    · intro e i
      show toLex (e, i) ∈ s1.index ↔ _
      rw [j4, a1]
      show _ ↔ (L.abs t)[i]? = some e ∧ ¬ d i
      rw [at_, a1]
      simp only []
      rw [hmem, List.getElem?_take]
      by_cases hi : i < n
      · simp [hi];
      · simp only [hi, if_false]
        constructor
        · rintro ⟨he, hn⟩
          have : i < (L.abs s.inner).length := by
            by_contra hc
            rw [List.getElem?_eq_none (by omega)] at he; simp at he
          exact absurd (Or.inr ⟨by omega, this⟩) hn
        · rintro ⟨he, -⟩; simp at he
    · show L.abs t = _
      rw [at_, a1]
  clear_ok {d s} h d' := by
    obtain ⟨t, et, it, at_⟩ := L.clear_ok h.1 d'
    refine ⟨{ inner := t, index := [] }, ?_, ⟨it, BSet.ok_nil, ?_, ?_⟩, at_⟩
    · show (C.clear s.inner >>= _) = _
      rw [et]; rfl
    · show (L.abs t).length ≤ _
      rw [at_]; simp
    · intro e i
      show _ ∈ ([] : List (E ×ₗ Nat)) ↔ (L.abs t)[i]? = _ ∧ _
      rw [at_]; simp
  push_ok {d s} e h hd hm := by
    obtain ⟨t, et, it, at_⟩ := L.push_ok e h.1 hd hm
    refine ⟨{ inner := t, index := BSet.insert (toLex (e, C.len s.inner)) s.index }, ?_, ⟨it, BSet.ok_insert h.2.1, ?_, ?_⟩, at_⟩
    · show (C.push s.inner e >>= _) = _
      rw [et, okBind, fromUsize_ok (by rw [L.len_ok]; exact hm), okBind]
    · rw [at_]; simp; exact hm
    · intro e' i
      rw [BSet.mem_insert, toLex_inj, h.2.2.2, at_, L.len_ok]
      rcases lt_trichotomy i (L.abs s.inner).length with hi | hi | hi
      · rw [List.getElem?_append_left hi]
        constructor
        · rintro (⟨-, h⟩ | h)
          · omega
          · exact h
        · exact Or.inr
      · subst hi
        simp [hd]; exact eq_comm
      · rw [List.getElem?_eq_none (by omega), List.getElem?_eq_none (by simp; omega)]
        simp; omega
  push_full {d s} e h hm := by
    rcases L.push_full e h.1 hm with h' | ⟨t, et, lt⟩
    · left
      show (C.push s.inner e >>= _) = _
      rw [h', errBind]
    · left
      show (C.push s.inner e >>= _) = _
      rw [et, okBind, fromUsize_err (by rw [L.len_ok]; exact hm), errBind]
  swapOut_ok {d s} i e h hi := by
    obtain ⟨t, et, it, at_⟩ := L.swapOut_ok i e h.1 hi
    have him : i ≤ max := by have := h.2.2.1; omega
    refine ⟨{ inner := t, index := BSet.insert (toLex (e, i)) (BSet.erase (toLex ((L.abs s.inner)[i], i)) s.index) },
      ?_, ⟨it, BSet.ok_insert (BSet.ok_erase h.2.1), by rw [at_]; simp; exact h.2.2.1, ?_⟩, at_⟩
    · show (C.index s.inner i >>= _) = _
      rw [L.index_ok i h.1 hi, okBind, fromUsize_ok him, okBind, et, okBind]
    · intro e' j
      rw [BSet.mem_insert, BSet.mem_erase, h.2.2.2, at_, toLex_inj, Ne, toLex_inj, List.getElem?_set]
      by_cases hj : i = j
      · subst hj
        rw [List.getElem?_eq_getElem hi]
        simp [hi]
        constructor
        · rintro (h | ⟨h, h', -⟩)
          · exact h.symm
          · exact absurd h'.symm h
        · intro h; exact Or.inl h.symm
      · have hj' : j ≠ i := fun h => hj h.symm
        simp [hj, hj']
  swap_ok {d s} a b h ha hb hda hdb := by
    obtain ⟨t, et, it, at_⟩ := L.swap_ok a b h.1 ha hb hda hdb
    have ham : a ≤ max := by have := h.2.2.1; omega
    have hbm : b ≤ max := by have := h.2.2.1; omega
    refine ⟨{ inner := t, index := BSet.insert (toLex ((L.abs s.inner)[b], a)) (BSet.insert (toLex ((L.abs s.inner)[a], b))
        (BSet.erase (toLex ((L.abs s.inner)[b], b)) (BSet.erase (toLex ((L.abs s.inner)[a], a)) s.index))) }, ?_,
      ⟨it, BSet.ok_insert (BSet.ok_insert (BSet.ok_erase (BSet.ok_erase h.2.1))),
        by rw [at_]; simp; exact h.2.2.1, ?_⟩, at_⟩
    · show (C.index s.inner a >>= _) = _
      rw [L.index_ok a h.1 ha, okBind, L.index_ok b h.1 hb, okBind, fromUsize_ok ham, okBind,
        fromUsize_ok hbm, okBind, et, okBind]
    · intro e' j
      simp only [BSet.mem_insert, BSet.mem_erase, h.2.2.2, at_, toLex_inj, Ne, List.getElem?_set, List.length_set]
      by_cases hjb : b = j
      · subst hjb
        by_cases hab : a = b
        · subst hab
          simp [ha, hda, eq_comm]
        · simp only [ha, hb, hdb, not_false_iff, and_true, if_true, List.getElem?_eq_getElem hb, Option.some.injEq]
          simp [eq_comm, hab]
      · by_cases hja : a = j
        · subst hja
          have hjb' : a ≠ b := fun h => hjb h.symm
          simp only [hjb, if_false, if_true, ha, hda, not_false_iff, and_true, List.getElem?_eq_getElem ha, Option.some.injEq]
          simp [hjb', eq_comm]
        · have hja' : j ≠ a := fun h => hja h.symm
          have hjb' : j ≠ b := fun h => hjb h.symm
          simp [hja, hjb, hja', hjb']
  deleted_ok {d s} i h hi := btreeDeleted_ok i h hi
  toList_ok {d s} h := L.toList_ok h.1
  find_ok {f} hf {d s} e h := by
    have : f = btreeFind max C := by
      have : (btreeIndex max C).find = some (btreeFind max C) := rfl
      rw [this] at hf; exact (Option.some.inj hf).symm
    subst this
    exact btreeFind_ok e h
  range_ok {f} hf {d s} lo hi h := by
    have : f = btreeRange max C := by
      have : (btreeIndex max C).range = some (btreeRange max C) := rfl
      rw [this] at hf; exact (Option.some.inj hf).symm
    subst this
    refine ⟨fun hle => ?_, fun hle => btreeRange_err lo hi (not_le.1 hle)⟩
    obtain ⟨ps, h1, h2, h3⟩ := btreeRange_ok lo hi hle h
    refine ⟨ps.map ofLex, by rw [h1, List.map_map]; rfl, ?_, ?_⟩
    · rw [List.pairwise_map]
      refine h2.imp ?_
      intro a b hab
      have hab' : toLex ((ofLex a).1, (ofLex a).2) < toLex ((ofLex b).1, (ofLex b).2) := hab
      rw [Prod.Lex.toLex_lt_toLex] at hab'
      rcases hab' with h | ⟨h, h'⟩
      · exact ⟨le_of_lt h, fun h' => absurd h (not_lt.2 h')⟩
      · exact ⟨le_of_eq h, fun _ => h'⟩
    · intro e i
      have : (e, i) ∈ ps.map ofLex ↔ toLex (e, i) ∈ ps := by
        constructor
        · intro hm
          obtain ⟨p, hp, he⟩ := List.mem_map.1 hm
          rw [← he]; exact hp
        · intro hm
          exact List.mem_map.2 ⟨_, hm, rfl⟩
      rw [this, h3]
      show (lo ≤ e ∧ _ ∧ _ ∧ _) ↔ (lo ≤ e ∧ e ≤ hi ∧ _ ∧ _ ∧ _)
      constructor
      · rintro ⟨a, b | ⟨b, c⟩, d⟩
        · exact ⟨a, le_of_lt b, fun h => absurd b (by rw [h]; exact lt_irrefl _), d⟩
        · exact ⟨a, le_of_eq b, fun _ => c, d⟩
      · rintro ⟨a, b, c, d⟩
        refine ⟨a, ?_, d⟩
        rcases lt_or_eq_of_le b with h | h
        · exact Or.inl h
        · exact Or.inr ⟨h, c h⟩

end Index
end V11
