import Verif.Model.Crash
import Verif.Lemmas.Columns

/-!
# Column lengths under panics

`LenLaws` says what each column method does to the column's length, in every state, also those that only a caught
panic can lead to. `Torn t c d` is the shape of the tables that can be left: `c` rows in the columns before the first
indexed one, `d` in that one, `min d (max + 1)` in the later ones.
-/

set_option linter.unusedSimpArgs false
set_option linter.unusedSectionVars false

namespace V11

/-- The column has an index. -/
def Indexed {E : Type} (C : TCol E) : Prop := C.find.isSome = true

instance {E : Type} (C : TCol E) : Decidable (Indexed C) := inferInstanceAs (Decidable (_ = true))

/-- What column methods do to the length. -/
class LenLaws {E : Type} (max : Nat) (C : TCol E) [Leaves C] : Prop where
  new : C.len C.new = 0
  index : ∀ {s i}, i < C.len s → ∃ e, C.index s i = .ok e
  indexMut : ∀ {s i}, i < C.len s → C.indexMut s i = .error .indexedMut ∨
    ∃ e put, C.indexMut s i = .ok (e, put) ∧ ∀ v, C.len (put v) = C.len s
  clear : ∀ s, ∃ s', C.clear s = .ok s' ∧ C.len s' = 0
  push : ∀ {s} e, (Indexed C → C.len s ≤ max) → ∃ s', C.push s e = .ok s' ∧ C.len s' = C.len s + 1
  push_err : ∀ {s} e, Indexed C → max < C.len s →
    C.push s e = .error .idxOverflow ∧ C.len (Leaves.push s e) = C.len s + 1
  truncate : ∀ {s} n, (Indexed C → C.len s ≤ max + 1 ∨ C.len s ≤ n) →
    ∃ s', C.truncate s n = .ok s' ∧ C.len s' = min n (C.len s)
  truncate_err : ∀ {s} n, Indexed C → max + 1 < C.len s → n < C.len s →
    C.truncate s n = .error .idxOverflow ∧ C.len (Leaves.truncate s n) = C.len s
  swapOut : ∀ {s i} e, i < C.len s → (Indexed C → i ≤ max) → ∃ s' o, C.swapOut s i e = .ok (s', o) ∧ C.len s' = C.len s
  swapOut_err : ∀ {s i} e, i < C.len s → Indexed C → max < i → C.swapOut s i e = .error .idxOverflow
  swap : ∀ {s a b}, a < C.len s → b < C.len s → (Indexed C → a ≤ max ∧ b ≤ max) →
    ∃ s', C.swap s a b = .ok s' ∧ C.len s' = C.len s
  swap_err : ∀ {s a b}, a < C.len s → b < C.len s → Indexed C → (max < a ∨ max < b) → C.swap s a b = .error .idxOverflow
  deleted : ∀ {s i}, i < C.len s → (Indexed C → i ≤ max) → ∃ s', C.deleted s i = .ok s' ∧ C.len s' = C.len s
  deleted_err : ∀ {s i}, i < C.len s → Indexed C → max < i → C.deleted s i = .error .idxOverflow

theorem vec_not_indexed (E : Type) : ¬ Indexed (vecCol E) := by simp [Indexed]
theorem bool_not_indexed : ¬ Indexed boolCol := by simp [Indexed]

instance vecLen {E : Type} (max : Nat) : LenLaws max (vecCol E) where
  new := rfl
  index {s i} h := ⟨_, uncheckedGet_ok h⟩
  indexMut {s i} h := Or.inr ⟨_, fun v => List.set s i v, by
    show (uncheckedGet s i >>= _) = _
    rw [uncheckedGet_ok h, okBind], fun v => by simp⟩
  clear _ := ⟨[], rfl, rfl⟩
  push {s} e _ := ⟨List.append s [e], rfl, by simp⟩
  push_err _ h := absurd h (vec_not_indexed E)
  truncate {s} n _ := ⟨List.take n s, rfl, by simp⟩
  truncate_err _ h := absurd h (vec_not_indexed E)
  swapOut {s i} e h _ := ⟨List.set s i e, _, by
    show (uncheckedGet s i >>= _) = _
    rw [uncheckedGet_ok h, okBind], by simp⟩
  swapOut_err _ _ h := absurd h (vec_not_indexed E)
  swap {s a b} ha hb _ := ⟨List.set (List.set s a (s[b]'hb)) b (s[a]'ha), by
    show (uncheckedGet s a >>= _) = _
    rw [uncheckedGet_ok ha, okBind]
    show (uncheckedGet s b >>= _) = _
    rw [uncheckedGet_ok hb, okBind], by simp⟩
  swap_err _ _ h := absurd h (vec_not_indexed E)
  deleted {s i} _ _ := ⟨s, rfl, rfl⟩
  deleted_err _ h := absurd h (vec_not_indexed E)

theorem BoolState.flush_len (s : BoolState) : ∃ s', s.flush = .ok s' ∧ s'.data.length = s.data.length := by
  unfold BoolState.flush
  cases h : s.refIdx with
  | none => exact ⟨s, rfl, rfl⟩
  | some i =>
    simp only []
    by_cases hi : s.data.length ≤ i
    · rw [if_pos hi]; exact ⟨s, rfl, rfl⟩
    · rw [if_neg hi, checkedSet_ok _ (by omega), okBind]
      exact ⟨_, rfl, by simp⟩

instance boolLen (max : Nat) : LenLaws max boolCol where
  new := rfl
  index {s i} h := by
    show ∃ e, (if s.refIdx = some i then _ else _) = _
    by_cases hr : s.refIdx = some i
    · rw [if_pos hr]; exact ⟨_, rfl⟩
    · rw [if_neg hr]; exact ⟨_, checkedGet_ok h⟩
  indexMut {s i} h := by
    refine Or.inr ?_
    obtain ⟨s', e1, e2⟩ := s.flush_len
    refine ⟨s'.data[i]'(by rw [e2]; exact h), fun b => { s' with refIdx := some i, refVal := b }, ?_, fun v => e2⟩
    show (s.flush >>= _) = _
    rw [e1, okBind, checkedGet_ok (by rw [e2]; exact h), okBind]
  clear s := by
    obtain ⟨s', e1, e2⟩ := s.flush_len
    refine ⟨{ s' with data := s'.data.take 0 }, ?_, ?_⟩
    · show (s.flush >>= _) = _
      rw [e1, okBind]
    · show (s'.data.take 0).length = 0; simp
  push {s} e _ := ⟨{ s with data := s.data ++ [e] }, rfl, by show (s.data ++ [e]).length = _; simp⟩
  push_err _ h := absurd h bool_not_indexed
  truncate {s} n _ := by
    obtain ⟨s', e1, e2⟩ := s.flush_len
    refine ⟨{ s' with data := s'.data.take n }, ?_, ?_⟩
    · show (s.flush >>= _) = _
      rw [e1, okBind]
    · show (s'.data.take n).length = _; simp [e2]
  truncate_err _ h := absurd h bool_not_indexed
  swapOut {s i} e h _ := by
    obtain ⟨s', e1, e2⟩ := s.flush_len
    refine ⟨{ s' with data := s'.data.set i e }, s'.data[i]'(by rw [e2]; exact h), ?_, ?_⟩
    · show (s.flush >>= _) = _
      rw [e1, okBind, checkedGet_ok (by rw [e2]; exact h), okBind, checkedSet_ok _ (by rw [e2]; exact h), okBind]
    · show (s'.data.set i e).length = _; simp [e2]
  swapOut_err _ _ h := absurd h bool_not_indexed
  swap {s a b} ha hb _ := by
    obtain ⟨s', e1, e2⟩ := s.flush_len
    have ha' : a < s'.data.length := by rw [e2]; exact ha
    have hb' : b < s'.data.length := by rw [e2]; exact hb
    refine ⟨{ s' with data := (s'.data.set a s'.data[b]).set b s'.data[a] }, ?_, ?_⟩
    · show (s.flush >>= _) = _
      rw [e1, okBind, checkedGet_ok ha', okBind, checkedGet_ok hb', okBind, checkedSet_ok _ ha', okBind,
        checkedSet_ok _ (by simpa using hb'), okBind]
    · show ((s'.data.set a _).set b _).length = _; simp [e2]
  swap_err _ _ h := absurd h bool_not_indexed
  deleted {s i} _ _ := ⟨s, rfl, rfl⟩
  deleted_err _ h := absurd h bool_not_indexed

section Index
variable {E : Type} [LinearOrder E] {max : Nat} {C : TCol E} [LC : Leaves C] [LL : LenLaws max C]

theorem btreeDeleted_len (hn : ¬ Indexed C) (s : IndexState E C) (i : Nat) (hi : i < C.len s.inner) :
    (i ≤ max → ∃ s', btreeDeleted max C s i = .ok s' ∧ C.len s'.inner = C.len s.inner) ∧
    (max < i → btreeDeleted max C s i = .error .idxOverflow) := by
  obtain ⟨e, he⟩ := LL.index hi
  unfold btreeDeleted
  rw [he, okBind]
  constructor
  · intro hm
    obtain ⟨inner, h1, h2⟩ := LL.deleted hi (fun h => absurd h hn)
    rw [fromUsize_ok hm, okBind, h1, okBind]
    exact ⟨_, rfl, h2⟩
  · intro hm
    rw [fromUsize_err hm, errBind]

theorem btreeDeletedMany_len (hn : ¬ Indexed C) (l : List Nat) (s : IndexState E C) (hl : ∀ i ∈ l, i < C.len s.inner) :
    ((∀ i ∈ l, i ≤ max) → ∃ s', l.foldlM (btreeDeleted max C) s = .ok s' ∧ C.len s'.inner = C.len s.inner) ∧
    ((∃ i ∈ l, max < i) → l.foldlM (btreeDeleted max C) s = .error .idxOverflow) ∧
    C.len (btreeDeletedTill max C l s).inner = C.len s.inner := by
  induction l generalizing s with
  | nil => exact ⟨fun _ => ⟨s, rfl, rfl⟩, fun ⟨i, h, _⟩ => absurd h (by simp), rfl⟩
  | cons i is ih =>
    obtain ⟨h1, h2⟩ := btreeDeleted_len (max := max) hn s i (hl i (by simp))
    rw [List.foldlM_cons]
    by_cases hi : i ≤ max
    · obtain ⟨s', e1, e2⟩ := h1 hi
      obtain ⟨i1, i2, i3⟩ := ih s' (fun j hj => by rw [e2]; exact hl j (by simp [hj]))
      rw [e1, okBind]
      refine ⟨?_, ?_, ?_⟩
      · intro h
        obtain ⟨s'', g1, g2⟩ := i1 (fun j hj => h j (by simp [hj]))
        exact ⟨s'', g1, by rw [g2, e2]⟩
      · rintro ⟨j, hj, hm⟩
        refine i2 ⟨j, ?_, hm⟩
        rcases List.mem_cons.1 hj with rfl | hj
        · omega
        · exact hj
      · simp only [btreeDeletedTill, e1]
        rw [i3, e2]
    · rw [h2 (by omega), errBind]
      refine ⟨fun h => absurd (h i (by simp)) hi, fun _ => rfl, ?_⟩
      simp only [btreeDeletedTill, h2 (by omega : max < i)]

theorem index_indexed : Indexed (btreeIndex max C) := by simp [Indexed]

theorem indexLen (hn : ¬ Indexed C) : LenLaws max (btreeIndex max C) where
  new := LL.new
  index h := LL.index h
  indexMut _ := Or.inl rfl
  clear s := by
    obtain ⟨inner, h1, h2⟩ := LL.clear s.inner
    refine ⟨{ inner := inner, index := [] }, ?_, h2⟩
    show (C.clear s.inner >>= _) = _
    rw [h1, okBind]
  push {s} e h := by
    obtain ⟨inner, h1, h2⟩ := LL.push (s := s.inner) e (fun h => absurd h hn)
    refine ⟨{ inner := inner, index := BSet.insert (toLex (e, C.len s.inner)) s.index }, ?_, h2⟩
    show (C.push s.inner e >>= _) = _
    rw [h1, okBind, fromUsize_ok (h index_indexed), okBind]
  push_err {s} e _ hm := by
    obtain ⟨inner, h1, h2⟩ := LL.push (s := s.inner) e (fun h => absurd h hn)
    constructor
    · show (C.push s.inner e >>= _) = _
      rw [h1, okBind, fromUsize_err hm, errBind]
    · show C.len (IndexState.inner (match C.push s.inner e with | .ok inner => _ | .error _ => _)) = _
      rw [h1]; exact h2
  truncate {s} n h := by
    obtain ⟨h1, -, -⟩ := btreeDeletedMany_len (max := max) hn (List.range' n (C.len s.inner - n)) s (by
      intro i hi; simp [List.mem_range'] at hi; omega)
    obtain ⟨s', e1, e2⟩ := h1 (by
      intro i hi
      simp [List.mem_range'] at hi
      have h := h index_indexed
      have : C.len s.inner ≤ max + 1 ∨ C.len s.inner ≤ n := h
      omega)
    obtain ⟨inner, g1, g2⟩ := LL.truncate (s := s'.inner) n (fun h => absurd h hn)
    refine ⟨{ s' with inner := inner }, ?_, ?_⟩
    · show (List.foldlM _ s _ >>= _) = _
      rw [e1, okBind, g1, okBind]
    · show C.len inner = _
      rw [g2, e2]
  truncate_err {s} n _ hm hn' := by
    have hm : max + 1 < C.len s.inner := hm
    have hn' : n < C.len s.inner := hn'
    obtain ⟨-, h2, h3⟩ := btreeDeletedMany_len (max := max) hn (List.range' n (C.len s.inner - n)) s (by
      intro i hi; simp [List.mem_range'] at hi; omega)
    constructor
    · show (List.foldlM _ s _ >>= _) = _
      rw [h2 ⟨C.len s.inner - 1, List.mem_range'_1.2 ⟨by omega, by omega⟩, by omega⟩, errBind]
    · exact h3
  swapOut {s i} e h hm := by
    obtain ⟨o, ho⟩ := LL.index h
    obtain ⟨inner, o', h1, h2⟩ := LL.swapOut e h (fun h => absurd h hn)
    refine ⟨{ inner := inner, index := BSet.insert (toLex (e, i)) (BSet.erase (toLex (o, i)) s.index) }, o', ?_, h2⟩
    show (C.index s.inner i >>= _) = _
    rw [ho, okBind, fromUsize_ok (hm index_indexed), okBind]
    simp only [h1, okBind]
  swapOut_err {s i} e h _ hm := by
    obtain ⟨o, ho⟩ := LL.index h
    show (C.index s.inner i >>= _) = _
    rw [ho, okBind, fromUsize_err hm, errBind]
  swap {s a b} ha hb hm := by
    obtain ⟨x, hx⟩ := LL.index ha
    obtain ⟨y, hy⟩ := LL.index hb
    obtain ⟨inner, h1, h2⟩ := LL.swap ha hb (fun h => absurd h hn)
    obtain ⟨ma, mb⟩ := hm index_indexed
    refine ⟨{ inner := inner, index := BSet.insert (toLex (y, a)) (BSet.insert (toLex (x, b))
      (BSet.erase (toLex (y, b)) (BSet.erase (toLex (x, a)) s.index))) }, ?_, h2⟩
    show (C.index s.inner a >>= _) = _
    rw [hx, okBind, hy, okBind, fromUsize_ok ma, okBind, fromUsize_ok mb, okBind]
    simp only [h1, okBind]
  swap_err {s a b} ha hb _ hm := by
    obtain ⟨x, hx⟩ := LL.index ha
    obtain ⟨y, hy⟩ := LL.index hb
    show (C.index s.inner a >>= _) = _
    rw [hx, okBind, hy, okBind]
    by_cases h : max < a
    · rw [fromUsize_err h, errBind]
    · rw [fromUsize_ok (by omega), okBind, fromUsize_err (by omega), errBind]
  deleted {s i} h hm := by
    obtain ⟨s', h1, h2⟩ := (btreeDeleted_len (max := max) hn s i h).1 (hm index_indexed)
    exact ⟨s', h1, h2⟩
  deleted_err {s i} h _ hm := (btreeDeleted_len (max := max) hn s i h).2 hm

end Index

/-- `LenLaws` for each column. -/
class LenSchema (S : Schema) [LeavesSchema S] : Prop where
  law : ∀ j : Fin (S.n + 1), LenLaws S.max (S.C j)

theorem ColSpec.lens (max : Nat) (c : ColSpec) : @LenLaws c.Elem max (c.col max) (c.leaves max) := by
  cases c with
  | vec E => exact vecLen max
  | bool => exact boolLen max
  | index E o => exact indexLen (vec_not_indexed E)
  | indexBool => exact indexLen bool_not_indexed

/-- Every column `table!` offers obeys them. -/
instance mkSchemaLens {n : Nat} (cs : Fin (n + 1) → ColSpec) (max : Nat) (kind : Kind) :
    LenSchema (mkSchema cs max kind) where
  law j := (cs j).lens max

/-! ## One call per column -/

theorem seqTear_cases {n : Nat} {σ α : Fin n → Type} (s : (j : Fin n) → σ j) (f : (j : Fin n) → σ j → σ j × R (α j)) :
    (∃ x : (j : Fin n) → α j, (seqTear n s f).2 = .ok x ∧ ∀ j, (seqTear n s f).1 j = (f j (s j)).1 ∧ (f j (s j)).2 = .ok (x j)) ∨
    ∃ k p, (seqTear n s f).2 = .error p ∧ (f k (s k)).2 = .error p ∧
      (∀ j, j ≤ k → (seqTear n s f).1 j = (f j (s j)).1) ∧ (∀ j, j < k → ∃ x, (f j (s j)).2 = .ok x) ∧
      ∀ j, k < j → (seqTear n s f).1 j = s j := by
  induction n with
  | zero => exact Or.inl ⟨fun j => j.elim0, rfl, fun j => j.elim0⟩
  | succ n ih =>
    rcases h0 : f 0 (s 0) with ⟨a, r⟩
    cases r with
    | error p =>
      have e : seqTear (n + 1) s f = (Fin.cons (α := σ) a (fun j => s j.succ), .error p) := by
        simp only [seqTear, h0]
      refine Or.inr ⟨0, p, by rw [e], by rw [h0], ?_, ?_, ?_⟩
      · intro j hj
        have : j = 0 := le_antisymm hj (Fin.zero_le j)
        subst this
        rw [e, h0]; rfl
      · intro j hj; exact absurd hj (Fin.not_lt_zero j)
      · intro j hj
        rw [e]
        obtain ⟨i, rfl⟩ := Fin.exists_succ_eq.2 (Fin.pos_iff_ne_zero.1 hj)
        rfl
    | ok x =>
      have e : seqTear (n + 1) s f = (Fin.cons (α := σ) a (seqTear n (σ := fun j => σ j.succ) (α := fun j => α j.succ)
          (fun j => s j.succ) (fun j => f j.succ)).1,
          (seqTear n (σ := fun j => σ j.succ) (α := fun j => α j.succ) (fun j => s j.succ) (fun j => f j.succ)).2.map
            (Fin.cons (α := α) x)) := by
        simp only [seqTear, h0]
      rcases ih (σ := fun j => σ j.succ) (α := fun j => α j.succ) (fun j => s j.succ) (fun j => f j.succ) with
        ⟨y, h1, h2⟩ | ⟨k, p, h1, h2, h3, h4, h5⟩
      · refine Or.inl ⟨Fin.cons (α := α) x y, ?_, ?_⟩
        · rw [e, h1]; rfl
        · intro j
          rw [e]
          refine Fin.cases ?_ (fun i => ?_) j
          · rw [h0]; exact ⟨rfl, rfl⟩
          · exact h2 i
      · refine Or.inr ⟨k.succ, p, ?_, h2, ?_, ?_, ?_⟩
        · rw [e, h1]; rfl
        · intro j
          rw [e]
          refine Fin.cases (fun _ => ?_) (fun i hi => ?_) j
          · rw [h0]; rfl
          · exact h3 i (by simpa using hi)
        · intro j
          refine Fin.cases (fun _ => ?_) (fun i hi => ?_) j
          · rw [h0]; exact ⟨x, rfl⟩
          · exact h4 i (by simpa using hi)
        · intro j
          rw [e]
          refine Fin.cases (fun hj => absurd hj (Fin.not_lt_zero _)) (fun i hi => ?_) j
          exact h5 i (by simpa using hi)

end V11
