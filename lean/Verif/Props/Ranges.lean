import Verif.Model.Iter
import Verif.Lemmas.Iter
import Mathlib.Order.Compare

/-!
# Merge joins (C24), row ranges (C25), skipping (C54)
-/

set_option linter.unusedSimpArgs false
set_option linter.unusedSectionVars false
set_option linter.unusedVariables false

namespace V11

/-! ## C24 -/
section Join
variable {L A K : Type} [LinearOrder K] (f : L → K) (g : A → K)

/-- The comparison of a left with a right item by their keys. -/
def byKey (l : L) (a : A) : Ordering := compare (f l) (g a)

/-- What a merge join should answer for a left item: the first right item with its key; else `next` if a
larger right item exists, else `stop`. -/
def joinSpec (right : List A) (l : L) : Join A :=
  match right.find? (fun a => g a = f l) with
  | some a => .hit a
  | none => if right.any (fun a => f l < g a) then .next else .stop

/-- One call of `join`: the answer, and exactly the smaller right items are consumed. -/
theorem C24_join_once (right : List A) (hr : right.Pairwise (fun a b => g a ≤ g b)) (l : L) :
    joinBy (byKey f g) l right = (joinSpec f g right l, right.dropWhile (fun a => g a < f l)) := by
  induction right with
  | nil => rfl
  | cons a as ih =>
    obtain ⟨h1, h2⟩ := List.pairwise_cons.1 hr
    unfold joinBy byKey
    rcases lt_trichotomy (f l) (g a) with h | h | h
    · rw [(compare_lt_iff_lt).2 h]
      have hne : ¬ g a < f l := not_lt.2 (le_of_lt h)
      have hall : (a :: as).find? (fun a => g a = f l) = none := by
        rw [List.find?_eq_none]
        intro x hx
        rcases List.mem_cons.1 hx with rfl | hx
        · simpa using ne_of_gt h
        · simpa using ne_of_gt (lt_of_lt_of_le h (h1 x hx))
      simp [joinSpec, hall, h, hne]
    · rw [compare_eq_iff_eq.2 h]
      have : ¬ g a < f l := by rw [h]; exact lt_irrefl _
      simp [joinSpec, h]
    · rw [(compare_gt_iff_gt).2 h]
      simp only []
      rw [show joinBy (fun l a => compare (f l) (g a)) l as = joinBy (byKey f g) l as from rfl, ih h2]
      have : ¬ g a = f l := ne_of_lt h
      have h3 : ¬ f l < g a := not_lt.2 (le_of_lt h)
      simp [joinSpec, this, h, h3, List.find?_cons]

/-- One call of `join_next`: the same answer, and a match is consumed too. -/
theorem C24_join_next_once (right : List A) (hr : right.Pairwise (fun a b => g a ≤ g b)) (l : L) :
    joinNextBy (byKey f g) l right =
      (joinSpec f g right l,
        if right.any (fun a => g a = f l) then (right.dropWhile (fun a => g a < f l)).tail
        else right.dropWhile (fun a => g a < f l)) := by
  induction right with
  | nil => rfl
  | cons a as ih =>
    obtain ⟨h1, h2⟩ := List.pairwise_cons.1 hr
    unfold joinNextBy byKey
    rcases lt_trichotomy (f l) (g a) with h | h | h
    · rw [(compare_lt_iff_lt).2 h]
      have hne : ¬ g a < f l := not_lt.2 (le_of_lt h)
      have hall : (a :: as).find? (fun a => g a = f l) = none := by
        rw [List.find?_eq_none]
        intro x hx
        rcases List.mem_cons.1 hx with rfl | hx
        · simpa using ne_of_gt h
        · simpa using ne_of_gt (lt_of_lt_of_le h (h1 x hx))
      have hany : (a :: as).any (fun a => g a = f l) = false := by
        rw [List.find?_eq_none] at hall
        simpa using hall
      simp [joinSpec, hall, h, hne, hany]
    · rw [compare_eq_iff_eq.2 h]
      have : ¬ g a < f l := by rw [h]; exact lt_irrefl _
      simp [joinSpec, h]
    · rw [(compare_gt_iff_gt).2 h]
      simp only []
      rw [show joinNextBy (fun l a => compare (f l) (g a)) l as = joinNextBy (byKey f g) l as from rfl, ih h2]
      have : ¬ g a = f l := ne_of_lt h
      have h3 : ¬ f l < g a := not_lt.2 (le_of_lt h)
      simp [joinSpec, this, h, h3, List.find?_cons]

theorem joinSpec_dropWhile (right : List A) (k : K) (l : L) (hk : k ≤ f l) :
    joinSpec f g (right.dropWhile (fun a => g a < k)) l = joinSpec f g right l := by
  induction right with
  | nil => rfl
  | cons a as ih =>
    by_cases h : g a < k
    · rw [List.dropWhile_cons_of_pos (by simpa using h), ih]
      have h1 : ¬ g a = f l := ne_of_lt (lt_of_lt_of_le h hk)
      have h2 : ¬ f l < g a := not_lt.2 (le_of_lt (lt_of_lt_of_le h hk))
      simp [joinSpec, List.find?_cons, h1, h2]
    · rw [List.dropWhile_cons_of_neg (by simpa using h)]

/-- C24: driving `join` with ascending left items over ascending right items (duplicates allowed on both
sides) answers every left item as if it looked at the whole right sequence: `Match` with the first right
item of equal key; `Stop` iff no right item is at or above it; `Next` otherwise. -/
theorem C24_join_all (left : List L) (right : List A) (hl : left.Pairwise (fun a b => f a ≤ f b))
    (hr : right.Pairwise (fun a b => g a ≤ g b)) :
    joinDrive (joinBy (byKey f g)) left right = left.map (joinSpec f g right) := by
  induction left generalizing right with
  | nil => rfl
  | cons l ls ih =>
    obtain ⟨h1, h2⟩ := List.pairwise_cons.1 hl
    unfold joinDrive
    rw [C24_join_once f g right hr l]
    simp only [List.map_cons]
    rw [ih _ h2 (hr.sublist (List.dropWhile_sublist _))]
    congr 1
    apply List.map_congr_left
    intro l' hl'
    exact joinSpec_dropWhile f g right (f l) l' (h1 l' hl')

theorem joinSpec_tail (a : A) (as : List A) (l : L) (h : g a < f l) :
    joinSpec f g as l = joinSpec f g (a :: as) l := by
  have h1 : ¬ g a = f l := ne_of_lt h
  have h2 : ¬ f l < g a := not_lt.2 (le_of_lt h)
  simp [joinSpec, List.find?_cons, h1, h2]

/-- C24 for `join_next`: with strictly ascending left items the answers are the same although matches are
consumed. -/
theorem C24_join_next_all (left : List L) (right : List A) (hl : left.Pairwise (fun a b => f a < f b))
    (hr : right.Pairwise (fun a b => g a ≤ g b)) :
    joinDrive (joinNextBy (byKey f g)) left right = left.map (joinSpec f g right) := by
  induction left generalizing right with
  | nil => rfl
  | cons l ls ih =>
    obtain ⟨h1, h2⟩ := List.pairwise_cons.1 hl
    unfold joinDrive
    rw [C24_join_next_once f g right hr l]
    simp only [List.map_cons]
    have hs : (if right.any (fun a => decide (g a = f l)) = true then
        (right.dropWhile (fun a => g a < f l)).tail else right.dropWhile (fun a => g a < f l)).Sublist right := by
      split
      · exact (List.tail_sublist _).trans (List.dropWhile_sublist _)
      · exact List.dropWhile_sublist _
    rw [ih _ h2 (hr.sublist hs)]
    congr 1
    apply List.map_congr_left
    intro l' hl'
    have hlt := h1 l' hl'
    split
    · rename_i hany
      -- the consumed item has the key of `l`
      cases hd : right.dropWhile (fun a => decide (g a < f l)) with
      | nil => rw [← joinSpec_dropWhile f g right (f l) l' (le_of_lt hlt), hd]; rfl
      | cons a as =>
        have ha : g a ≤ f l := by
          simp only [List.any_eq_true, decide_eq_true_eq] at hany
          obtain ⟨b, hb, hbe⟩ := hany
          have hsplit := List.takeWhile_append_dropWhile (p := fun a => decide (g a < f l)) (l := right)
          rw [hd] at hsplit
          rw [← hsplit] at hb hr
          rcases List.mem_append.1 hb with hb | hb
          · have : decide (g b < f l) = true := List.all_eq_true.1 List.all_takeWhile b hb
            simp only [decide_eq_true_eq] at this
            exact absurd hbe (ne_of_lt this)
          · rcases List.mem_cons.1 hb with rfl | hb
            · exact le_of_eq hbe
            · rw [← hbe]
              exact (List.pairwise_cons.1 (List.pairwise_append.1 hr).2.1).1 b hb
        rw [← joinSpec_dropWhile f g right (f l) l' (le_of_lt hlt), hd, List.tail_cons]
        exact joinSpec_tail f g a as l' (lt_of_le_of_lt ha hlt)
    · exact joinSpec_dropWhile f g right (f l) l' (le_of_lt hlt)

/-- C24: `join_next` pairs equal left items with successive right items: two left items with the same key
get the first and the second right item of that key. -/
theorem C24_join_next_pairs (right : List A) (hr : right.Pairwise (fun a b => g a ≤ g b)) (l : L) (n : Nat) :
    (joinDrive (joinNextBy (byKey f g)) (List.replicate n l) right).filterMap
      (fun j => match j with | .hit a => some a | _ => none) = (right.filter (fun a => g a = f l)).take n := by
  induction n generalizing right with
  | zero => rfl
  | succ n ih =>
    rw [List.replicate_succ]
    unfold joinDrive
    rw [C24_join_next_once f g right hr l]
    have hs : (if right.any (fun a => decide (g a = f l)) = true then
        (right.dropWhile (fun a => g a < f l)).tail else right.dropWhile (fun a => g a < f l)).Sublist right := by
      split
      · exact (List.tail_sublist _).trans (List.dropWhile_sublist _)
      · exact List.dropWhile_sublist _
    simp only [List.filterMap_cons]
    rw [ih _ (hr.sublist hs)]
    have hdw : (right.dropWhile (fun a => g a < f l)).filter (fun a => g a = f l) = right.filter (fun a => g a = f l) := by
      clear hr hs ih
      induction right with
      | nil => rfl
      | cons a as ih =>
        by_cases h : g a < f l
        · rw [List.dropWhile_cons_of_pos (by simpa using h), ih]
          simp [ne_of_lt h]
        · rw [List.dropWhile_cons_of_neg (by simpa using h)]
    cases hfind : right.find? (fun a => g a = f l) with
    | none =>
      have hnil : right.filter (fun a => g a = f l) = [] := by
        rw [List.filter_eq_nil_iff]
        rw [List.find?_eq_none] at hfind
        exact hfind
      have hany : right.any (fun a => g a = f l) = false := by
        rw [List.find?_eq_none] at hfind
        simpa using hfind
      simp only [joinSpec, hfind]
      rw [hany]
      simp only [Bool.false_eq_true, if_false]
      rw [hdw, hnil]
      cases right.any (fun a => decide (f l < g a)) <;> simp
    | some a =>
      have hmem := List.mem_of_find?_eq_some hfind
      have hga : g a = f l := by simpa using List.find?_some hfind
      have hany : right.any (fun a => g a = f l) = true := by
        simp only [List.any_eq_true, decide_eq_true_eq]
        exact ⟨a, hmem, hga⟩
      simp only [joinSpec, hfind]
      rw [hany, if_pos rfl]
      -- the first element at or above the key is `a`
      obtain ⟨as, has⟩ : ∃ as, right.dropWhile (fun a => g a < f l) = a :: as := by
        clear hdw hs ih
        induction right with
        | nil => simp at hmem
        | cons b bs ih2 =>
          by_cases hb : g b < f l
          · rw [List.dropWhile_cons_of_pos (by simpa using hb)]
            have hbn : ¬ g b = f l := ne_of_lt hb
            rw [List.find?_cons] at hfind
            simp only [hbn, decide_false] at hfind
            exact ih2 (List.pairwise_cons.1 hr).2 hfind (List.mem_of_find?_eq_some hfind) (by
              simp only [List.any_eq_true, decide_eq_true_eq]
              exact ⟨a, List.mem_of_find?_eq_some hfind, hga⟩)
          · rw [List.dropWhile_cons_of_neg (by simpa using hb)]
            have hbe : g b = f l := by
              rcases List.mem_cons.1 hmem with rfl | hm
              · exact hga
              · exact le_antisymm (hga ▸ (List.pairwise_cons.1 hr).1 a hm) (not_lt.1 hb)
            rw [List.find?_cons] at hfind
            simp only [hbe, decide_true] at hfind
            injection hfind with hfind
            subst hfind
            exact ⟨bs, rfl⟩
      have hf : right.filter (fun a => g a = f l) = a :: as.filter (fun a => g a = f l) := by
        rw [← hdw, has, List.filter_cons]
        simp [hga]
      rw [hf, has]
      simp

/-- The example of the crate's documentation. -/
example : joinDrive (joinBy (byKey id id)) [2, 3, 5, 7, 11] [1, 3, 4, 5, 7, 9] =
    [.next, .hit 3, .hit 5, .hit 7, .stop] := by decide
example : joinDrive (joinNextBy (byKey id Prod.fst)) [2, 2, 2, 3] [(1, 'a'), (2, 'b'), (2, 'c'), (4, 'd')] =
    [.hit (2, 'b'), .hit (2, 'c'), .next, .next] := by decide

end Join

/-- The row iterators' join is this join on row ids. -/
theorem C24_iterators_use_it (l : Nat) (right : List Nat) : joinStep l right = joinBy (byKey id id) l right := by
  induction right with
  | nil => rfl
  | cons r rs ih =>
    unfold joinStep joinBy byKey
    rcases lt_trichotomy l r with h | h | h
    · rw [if_pos h, (compare_lt_iff_lt).2 (by simpa using h)]
    · subst h; rw [if_neg (lt_irrefl _), if_pos rfl, compare_eq_iff_eq.2 rfl]
    · rw [if_neg (by omega), if_neg (by omega), (compare_gt_iff_gt).2 (by simpa using h), ih]; rfl

/-! ## C25 -/

/-- The ids in a range. -/
def idsOf (r : RowRange) : List Nat := (List.range r.stop).filter (fun i => r.start ≤ i)

theorem mem_idsOf (r : RowRange) (i : Nat) : i ∈ idsOf r ↔ r.start ≤ i ∧ i < r.stop := by
  simp [idsOf, and_comm]

theorem idsOf_eq (r : RowRange) : idsOf r = List.range' r.start (r.stop - r.start) := by
  apply BSet.ext
  · exact List.Pairwise.filter _ List.pairwise_lt_range
  · exact List.pairwise_lt_range'
  · intro i
    rw [mem_idsOf, List.mem_range'_1]; omega

/-- C25: `contains` is membership. -/
theorem C25_contains (r : RowRange) (i : Nat) : r.contains i = true ↔ i ∈ idsOf r := by
  rw [mem_idsOf]; simp [RowRange.contains]

/-- C25: `len` is the number of ids (it panics on a reversed range). -/
theorem C25_len (r : RowRange) : (r.start ≤ r.stop → r.len = .ok (idsOf r).length) ∧
    (r.stop < r.start → r.len = .error .subOverflow) := by
  rw [idsOf_eq]
  unfold RowRange.len
  constructor
  · intro h; rw [if_neg (by omega)]; simp
  · intro h; rw [if_pos h]

/-- C25: `inner_index` is the position in the range. -/
theorem C25_inner_index (r : RowRange) (i k : Nat) : r.innerIndex i = some k ↔ (idsOf r)[k]? = some i := by
  rw [idsOf_eq, List.getElem?_eq_some_iff]
  unfold RowRange.innerIndex RowRange.contains
  simp only [List.length_range', List.getElem_range', Nat.one_mul]
  constructor
  · intro h
    split at h
    · rename_i hc
      simp only [Bool.and_eq_true, decide_eq_true_eq] at hc
      injection h with h
      exact ⟨by omega, by omega⟩
    · cases h
  · rintro ⟨h1, h2⟩
    rw [if_pos (by simp; omega)]
    congr 1; omega

/-- C25: iterating a range of valid ids (`iter_slow`, `range`) yields exactly its ids, ascending. -/
theorem C25_iteration (max : Nat) (r : RowRange) (h : r.stop ≤ max) :
    drain (RowRange.next max) (r.stop - r.start + 1) r.iterSlow = .ok (idsOf r) := by
  rw [idsOf_eq]
  exact drain_range max _ r.start r.stop h (by omega)

/-- C25: `on(i)` contains exactly `i`; it panics for the maximal id. -/
theorem C25_on (max i : Nat) :
    (i < max → ∃ r, RowRange.on max i = .ok r ∧ idsOf r = [i]) ∧ (i = max → RowRange.on max i = .error .idxOverflow) := by
  unfold RowRange.on nextId
  constructor
  · intro h
    rw [if_pos (by omega)]
    refine ⟨⟨i, i + 1⟩, rfl, ?_⟩
    rw [idsOf_eq]
    simp [List.range']
  · intro h
    rw [if_neg (by omega)]; rfl

/-- C25: `empty()` contains nothing. -/
theorem C25_empty (max : Nat) : idsOf (RowRange.empty max) = [] ∧ (RowRange.empty max).len = .ok 0 := by
  rw [idsOf_eq]
  simp [RowRange.empty, RowRange.len]

/-- C25: for `n` other than the range's length, `offset(n)` is `Some` iff `start + n` is in the range. -/
theorem C25_offset (max : Nat) (r : RowRange) (hv : r.start ≤ r.stop) (hm : r.stop ≤ max) (n i : Nat)
    (hn : n ≠ r.stop - r.start) : r.offset max n = some i ↔ i = r.start + n ∧ i ∈ idsOf r := by
  rw [mem_idsOf]
  unfold RowRange.offset
  by_cases h1 : r.start + n ≤ max
  · by_cases h2 : r.start + n > r.stop
    · simp only [h1, h2, if_true]
      constructor
      · intro h; cases h
      · rintro ⟨rfl, h⟩; omega
    · simp only [h1, h2, if_true, if_false, Option.some.injEq]
      constructor
      · rintro rfl; exact ⟨rfl, by omega, by omega⟩
      · rintro ⟨h, -⟩; exact h.symm
  · simp only [h1, if_false]
    constructor
    · intro h; cases h
    · rintro ⟨rfl, h⟩; omega

/-- C25, the exception, for every valid range: `offset(len)` is the end of the range, which is not in it. -/
theorem C25_offset_off_by_one (max : Nat) (r : RowRange) (hv : r.start ≤ r.stop) (hm : r.stop ≤ max) :
    r.offset max (r.stop - r.start) = some r.stop ∧ r.stop ∉ idsOf r := by
  constructor
  · unfold RowRange.offset
    rw [if_pos (by omega), if_neg (by omega)]
    congr 1; omega
  · rw [mem_idsOf]; omega

/-- C25: non-empty ranges intersect iff they share an id. -/
theorem C25_intersects (r o : RowRange) (hr : r.start < r.stop) (ho : o.start < o.stop) :
    r.intersects o = .ok true ↔ ∃ i, i ∈ idsOf r ∧ i ∈ idsOf o := by
  unfold RowRange.intersects
  rw [if_pos ⟨by omega, by omega⟩]
  simp only [mem_idsOf]
  constructor
  · intro h
    injection h with h
    simp only [Bool.not_eq_true', Bool.or_eq_false_iff, decide_eq_false_iff_not, not_le] at h
    exact ⟨Nat.max r.start o.start, by simp only [Nat.max_def]; split <;> omega⟩
  · rintro ⟨i, h1, h2⟩
    congr 1
    simp only [Bool.not_eq_true', Bool.or_eq_false_iff, decide_eq_false_iff_not, not_le]
    omega

/-- C25, the exception: an empty range strictly inside another one is said to intersect it (exactly then). -/
theorem C25_intersects_empty (r : RowRange) (hr : r.start ≤ r.stop) (i : Nat) :
    r.intersects ⟨i, i⟩ = .ok (decide (r.start < i ∧ i < r.stop)) ∧ idsOf ⟨i, i⟩ = [] := by
  constructor
  · unfold RowRange.intersects
    rw [if_pos ⟨hr, le_refl _⟩]
    congr 1
    rw [Bool.eq_iff_iff]
    simp only [Bool.not_eq_true', Bool.or_eq_false_iff, decide_eq_false_iff_not, not_le, decide_eq_true_eq]
    omega
  · rw [idsOf_eq]; simp

example : (⟨3, 6⟩ : RowRange).offset 255 2 = some 5 ∧ (⟨3, 6⟩ : RowRange).offset 255 3 = some 6 ∧
    (⟨0, 5⟩ : RowRange).intersects ⟨2, 2⟩ = .ok true ∧ (⟨0, 5⟩ : RowRange).intersects ⟨5, 8⟩ = .ok false := by decide

/-! ## C54 -/

/-- C54: after `skip_fast(n)` an iterator yields exactly its ids from the `n`-th on (also past the end);
`skip_fast` panics iff the start would leave the row-id type. -/
theorem C54_skip_fast (max : Nat) (r : RowRange) (hm : r.stop ≤ max) (n : Nat) :
    (r.start + n ≤ max → ∃ r', r.skipFast max n = .ok r' ∧
      drain (RowRange.next max) (r.stop - r.start + 1) r' = .ok ((idsOf r).drop n)) ∧
    (max < r.start + n → r.skipFast max n = .error .idxOverflow) := by
  unfold RowRange.skipFast
  constructor
  · intro h
    rw [fromUsize_ok h, okBind]
    refine ⟨⟨r.start + n, r.stop⟩, rfl, ?_⟩
    rw [drain_range max _ (r.start + n) r.stop hm (by omega), idsOf_eq, List.drop_range', Nat.mul_one,
      Nat.sub_add_eq]
  · intro h
    unfold fromUsize
    rw [if_neg (by omega)]; rfl

/-- C54: `size_hint` is the exact number of ids left, for an iterator not past its end. -/
theorem C54_size_hint (max : Nat) (r : RowRange) (hm : r.stop ≤ max) (h : r.start ≤ r.stop) :
    ∃ ids, drain (RowRange.next max) (r.stop - r.start + 1) r = .ok ids ∧ r.sizeHint = .ok ids.length := by
  refine ⟨_, drain_range max _ r.start r.stop hm (by omega), ?_⟩
  unfold RowRange.sizeHint
  rw [if_neg (by omega)]; simp

/-- C54, the exception: past the end, `size_hint` underflows (so `collect()` panics) although nothing is left. -/
theorem C54_size_hint_underflow (max : Nat) (r : RowRange) (hm : r.stop ≤ max) (n : Nat) (h : r.start + n ≤ max)
    (hpast : r.stop < r.start + n) :
    ∃ r', r.skipFast max n = .ok r' ∧ drain (RowRange.next max) 1 r' = .ok [] ∧ r'.sizeHint = .error .subOverflow := by
  unfold RowRange.skipFast
  rw [fromUsize_ok h, okBind]
  refine ⟨⟨r.start + n, r.stop⟩, rfl, ?_, ?_⟩
  · rw [drain_range max 1 (r.start + n) r.stop hm (by omega)]
    rw [show r.stop - (r.start + n) = 0 by omega]; rfl
  · unfold RowRange.sizeHint
    rw [if_pos hpast]

/-- C54 for the iterators of consistent tables: `skip_fast(n)` skips `n` ids, live or not; what follows is
exactly the live ids from there on. -/
theorem C54_skip_fast_live (max : Nat) (it : LiveIter) (hm : it.rows.stop ≤ max) (n : Nat) (hn : it.rows.start + n ≤ max)
    (hdel : it.deleted.Pairwise (· < ·)) :
    ∃ it', it.skipFast max n = .ok it' ∧
      drain (LiveIter.next max) (it.rows.stop - it.rows.start + 1) it' =
        .ok (((idsOf it.rows).drop n).filter (· ∉ it.deleted)) := by
  unfold LiveIter.skipFast RowRange.skipFast
  rw [fromUsize_ok hn]
  simp only [okBind]
  refine ⟨⟨⟨it.rows.start + n, it.rows.stop⟩, it.deleted⟩, rfl, ?_⟩
  rw [drain_live max _ (it.rows.start + n) it.rows.stop hm (by omega) hdel]
  congr 1
  rw [idsOf_eq, List.drop_range', liveIds]
  simp
  congr 2; omega

example : (do let r ← (⟨2, 6⟩ : RowRange).skipFast 255 3
              drain (RowRange.next 255) 5 r) = .ok [5] := by decide
example : (do let it ← (⟨⟨0, 6⟩, [1, 4]⟩ : LiveIter).skipFast 255 1
              drain (LiveIter.next 255) 7 it) = .ok [2, 3, 5] := by decide

end V11
