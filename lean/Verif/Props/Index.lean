import Verif.Props.Demo

/-!
# Indexed columns (C12–C14) and boolean columns (C26)
-/

set_option linter.unusedSimpArgs false
set_option linter.unusedSectionVars false
set_option linter.unusedVariables false

namespace V11
variable {S : Schema} [LS : LawfulSchema S] {K : Type} [LinearOrder K] {key : Row S → K}

theorem view_some_iff {t : Tbl S} {L : List (Row S)} (h : WF t L) (i : Nat) (r : Row S) :
    t.view i = some r ↔ L[i]? = some r ∧ i ∉ t.free := by
  rw [h.view]; split <;> simp_all

/-! ## C12 -/

/-- C12, for any column that behaves as one. -/
theorem find_spec (t : Tbl S) (ht : Reach key true t) (j : Fin (S.n + 1))
    (find : (S.C j).σ → S.E j → R (List Nat)) (hf : (S.C j).find = some find) (e : S.E j) :
    ∃ ids, find (t.cols j) e = .ok ids ∧ ids.Pairwise (· < ·) ∧
      ∀ i, i ∈ ids ↔ i < S.max ∧ ∃ r, t.view i = some r ∧ r j = e := by
  obtain ⟨L, h⟩ := ht.wf
  obtain ⟨l, h1, h2, h3⟩ := (LS.law j).find_ok hf e (h.rep.inv j)
  refine ⟨l, h1, h2, ?_⟩
  intro i
  rw [h3, h.rep.abs]
  constructor
  · rintro ⟨a, b, c⟩
    rw [List.getElem?_map, Option.map_eq_some_iff] at b
    obtain ⟨r, hr, hre⟩ := b
    exact ⟨a, r, (view_some_iff h i r).2 ⟨hr, c⟩, hre⟩
  · rintro ⟨a, r, hr, hre⟩
    obtain ⟨hl, hn⟩ := (view_some_iff h i r).1 hr
    exact ⟨a, by rw [List.getElem?_map, hl]; simp [hre], hn⟩

/-- C12: for every table definition, `find(e)` of a column yields, strictly ascending, exactly the live ids below the
row-id type's maximum whose element is `e`; columns with `find` are the indexed ones. -/
theorem C12_find {n : Nat} (cs : Fin (n + 1) → ColSpec) (max : Nat) (kind : Kind) {key : Row (mkSchema cs max kind) → K}
    (t : Tbl (mkSchema cs max kind)) (ht : Reach key true t) (j : Fin (n + 1)) :
    ((((cs j).col max).find).isSome = true ↔ ((∃ E ord, cs j = .index E ord) ∨ cs j = .indexBool)) ∧
    ∀ find, ((cs j).col max).find = some find → ∀ e : (cs j).Elem, ∃ ids, find (t.cols j) e = .ok ids ∧
      ids.Pairwise (· < ·) ∧ ∀ i, i ∈ ids ↔ i < max ∧ ∃ r, t.view i = some r ∧ r j = e := by
  refine ⟨?_, fun find hf e => find_spec t ht j find hf e⟩
  cases h : cs j <;> simp

/-- C12 without exception, as long as the id equal to the row-id type's maximum is not in use. -/
theorem C12_find_exact (t : Tbl S) (ht : Reach key true t) (hmax : t.contains S.max = false) (j : Fin (S.n + 1))
    (find : (S.C j).σ → S.E j → R (List Nat)) (hf : (S.C j).find = some find) (e : S.E j) :
    ∃ ids, find (t.cols j) e = .ok ids ∧ ids.Pairwise (· < ·) ∧
      ∀ i, i ∈ ids ↔ ∃ r, t.view i = some r ∧ r j = e := by
  obtain ⟨l, h1, h2, h3⟩ := find_spec t ht j find hf e
  refine ⟨l, h1, h2, ?_⟩
  intro i
  rw [h3]
  constructor
  · exact fun h => h.2
  · rintro ⟨r, hr, hre⟩
    refine ⟨?_, r, hr, hre⟩
    obtain ⟨L, hwf⟩ := ht.wf
    obtain ⟨hl, hn⟩ := (view_some_iff hwf i r).1 hr
    have hlt : i < L.length := (List.getElem?_eq_some_iff.1 hl).1
    have := hwf.rep.le
    rcases Nat.lt_or_ge i S.max with hlt' | hge
    · exact hlt'
    · have : i = S.max := by omega
      subst this
      rw [(hwf.contains_iff _).2 ⟨hlt, hn⟩] at hmax; cases hmax

/-- C12: the exception: a live row with the maximal id is never found. -/
theorem C12_find_misses_max (t : Tbl S) (ht : Reach key true t) (j : Fin (S.n + 1))
    (find : (S.C j).σ → S.E j → R (List Nat)) (hf : (S.C j).find = some find) (r : Row S)
    (hr : t.view S.max = some r) : ∃ ids, find (t.cols j) (r j) = .ok ids ∧ S.max ∉ ids := by
  obtain ⟨l, h1, -, h3⟩ := find_spec t ht j find hf (r j)
  exact ⟨l, h1, fun hm => absurd ((h3 _).1 hm).1 (lt_irrefl _)⟩

/-- `find` of the demo table: key 5 is held by ids 0 and 2, key 6 only by the deleted id 1. -/
example : (btreeFind 255 (vecCol Nat) ((demoTbl 255).cols 0) 5) = .ok [0, 2] ∧
    (btreeFind 255 (vecCol Nat) ((demoTbl 255).cols 0) 6) = .ok [] ∧ (demoTbl 255).contains 255 = false := by decide

/-- With ids `0..=2`, row 2 is live, holds 5 and is missed. -/
example : ((demoTbl 2).view 2).map demoVals = some (5, true, 3) ∧
    (btreeFind 2 (vecCol Nat) ((demoTbl 2).cols 0) 5) = .ok [0] := by decide

/-! ## C13 -/

/-- C13, for any column that behaves as one. -/
theorem range_spec (t : Tbl S) (ht : Reach key true t) (j : Fin (S.n + 1))
    (range : (S.C j).σ → S.E j → S.E j → R (List Nat)) (hf : (S.C j).range = some range) (lo hi : S.E j) :
    ((S.C j).le lo hi → ∃ ps : List (S.E j × Nat), range (t.cols j) lo hi = .ok (ps.map Prod.snd) ∧
      ps.Pairwise (fun p q => (S.C j).le p.1 q.1 ∧ ((S.C j).le q.1 p.1 → p.2 < q.2)) ∧
      ∀ e i, (e, i) ∈ ps ↔ (S.C j).le lo e ∧ (S.C j).le e hi ∧ (e = hi → i < S.max) ∧
        ∃ r, t.view i = some r ∧ r j = e) ∧
    (¬ (S.C j).le lo hi → range (t.cols j) lo hi = .error .rangeOrder) := by
  obtain ⟨L, h⟩ := ht.wf
  obtain ⟨h1, h2⟩ := (LS.law j).range_ok hf lo hi (h.rep.inv j)
  refine ⟨?_, h2⟩
  intro hle
  obtain ⟨ps, e1, e2, e3⟩ := h1 hle
  refine ⟨ps, e1, e2, ?_⟩
  intro e i
  rw [e3, h.rep.abs]
  constructor
  · rintro ⟨a, b, c, d, f⟩
    rw [List.getElem?_map, Option.map_eq_some_iff] at d
    obtain ⟨r, hr, hre⟩ := d
    exact ⟨a, b, c, r, (view_some_iff h i r).2 ⟨hr, f⟩, hre⟩
  · rintro ⟨a, b, c, r, hr, hre⟩
    obtain ⟨hl, hn⟩ := (view_some_iff h i r).1 hr
    exact ⟨a, b, c, by rw [List.getElem?_map, hl]; simp [hre], hn⟩

/-- C13: for every table definition, `range(lo, hi)` yields the live ids whose element lies in `[lo, hi]`, ordered by
element and then id, except that the maximal id is missed among those with element `hi`; it panics iff `lo > hi`. -/
theorem C13_range {n : Nat} (cs : Fin (n + 1) → ColSpec) (max : Nat) (kind : Kind) {key : Row (mkSchema cs max kind) → K}
    (t : Tbl (mkSchema cs max kind)) (ht : Reach key true t) (j : Fin (n + 1)) (range)
    (hf : ((cs j).col max).range = some range) (lo hi : (cs j).Elem) :
    (((cs j).col max).le lo hi → ∃ ps : List ((cs j).Elem × Nat), range (t.cols j) lo hi = .ok (ps.map Prod.snd) ∧
      ps.Pairwise (fun p q => ((cs j).col max).le p.1 q.1 ∧ (((cs j).col max).le q.1 p.1 → p.2 < q.2)) ∧
      ∀ e i, (e, i) ∈ ps ↔ ((cs j).col max).le lo e ∧ ((cs j).col max).le e hi ∧ (e = hi → i < max) ∧
        ∃ r, t.view i = some r ∧ r j = e) ∧
    (¬ ((cs j).col max).le lo hi → range (t.cols j) lo hi = .error .rangeOrder) :=
  range_spec t ht j range hf lo hi

/-- The order used for an indexed column is the element's own. -/
theorem C13_le_is_order (E : Type) (ord : LinearOrder E) (max : Nat) (a b : E) :
    ((ColSpec.index E ord).col max).le a b ↔ a ≤ b := Iff.rfl

/-- C13 without exception, as long as the id equal to the row-id type's maximum is not in use. -/
theorem C13_range_exact (t : Tbl S) (ht : Reach key true t) (hmax : t.contains S.max = false) (j : Fin (S.n + 1))
    (range : (S.C j).σ → S.E j → S.E j → R (List Nat)) (hf : (S.C j).range = some range) (lo hi : S.E j)
    (hle : (S.C j).le lo hi) : ∃ ids, range (t.cols j) lo hi = .ok ids ∧
      ∀ i, i ∈ ids ↔ ∃ r, t.view i = some r ∧ (S.C j).le lo (r j) ∧ (S.C j).le (r j) hi := by
  obtain ⟨ps, e1, -, e3⟩ := (range_spec t ht j range hf lo hi).1 hle
  refine ⟨_, e1, ?_⟩
  intro i
  rw [List.mem_map]
  constructor
  · rintro ⟨⟨e, k⟩, hm, rfl⟩
    obtain ⟨a, b, -, r, hr, hre⟩ := (e3 _ _).1 hm
    exact ⟨r, hr, hre ▸ a, hre ▸ b⟩
  · rintro ⟨r, hr, a, b⟩
    refine ⟨(r j, i), (e3 _ _).2 ⟨a, b, ?_, r, hr, rfl⟩, rfl⟩
    intro _
    obtain ⟨L, hwf⟩ := ht.wf
    obtain ⟨hl, hn⟩ := (view_some_iff hwf i r).1 hr
    have hlt : i < L.length := (List.getElem?_eq_some_iff.1 hl).1
    have := hwf.rep.le
    rcases Nat.lt_or_ge i S.max with hlt' | hge
    · exact hlt'
    · have : i = S.max := by omega
      subst this
      rw [(hwf.contains_iff _).2 ⟨hlt, hn⟩] at hmax; cases hmax

example : (btreeRange 255 (vecCol Nat) ((demoTbl 255).cols 0) 4 6) = .ok [0, 2] ∧
    (btreeRange 255 (vecCol Nat) ((demoTbl 255).cols 0) 6 4) = .error .rangeOrder ∧
    (btreeRange 2 (vecCol Nat) ((demoTbl 2).cols 0) 4 5) = .ok [0] := by decide

/-! ## C14 -/

/-- Which columns carry an index. -/
def ColSpec.indexed : ColSpec → Bool
  | .vec _ | .bool => false
  | .index _ _ | .indexBool => true

/-- C14: no in-place write to an indexed column ever succeeds. -/
theorem C14_indexed_immutable {n : Nat} (cs : Fin (n + 1) → ColSpec) (max : Nat) (kind : Kind)
    (t : Tbl (mkSchema cs max kind)) (j : Fin (n + 1)) (h : (cs j).indexed = true) (i : Nat) (v : (cs j).Elem) :
    t.setCell j i v = .error .indexedMut ∨ t.setCell j i v = .error .indexOob := by
  have hm : ∀ (c : ColSpec), c.indexed = true → ∀ s i, (c.col max).indexMut s i = .error .indexedMut := by
    intro c hc s i
    cases c with
    | vec E => cases hc
    | bool => cases hc
    | index E o => rfl
    | indexBool => rfl
  unfold Tbl.setCell
  split
  · exact Or.inr rfl
  · left
    show (((cs j).col max).indexMut (t.cols j) i >>= _) = _
    rw [hm _ h]; rfl

/-- C14: an in-place write to an unindexed column succeeds on every id in range. -/
theorem C14_unindexed_writable {n : Nat} (cs : Fin (n + 1) → ColSpec) (max : Nat) (kind : Kind) (c : Bool)
    {key : Row (mkSchema cs max kind) → K} (t : Tbl (mkSchema cs max kind)) (ht : Reach key c t) (j : Fin (n + 1))
    (h : (cs j).indexed = false) (i : Nat) (hi : i < t.len) (v : (cs j).Elem) : ∃ t', t.setCell j i v = .ok t' := by
  obtain ⟨L, d, hal⟩ := ht.aligned
  rw [hal.rep.len] at hi
  rcases hal.rep.setCell j v hi with e | ⟨t', e, -⟩
  swap
  · exact ⟨t', e⟩
  exfalso
  have hm : ∀ (c : ColSpec), c.indexed = false → ∀ s i, (c.col max).indexMut s i ≠ .error .indexedMut := by
    intro c hc s i
    cases c with
    | vec E =>
      show (uncheckedGet s i >>= _) ≠ _
      unfold uncheckedGet
      split <;> simp
    | bool =>
      show (BoolState.flush s >>= _) ≠ _
      unfold BoolState.flush checkedSet checkedGet
      cases s.refIdx with
      | none =>
        simp only [okBind]
        cases s.data[i]? <;> simp
      | some k =>
        simp only []
        split
        · simp only [okBind]
          cases s.data[i]? <;> simp
        · split
          · simp only [okBind]
            split <;> simp
          · simp
    | index E o => cases hc
    | indexBool => cases hc
  unfold Tbl.setCell at e
  rw [if_neg (by rw [hal.rep.colLen]; omega)] at e
  have h2 : ((cs j).col max).indexMut (t.cols j) i = .error .indexedMut := by
    have e' : (((cs j).col max).indexMut (t.cols j) i >>= fun p =>
      (Except.ok { t with cols := Function.update t.cols j (p.2 v) } : R (Tbl (mkSchema cs max kind)))) = .error .indexedMut := e
    cases h3 : ((cs j).col max).indexMut (t.cols j) i with
    | ok a => rw [h3, okBind] at e'; cases e'
    | error p => rw [h3, errBind] at e'; injection e' with e'; rw [e']
  exact hm _ h _ _ h2

/-- C14: a successful in-place write changes exactly that element; the id's liveness, the other columns of the
row and all other rows stay. -/
theorem C14_write_exact (t t' : Tbl S) (ht : Reach key true t) (j : Fin (S.n + 1)) (i : Nat) (v : S.E j)
    (h : t.setCell j i v = .ok t') :
    t'.len = t.len ∧ (∀ k, t'.contains k = t.contains k) ∧ (∀ k, k ≠ i → t'.view k = t.view k) ∧
    t'.view i = (t.view i).map (fun r => Function.update r j v) := by
  obtain ⟨L, hwf⟩ := ht.wf
  by_cases hi : i < L.length
  swap
  · rw [hwf.rep.setCell_oob j v (by omega)] at h; cases h
  rcases hwf.setCell j v hi with e | ⟨t1, e1, e2, e3⟩
  · rw [h] at e; cases e
  rw [h] at e1; injection e1 with e1; subst e1
  refine ⟨by rw [hwf.len, e3.len]; simp, ?_, ?_, ?_⟩
  · intro k; rw [Bool.eq_iff_iff, e3.contains_iff, hwf.contains_iff, e2]; simp
  · intro k hk; rw [e3.view, hwf.view, e2, List.getElem?_set_ne (Ne.symm hk)]
  · rw [e3.view, hwf.view, e2]
    split
    · rfl
    · rw [List.getElem?_set_self hi, List.getElem?_eq_getElem hi]; rfl

example : (demoCols 0).indexed = true := rfl
example : ((demoTbl 255).setCell 2 0 (8 : Nat)).toOption.map (fun t => demoView t 3) =
    some [some (5, true, 8), none, some (5, true, 3)] := by decide
example : ((demoTbl 255).setCell 1 2 false).toOption.map (fun t => demoView t 3) =
    some [some (5, true, 1), none, some (5, false, 3)] := by decide
example : ((demoTbl 255).setCell 0 0 (8 : Nat)).toOption.isNone = true := by decide

/-! ## C26 -/

/-- Calls on a column of booleans, as the table code makes them. -/
inductive BOp where
  | push (b : Bool) | get (i : Nat) | len | set (i : Nat) (b : Bool) | borrow (i : Nat)
  | swap (i k : Nat) | swapOut (i : Nat) (b : Bool) | truncate (n : Nat) | clear | deleted (i : Nat) | toList
deriving DecidableEq

/-- What a call shows its caller. -/
inductive BOut where
  | unit | bool (b : Bool) | num (n : Nat) | list (l : List Bool)
deriving DecidableEq

/-- The specification: a plain vector of booleans. `none` is an out-of-bounds panic. `borrow` takes a
mutable reference and reads through it. -/
def bSpec (l : List Bool) : BOp → Option (List Bool × BOut)
  | .push b => some (l ++ [b], .unit)
  | .get i => l[i]?.map fun v => (l, .bool v)
  | .len => some (l, .num l.length)
  | .set i b => if i < l.length then some (l.set i b, .unit) else none
  | .borrow i => l[i]?.map fun v => (l, .bool v)
  | .swap i k =>
    match l[i]?, l[k]? with
    | some a, some b => some ((l.set i b).set k a, .unit)
    | _, _ => none
  | .swapOut i b => l[i]?.map fun v => (l.set i b, .bool v)
  | .truncate n => some (l.take n, .unit)
  | .clear => some ([], .unit)
  | .deleted _ => some (l, .unit)
  | .toList => some (l, .list l)

/-- The code: `BoolCol` with its one-element write-back cache. -/
def bImpl (s : BoolState) : BOp → R (BoolState × BOut)
  | .push b => do let s ← boolCol.push s b; .ok (s, .unit)
  | .get i => do let v ← boolCol.index s i; .ok (s, .bool v)
  | .len => .ok (s, .num (boolCol.len s))
  | .set i b => do let (_, put) ← boolCol.indexMut s i; .ok (put b, .unit)
  | .borrow i => do let (v, put) ← boolCol.indexMut s i; .ok (put v, .bool v)
  | .swap i k => do let s ← boolCol.swap s i k; .ok (s, .unit)
  | .swapOut i b => do let (s, v) ← boolCol.swapOut s i b; .ok (s, .bool v)
  | .truncate n => do let s ← boolCol.truncate s n; .ok (s, .unit)
  | .clear => do let s ← boolCol.clear s; .ok (s, .unit)
  | .deleted i => do let s ← boolCol.deleted s i; .ok (s, .unit)
  | .toList => .ok (s, .list (boolCol.toList s))

/-- Runs calls, collecting the outputs; `none` once one panics. -/
def bSpecRun (l : List Bool) : List BOp → Option (List BOut)
  | [] => some []
  | op :: ops => do
    let (l, o) ← bSpec l op
    let os ← bSpecRun l ops
    some (o :: os)

/-- Runs calls on the code. -/
def bImplRun (s : BoolState) : List BOp → R (List BOut)
  | [] => .ok []
  | op :: ops => do
    let (s, o) ← bImpl s op
    let os ← bImplRun s ops
    .ok (o :: os)

theorem bImpl_step (s : BoolState) (hs : s.Inv) (op : BOp) :
    match bSpec s.abs op with
    | some (l, o) => ∃ s', bImpl s op = .ok (s', o) ∧ s'.Inv ∧ s'.abs = l
    | none => bImpl s op = .error .vecOob := by
  have hfl := BoolState.flush_ok hs
  have habs := BoolState.abs_length s
  have hget : ∀ i, (i < s.abs.length → boolCol.index s i = .ok (s.abs[i]!)) ∧
      (s.abs.length ≤ i → boolCol.index s i = .error .vecOob) := by
    intro i
    constructor
    · intro hi
      have := (boolLawful 0).index_ok (d := fun _ => False) (s := s) i hs hi
      rw [this]
      congr 1
      exact (getElem!_pos (c := BoolState.abs s) i hi).symm
    · intro hi
      rw [habs] at hi
      show (if s.refIdx = some i then _ else checkedGet s.data i) = _
      rw [if_neg (by intro he; have := hs i he; omega)]
      unfold checkedGet
      rw [List.getElem?_eq_none (by omega)]
  have hmut : ∀ i, (∀ (h : i < s.abs.length), ∃ put, boolCol.indexMut s i = .ok (s.abs[i], put) ∧
        ∀ b, (put b).Inv ∧ (put b).abs = s.abs.set i b) ∧
      (s.abs.length ≤ i → boolCol.indexMut s i = .error .vecOob) := by
    intro i
    constructor
    · intro hi
      rcases (boolLawful 0).indexMut_ok (d := fun _ => False) (s := s) i hs hi with h | ⟨put, h1, h2⟩
      · exfalso
        have : (s.flush >>= fun s => (checkedGet s.data i >>= fun v =>
          (Except.ok (v, fun b => { s with refIdx := some i, refVal := b }) : R (Bool × (Bool → BoolState))))) = .error .indexedMut := h
        rw [hfl, okBind] at this
        simp only [] at this
        rw [checkedGet_ok hi, okBind] at this
        cases this
      · exact ⟨put, h1, h2⟩
    · intro hi
      show (s.flush >>= _) = _
      rw [hfl, okBind]
      simp only []
      unfold checkedGet
      rw [List.getElem?_eq_none (by omega)]; rfl
  cases op with
  | push b =>
    obtain ⟨s', h1, h2, h3⟩ := (boolLawful s.abs.length).push_ok (d := fun _ => False) (s := s) b hs (by simp) (le_refl _)
    rw [bSpec, bImpl]
    exact ⟨s', by rw [h1]; rfl, h2, h3⟩
  | get i =>
    rw [bSpec, bImpl]
    by_cases hi : i < s.abs.length
    · rw [List.getElem?_eq_getElem hi, (hget i).1 hi, getElem!_pos s.abs i hi]
      exact ⟨s, rfl, hs, rfl⟩
    · rw [List.getElem?_eq_none (by omega), (hget i).2 (by omega)]; rfl
  | len =>
    rw [bSpec, bImpl]
    exact ⟨s, by rw [habs], hs, rfl⟩
  | set i b =>
    rw [bSpec, bImpl]
    by_cases hi : i < s.abs.length
    · obtain ⟨put, h1, h2⟩ := (hmut i).1 hi
      rw [if_pos hi, h1]
      exact ⟨put b, rfl, (h2 b).1, (h2 b).2⟩
    · rw [if_neg hi, (hmut i).2 (by omega)]; rfl
  | borrow i =>
    rw [bSpec, bImpl]
    by_cases hi : i < s.abs.length
    · obtain ⟨put, h1, h2⟩ := (hmut i).1 hi
      rw [List.getElem?_eq_getElem hi, h1]
      exact ⟨put s.abs[i], rfl, (h2 _).1, by rw [(h2 _).2, List.set_getElem_self]⟩
    · rw [List.getElem?_eq_none (by omega), (hmut i).2 (by omega)]; rfl
  | swap i k =>
    rw [bSpec, bImpl]
    by_cases hi : i < s.abs.length
    · by_cases hk : k < s.abs.length
      · obtain ⟨s', h1, h2, h3⟩ := (boolLawful 0).swap_ok (d := fun _ => False) (s := s) i k hs hi hk (by simp) (by simp)
        rw [List.getElem?_eq_getElem hi, List.getElem?_eq_getElem hk, h1]
        exact ⟨s', rfl, h2, h3⟩
      · rw [List.getElem?_eq_getElem hi, List.getElem?_eq_none (by omega)]
        simp only []
        show ((s.flush >>= _) >>= _) = _
        rw [hfl, okBind]
        simp only []
        rw [checkedGet_ok hi, okBind]
        unfold checkedGet
        rw [List.getElem?_eq_none (by omega)]; rfl
    · have : s.abs[i]? = none := List.getElem?_eq_none (by omega)
      rw [this]
      simp only []
      show ((s.flush >>= _) >>= _) = _
      rw [hfl, okBind]
      simp only []
      unfold checkedGet
      rw [this]; rfl
  | swapOut i b =>
    rw [bSpec, bImpl]
    by_cases hi : i < s.abs.length
    · obtain ⟨s', h1, h2, h3⟩ := (boolLawful 0).swapOut_ok (d := fun _ => False) (s := s) i b hs hi
      rw [List.getElem?_eq_getElem hi, h1]
      exact ⟨s', rfl, h2, h3⟩
    · have : s.abs[i]? = none := List.getElem?_eq_none (by omega)
      rw [this]
      show ((s.flush >>= _) >>= _) = _
      rw [hfl, okBind]
      simp only []
      unfold checkedGet
      rw [this]; rfl
  | truncate n =>
    obtain ⟨s', h1, h2, h3⟩ := (boolLawful 0).truncate_ok (d := fun _ => False) (s := s) n hs
    rw [bSpec, bImpl]
    exact ⟨s', by rw [h1]; rfl, h2, h3⟩
  | clear =>
    obtain ⟨s', h1, h2, h3⟩ := (boolLawful 0).clear_ok (d := fun _ => False) (s := s) hs (fun _ => False)
    rw [bSpec, bImpl]
    exact ⟨s', by rw [h1]; rfl, h2, h3⟩
  | deleted i => exact ⟨s, rfl, hs, rfl⟩
  | toList =>
    rw [bSpec, bImpl]
    exact ⟨s, by rw [(boolLawful 0).toList_ok (d := fun _ => False) hs]; rfl, hs, rfl⟩

/-- C26: every sequence of calls on a new `BoolCol` shows its caller exactly what a vector of booleans
would, panics included. -/
theorem C26_boolcol_is_a_vector (ops : List BOp) :
    bImplRun boolCol.new ops = match bSpecRun [] ops with | some os => .ok os | none => .error .vecOob := by
  suffices h : ∀ (ops : List BOp) (s : BoolState), s.Inv →
      bImplRun s ops = match bSpecRun s.abs ops with | some os => .ok os | none => .error .vecOob by
    exact h ops boolCol.new (by intro i h; simp [boolCol] at h)
  intro ops
  induction ops with
  | nil => intro s _; rfl
  | cons op ops ih =>
    intro s hs
    have hstep := bImpl_step s hs op
    unfold bImplRun bSpecRun
    cases hb : bSpec s.abs op with
    | none =>
      rw [hb] at hstep
      simp only [] at hstep
      rw [hstep]; rfl
    | some p =>
      obtain ⟨l, o⟩ := p
      rw [hb] at hstep
      simp only [] at hstep
      obtain ⟨s', h1, h2, h3⟩ := hstep
      rw [h1, okBind]
      simp only []
      rw [ih s' h2, h3]
      simp only [Option.bind_eq_bind, Option.bind_some]
      cases bSpecRun l ops <;> rfl

example : bImplRun boolCol.new [.push true, .push false, .set 1 true, .get 1, .swap 0 1, .borrow 0, .set 0 false, .toList,
    .truncate 1, .get 0, .len] =
    .ok [.unit, .unit, .unit, .bool true, .unit, .bool true, .unit, .list [false, true], .unit, .bool false, .num 1] := by decide
example : bImplRun boolCol.new [.push true, .set 0 false, .truncate 0, .get 0] = .error .vecOob := by decide

end V11
