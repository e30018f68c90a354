import Mathlib.Data.Prod.Lex
import Mathlib.Order.Basic

/-!
# Panics, results and the two library containers the model leans on

`Panic` collects every way a v11 call can fail to return.  Each modelled function returns `R α`.
-/

namespace V11

/-- Every way in which a modelled call does not return normally.  `ub` is an unchecked access out of
bounds (undefined behaviour in Rust), `deadlock` is a thread waiting for a lock it holds itself,
`stackOverflow` is an exhausted recursion budget. The others are explicit panics of the source; the
constructor's comment cites the panic site. -/
inductive Panic where
  /-- `get_unchecked` out of bounds, src/storage.rs:19-20 -/
  | ub
  /-- src/index.rs:509-512, src/columns.rs:66-67 "index out of bounds" -/
  | indexOob
  /-- src/index.rs:513-516 "indexing into deleted row" -/
  | deletedRow
  /-- `T::Idx::from_usize(i).unwrap()` src/index.rs:57, `NumCast::from(i).unwrap()` src/map_index.rs:105,
  overflow of `self.i + one` src/index.rs:63 -/
  | idxOverflow
  /-- src/map_index.rs:96 "tried to mutably reference indexed column" -/
  | indexedMut
  /-- `BTreeMap::range` "range start is greater than range end", via src/map_index.rs:57 -/
  | rangeOrder
  /-- src/tracking.rs:258 "Can't interleave pushes & deletes" -/
  | interleaved
  /-- macros/output.rs:847 "Changes to {} were not flushed" -/
  | unflushed
  /-- macros/output.rs:972 "more changes added during flush" -/
  | moreChanges
  /-- `assert!` in a removal loop, macros/output.rs:361,963,1006 -/
  | assertRow
  /-- macros/output.rs:412 "array of indices to remove is not sorted or has dupes" -/
  | removeUnsorted
  /-- macros/output.rs:417 "indices out of range" -/
  | removeOob
  /-- macros/output.rs:449 "Rows can not be removed on this table." -/
  | notRemovable
  /-- macros/output.rs:880 "Unexpected call to delete_raw", :875 unimplemented `delete` -/
  | badDelete
  /-- asserts of `CheckedIter::from`, src/index.rs:418-419 -/
  | badRange
  /-- integer subtraction overflow (debug profile), e.g. src/index.rs:330,457 -/
  | subOverflow
  /-- any other `unwrap`/`expect` of `None`, e.g. macros/output.rs:1507, 1458 -/
  | unwrapNone
  /-- `Vec` index out of bounds, e.g. src/event.rs:193, macros/output.rs:601 -/
  | vecOob
  /-- `PanickingHandler`, src/event.rs:151 -/
  | noHandler
  /-- src/event.rs:181 -/
  | setInvalidEvent
  /-- src/tracking.rs:317 "Tried to add tracker to inconsistent table" -/
  | trackerOnInconsistent
  /-- macros/output.rs:1844 "Row {:?} has no remapping" -/
  | noRemapping
  /-- a lock request that can never be granted because the requesting thread holds the lock -/
  | deadlock
  /-- recursion budget exhausted -/
  | stackOverflow
  /-- src/intern.rs:8-18 -/
  | badName
  /-- src/domain.rs:76,83,236,375; src/property.rs:283,321; src/tables.rs:197 -/
  | noSuchDomain
  /-- src/tables.rs:200, src/property.rs:285 -/
  | lockedDomain
  /-- src/property.rs:322,390 "was never registered" -/
  | unregisteredProp
  /-- src/property.rs:395 "is not in this Universe's domain" -/
  | domainNotInUniverse
  /-- src/property.rs:404 "was added to the domain AFTER this Universe was created" -/
  | lateProp
  /-- src/tables.rs:210 "on top of an existing table with different structure" -/
  | tableMismatch
  /-- src/tables.rs:135 "Duplicate column name" -/
  | dupColumn
  /-- src/property.rs:336,338 -/
  | badPropName
  /-- src/context.rs:118,123 -/
  | lockTypeMismatch
  /-- macros/table.rs:58,77 and the asserts 80-95 -/
  | badConfig
  /-- `.unwrap()` of a poisoned lock, e.g. src/domain.rs:48, src/property.rs:268 -/
  | poisoned
  /-- src/property.rs:412 "Downcast of property failed" -/
  | badDowncast
  /-- src/domain.rs:342 "Table is not in domain" -/
  | noSuchTable
  /-- src/tables.rs:150,173 "Table doesn't have a column" -/
  | noSuchColumn
  /-- src/tables.rs:152-158,175-181: the column has another type -/
  | badColumn
  /-- a panic of the program itself -/
  | userPanic
  /-- src/domain.rs:416 "sync_globals overriding globals that have already been set" -/
  | globalsSet
  /-- macros/output.rs:366,387 "wrong rows type", :636 "selection is not of our RowId" -/
  | wrongRows
deriving DecidableEq, Repr

/-- The result of a modelled call. -/
abbrev R (α : Type) := Except Panic α

instance {α : Type} [DecidableEq α] : DecidableEq (R α)
  | .ok a, .ok b => if h : a = b then isTrue (by rw [h]) else isFalse (by simpa using h)
  | .error a, .error b => if h : a = b then isTrue (by rw [h]) else isFalse (by simpa using h)
  | .ok _, .error _ => isFalse (by simp)
  | .error _, .ok _ => isFalse (by simp)

/-- `GenericRowId::from_usize` (src/index.rs:56-58) and `NumCast::from(i).unwrap()`
(src/map_index.rs:105 etc.): panics above the row-id type's maximum. -/
def fromUsize (max i : Nat) : R Nat := if i ≤ max then .ok i else .error .idxOverflow

/-- `GenericRowId::next` (src/index.rs:62-64): panics on overflow (debug profile). -/
def nextId (max i : Nat) : R Nat := if i + 1 ≤ max then .ok (i + 1) else .error .idxOverflow

/-! ## `BTreeMap<K, ()>` as a strictly ascending list (assumed library behaviour) -/

namespace BSet
variable {K : Type} [LinearOrder K]

/-- `BTreeMap::insert(k, ())`. -/
def insert (k : K) : List K → List K
  | [] => [k]
  | x :: xs => if k < x then k :: x :: xs else if k = x then x :: xs else x :: insert k xs

/-- `BTreeMap::remove(&k)`. -/
def erase (k : K) (l : List K) : List K := l.filter (· ≠ k)

/-- `BTreeMap::range(lo..hi)`; panics when `lo > hi`, as documented. (Newer versions of the standard library do not get as far
as the panic if the map is empty.) -/
def range (lo hi : K) (l : List K) : R (List K) :=
  if hi < lo then .error .rangeOrder else .ok (l.filter fun k => lo ≤ k ∧ k < hi)

/-- The representation invariant: strictly ascending keys. -/
def Ok (l : List K) : Prop := l.Pairwise (· < ·)

instance (l : List K) : Decidable (Ok l) := inferInstanceAs (Decidable (l.Pairwise (· < ·)))

theorem mem_insert {k x : K} {l : List K} : x ∈ insert k l ↔ x = k ∨ x ∈ l := by
  induction l with
  | nil => simp [insert]
  | cons y ys ih =>
    unfold insert
    split
    · simp
    · split
      · rename_i h; subst h; simp
      · simp [ih]; tauto

theorem mem_erase {k x : K} {l : List K} : x ∈ erase k l ↔ x ≠ k ∧ x ∈ l := by
  simp [erase, and_comm]

theorem ok_nil : Ok ([] : List K) := List.Pairwise.nil

theorem ok_insert {k : K} {l : List K} (h : Ok l) : Ok (insert k l) := by
  induction l with
  | nil => simp [insert, Ok]
  | cons y ys ih =>
    have hy : ∀ z ∈ ys, y < z := (List.pairwise_cons.1 h).1
    have hs : Ok ys := (List.pairwise_cons.1 h).2
    unfold insert
    split
    · rename_i hk
      refine List.pairwise_cons.2 ⟨?_, h⟩
      intro z hz
      rcases List.mem_cons.1 hz with rfl | hz
      · exact hk
      · exact lt_trans hk (hy z hz)
    · split
      · exact h
      · rename_i h1 h2
        refine List.pairwise_cons.2 ⟨?_, ih hs⟩
        intro z hz
        rcases mem_insert.1 hz with rfl | hz
        · exact lt_of_le_of_ne (not_lt.1 h1) (Ne.symm h2)
        · exact hy z hz

theorem ok_erase {k : K} {l : List K} (h : Ok l) : Ok (erase k l) := List.Pairwise.filter _ h

theorem ok_nodup {l : List K} (h : Ok l) : l.Nodup := h.imp (fun h => ne_of_lt h)

/-- Two representations of the same set are equal. -/
theorem ext {l m : List K} (hl : Ok l) (hm : Ok m) (h : ∀ x, x ∈ l ↔ x ∈ m) : l = m := by
  induction l generalizing m with
  | nil =>
    cases m with
    | nil => rfl
    | cons y ys => exact absurd ((h y).2 (by simp)) (by simp)
  | cons x xs ih =>
    cases m with
    | nil => exact absurd ((h x).1 (by simp)) (by simp)
    | cons y ys =>
      have hx := (List.pairwise_cons.1 hl).1
      have hy := (List.pairwise_cons.1 hm).1
      have e : x = y := by
        rcases List.mem_cons.1 ((h x).1 (by simp)) with e | hx'
        · exact e
        · rcases List.mem_cons.1 ((h y).2 (by simp)) with e | hy'
          · exact e.symm
          · exact absurd (lt_trans (hx y hy') (hy x hx')) (lt_irrefl _)
      subst e
      congr 1
      refine ih (List.pairwise_cons.1 hl).2 (List.pairwise_cons.1 hm).2 ?_
      intro z
      have := h z
      simp only [List.mem_cons] at this
      constructor
      · intro hz
        rcases this.1 (Or.inr hz) with e | hz'
        · subst e; exact absurd (hx _ hz) (lt_irrefl _)
        · exact hz'
      · intro hz
        rcases this.2 (Or.inr hz) with e | hz'
        · subst e; exact absurd (hy _ hz) (lt_irrefl _)
        · exact hz'

/-- The first key is the least one. -/
theorem head_le {l : List K} (h : Ok l) {x : K} {xs : List K} (e : l = x :: xs) :
    ∀ y ∈ l, x ≤ y := by
  subst e
  intro y hy
  rcases List.mem_cons.1 hy with rfl | hy
  · exact le_rfl
  · exact le_of_lt ((List.pairwise_cons.1 h).1 y hy)

end BSet
end V11
