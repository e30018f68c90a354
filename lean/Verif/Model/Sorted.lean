import Verif.Model.Iter

/-!
# Sorted tables: `merge_logged` and `remove_rows`

As in `Model/Rug.lean` the lock's change list plays no role (macros/output.rs:1211-1215).
-/

namespace V11
variable {S : Schema} {K : Type} [LinearOrder K]

/-- Stage 1 (macros/output.rs:1477-1488): the first position whose row is not below `first`. The `Nat`
argument is `len - cursor`. -/
def findCursor (key : Row S → K) (t : Tbl S) (first : Row S) (cursor : Nat) : Nat → R Nat
  | 0 => .ok cursor
  | k + 1 => do
    let r ← t.getRow cursor
    if key r < key first then do
      let c ← nextId S.max cursor
      findCursor key t first c k
    else .ok cursor

/-- `enum Side` (macros/output.rs:1491). -/
inductive Side where
  | rug | iter
deriving DecidableEq, Repr

/-- `choose` (macros/output.rs:1492-1503). -/
def chooseSide (key : Row S → K) (rug iter : List (Row S)) : Option Side :=
  match rug, iter with
  | [], [] => none
  | [], _ :: _ => some .iter
  | _ :: _, [] => some .rug
  | r :: _, i :: _ => if key r ≤ key i then some .rug else some .iter

/-- State of stages 2 and 3. -/
structure MergeSt (S : Schema) where
  tbl : Tbl S
  rug : List (Row S)
  iter : List (Row S)
  log : List Nat

/-- One iteration of stage 2 (macros/output.rs:1507-1522). -/
def mergeBump (key : Row S → K) (st : MergeSt S) (cursor : Nat) : R (MergeSt S) :=
  match chooseSide key st.rug st.iter with
  | none => .error .unwrapNone
  | some .rug =>
    match st.rug with
    | [] => .error .unwrapNone
    | v :: rug => do
      let (t, old) ← st.tbl.swapOutRow cursor v
      .ok { st with tbl := t, rug := rug ++ [old] }
  | some .iter =>
    match st.iter with
    | [] => .error .unwrapNone
    | v :: iter => do
      let (t, old) ← st.tbl.swapOutRow cursor v
      .ok { tbl := t, rug := st.rug ++ [old], iter := iter, log := st.log ++ [cursor] }

/-- Stage 3 (macros/output.rs:1523-1537), with a step budget. -/
def mergeFlush (key : Row S → K) : Nat → MergeSt S → R (MergeSt S)
  | 0, _ => .error .stackOverflow
  | k + 1, st =>
    match chooseSide key st.rug st.iter with
    | none => .ok st
    | some .rug =>
      match st.rug with
      | [] => .error .unwrapNone
      | v :: rug => do
        let (t, _) ← st.tbl.pushOnly v
        mergeFlush key k { st with tbl := t, rug := rug }
    | some .iter =>
      match st.iter with
      | [] => .error .unwrapNone
      | v :: iter => do
        let (t, cursor) ← st.tbl.pushOnly v
        mergeFlush key k { st with tbl := t, iter := iter, log := st.log ++ [cursor] }

/-- `merge_logged` (macros/output.rs:1462-1538) on the rows the `AssertSorted` iterator yields. The `log`
closure cannot change the table; the model returns the ids it is called with, in order. -/
def Tbl.mergeLogged (key : Row S → K) (t : Tbl S) (rows : List (Row S)) : R (Tbl S × List Nat) :=
  match rows with
  | [] => .ok (t, [])
  | first :: _ => do
    let cursor ← findCursor key t first 0 t.len
    let e ← fromUsize S.max t.len
    let ids ← drain (RowRange.next S.max) (e - cursor + 1) ⟨cursor, e⟩
    let st ← ids.foldlM (mergeBump key) { tbl := t, rug := [], iter := rows, log := [] }
    let st ← mergeFlush key (st.rug.length + st.iter.length + 1) st
    .ok (st.tbl, st.log)

/-- `From<Vec<T>> for AssertSorted` (src/assert_sorted.rs:20-28): sorts (stably) by the row order, i.e.
the sort key (macros/output.rs:1296-1304). -/
def sortRows (key : Row S → K) (rows : List (Row S)) : List (Row S) :=
  rows.mergeSort (fun a b => key a ≤ key b)

/-- `merge` of a `Vec` (macros/output.rs:1432-1439). -/
def Tbl.mergeVec (key : Row S → K) (t : Tbl S) (rows : List (Row S)) : R (Tbl S) := do
  let (t, _) ← t.mergeLogged key (sortRows key rows)
  .ok t

/-- `merge_in_a_single_row` (macros/output.rs:1444-1455); `Option<T>` becomes a one-row iterator
(src/assert_sorted.rs:30-34). -/
def Tbl.mergeSingle (key : Row S → K) (t : Tbl S) (row : Row S) : R (Tbl S × Nat) := do
  let (t, log) ← t.mergeLogged key [row]
  match log with
  | [i] => .ok (t, i)
  | _ => .error .unwrapNone

/-- The check loop of sorted `remove_rows` (macros/output.rs:405-414). -/
def removeCheck (prev : Nat) : List Nat → R Unit
  | [] => .ok ()
  | r :: rs => if prev < r then removeCheck r rs else .error .removeUnsorted

/-- The per-column loop of sorted `remove_rows` (macros/output.rs:428-438). The last argument is
`len - ugly`. Returns the column and the number of rows kept. -/
def removeLoop {E : Type} (C : TCol E) (s : C.σ) (toRemove : List Nat) (bad ugly : Nat) : Nat → R (C.σ × Nat)
  | 0 => .ok (s, bad)
  | k + 1 =>
    match toRemove with
    | r :: rs =>
      if r = ugly then removeLoop C s rs bad (ugly + 1) k
      else do
        let s ← if bad ≠ ugly then C.swap s bad ugly else .ok s
        removeLoop C s toRemove (bad + 1) (ugly + 1) k
    | [] => do
      let s ← if bad ≠ ugly then C.swap s bad ugly else .ok s
      removeLoop C s [] (bad + 1) (ugly + 1) k

/-- Sorted `Write::remove_rows` (macros/output.rs:399-441). -/
def Tbl.removeRows (t : Tbl S) (toRemove : List Nat) : R (Tbl S) :=
  match toRemove with
  | [] => .ok t
  | r :: rs => do
    removeCheck 0 (if r = 0 then rs else r :: rs)
    if (toRemove.getLast?).getD 0 < t.len then
      let len := t.len
      t.mapCols fun j s => do
        let (s, bad) ← removeLoop (S.C j) s toRemove 0 0 len
        (S.C j).truncate s bad
    else .error .removeOob

end V11
