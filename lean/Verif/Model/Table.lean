import Verif.Model.Column
import Mathlib.Data.Fin.Tuple.Basic
import Mathlib.Data.List.Sort

/-!
# Tables: columns plus a free list, and the write lock
-/

namespace V11

/-- `TableKind` (macros/table.rs:5-11). -/
inductive Kind where
  | append | consistent | bag | list | sorted
deriving DecidableEq, Repr

/-- What `table!` is given: columns (at least one: macros/table.rs:112-114), the row-id type's maximum
(`row_id`, macros/output.rs:167-170) and the kind. -/
structure Schema where
  n : Nat
  E : Fin (n + 1) → Type
  C : (j : Fin (n + 1)) → TCol (E j)
  max : Nat
  kind : Kind

/-- The generated `Row` struct (macros/output.rs:230-232). -/
abbrev Row (S : Schema) := (j : Fin (S.n + 1)) → S.E j

/-- Runs one fallible step per column, in declaration order — the expansion of `#( … )*` in
macros/output.rs. The first panic wins. -/
def seqFin : (n : Nat) → {σ : Fin n → Type} → ((j : Fin n) → R (σ j)) → R ((j : Fin n) → σ j)
  | 0, _, _ => .ok (fun j => j.elim0)
  | n + 1, σ, f => do
    let a ← f 0
    let r ← seqFin n (σ := fun j => σ j.succ) (fun j => f j.succ)
    .ok (Fin.cons (α := σ) a r)

/-- The contents of a table: the column data in `GenericTable::columns` (src/tables.rs:73) and the free
list of the generated `Table` (macros/output.rs:303-306); `FreeList` is a `BTreeMap` (src/index.rs:544).
The `flush` member is modelled in `Model/Universe.lean`. -/
structure Tbl (S : Schema) where
  cols : (j : Fin (S.n + 1)) → (S.C j).σ
  free : List Nat

namespace Tbl
variable {S : Schema}

/-- `new_generic_table` / `Table::default` (macros/output.rs:1707-1729, 302): empty columns, no free rows. -/
def new : Tbl S := { cols := fun j => (S.C j).new, free := [] }

/-- `len()` (macros/output.rs:767-769): the length of the first column. -/
def len (t : Tbl S) : Nat := (S.C 0).len (t.cols 0)

/-- `LockedTable::is_deleted` (macros/output.rs:468-472 for consistent tables; default `false`,
src/tables.rs:299). -/
def isDeleted (t : Tbl S) (i : Nat) : Bool := S.kind = .consistent && t.free.contains i

/-- `GenericRowId::check` (src/index.rs:505-520). The result is the index of the `CheckedRowId`. -/
def check (t : Tbl S) (i : Nat) : R Nat :=
  if t.len ≤ i then .error .indexOob
  else if t.isDeleted i then .error .deletedRow
  else .ok i

/-- `contains` (macros/output.rs:650-652 consistent, 744-746 otherwise). -/
def contains (t : Tbl S) (i : Nat) : Bool :=
  if S.kind = .consistent then i < t.len && !t.free.contains i else i < t.len

/-- One mutating step on each column. -/
def mapCols (t : Tbl S) (f : (j : Fin (S.n + 1)) → (S.C j).σ → R (S.C j).σ) : R (Tbl S) := do
  let c ← seqFin (S.n + 1) (fun j => f j (t.cols j))
  .ok { t with cols := c }

/-- `get_row_raw`/`get_row_ref` on a checked id (macros/output.rs:757-761, 782-788), through
`Col[CheckedRowId]` (src/columns.rs:95-103): no bounds check. -/
def rowAt (t : Tbl S) (i : Nat) : R (Row S) := seqFin (S.n + 1) (fun j => (S.C j).index (t.cols j) i)

/-- `get_row` (macros/output.rs:752-755): check, then read each column. -/
def getRow (t : Tbl S) (i : Nat) : R (Row S) := do
  let i ← t.check i
  t.rowAt i

/-- `table.col[row_id]` (src/columns.rs:65-70,76-85): checks the column's length only, not deletion. -/
def cell (t : Tbl S) (j : Fin (S.n + 1)) (i : Nat) : R (S.E j) :=
  if (S.C j).len (t.cols j) ≤ i then .error .indexOob else (S.C j).index (t.cols j) i

/-- `table.col[checked_row_id]` (src/columns.rs:95-103): no check of any kind. -/
def cellChecked (t : Tbl S) (j : Fin (S.n + 1)) (i : Nat) : R (S.E j) := (S.C j).index (t.cols j) i

/-- `CheckedRowId::check` against a table of the same type (src/index.rs:526-538): the comparison of the
tables is behind `cfg!(debug)`, which is never set, so nothing is checked. -/
def recheck (_ : Tbl S) (i : Nat) : R Nat := .ok i

/-- `table.col[row_id] = v` (src/columns.rs:86-94). Indexed columns have no `IndexMut`
(`EditA`, macros/output.rs:463-466); their `unchecked_index_mut` panics. -/
def setCell (t : Tbl S) (j : Fin (S.n + 1)) (i : Nat) (v : S.E j) : R (Tbl S) :=
  if (S.C j).len (t.cols j) ≤ i then .error .indexOob
  else do
    let (_, put) ← (S.C j).indexMut (t.cols j) i
    .ok { t with cols := Function.update t.cols j (put v) }

/-- `last()` (macros/output.rs:791-799). -/
def last (t : Tbl S) : R (Option Nat) :=
  if t.len = 0 then .ok none
  else do
    let i ← fromUsize S.max (t.len - 1)
    .ok (some i)

/-- `clear_raw` (macros/output.rs:1231-1233). It does not touch the free list. -/
def clearRaw (t : Tbl S) : R (Tbl S) := t.mapCols fun j s => (S.C j).clear s

/-- `push_only_unchecked` (macros/output.rs:1248-1252). -/
def pushOnly (t : Tbl S) (row : Row S) : R (Tbl S × Nat) := do
  let t ← t.mapCols fun j s => (S.C j).push s (row j)
  match ← t.last with
  | some i => .ok (t, i)
  | none => .error .unwrapNone

/-- The column part of `swap_out_row` (macros/output.rs:1313): the caller's row receives the old values. -/
def swapOutRaw (t : Tbl S) (i : Nat) (row : Row S) : R (Tbl S × Row S) := do
  let c ← seqFin (S.n + 1) (σ := fun j => (S.C j).σ × S.E j) (fun j => (S.C j).swapOut (t.cols j) i (row j))
  .ok ({ t with cols := fun j => (c j).1 }, fun j => (c j).2)

/-- `swap_out_row` (macros/output.rs:1309-1315). -/
def swapOutRow (t : Tbl S) (i : Nat) (row : Row S) : R (Tbl S × Row S) := do
  let i ← t.check i
  t.swapOutRaw i row

/-- The column part of `swap` (macros/output.rs:1322; also bag `delete_raw` line 864). -/
def swapRaw (t : Tbl S) (a b : Nat) : R (Tbl S) := t.mapCols fun j s => (S.C j).swap s a b

/-- `truncate` (macros/output.rs:1327-1329). -/
def truncate (t : Tbl S) (n : Nat) : R (Tbl S) := t.mapCols fun j s => (S.C j).truncate s n

/-- `delete_raw`. Consistent (macros/output.rs:829-834): tell each column, then add to the free list.
Bag (macros/output.rs:860-870): swap with the last row and truncate. Other kinds
(macros/output.rs:879-881): panic. -/
def deleteRaw (t : Tbl S) (i : Nat) : R (Tbl S) :=
  match S.kind with
  | .consistent => do
    let t ← t.mapCols fun j s => (S.C j).deleted s i
    let i ← fromUsize S.max i
    .ok { t with free := BSet.insert i t.free }
  | .bag => do
    let len := t.len
    if len = 0 then .error .subOverflow else
    let len1 := len - 1
    let t ← if i < len1 then t.swapRaw i len1 else .ok t
    t.truncate len1
  | _ => .error .badDelete

/-- `row_range()` (macros/output.rs:775-777): panics when `len` does not fit the row-id type. -/
def rowRange (t : Tbl S) : R (Nat × Nat) := do
  let e ← fromUsize S.max t.len
  .ok (0, e)

/-- What a reader can observe of row `i`: its values if the id is valid (`contains`, then `get_row`). -/
def view (t : Tbl S) (i : Nat) : Option (Row S) :=
  if t.contains i then (t.rowAt i).toOption else none

end Tbl

/-- `Select` (src/tracking.rs:22-25). -/
inductive Select (α : Type) where
  | all
  | these (rows : α)
deriving DecidableEq, Repr

namespace Select

/-- `Select::push` (src/tracking.rs:119-123): `All` absorbs. -/
def push (s : Select (List Nat)) (i : Nat) : Select (List Nat) :=
  match s with
  | .all => .all
  | .these l => .these (l ++ [i])

/-- `as_slice().is_empty()` (src/tracking.rs:92-97): `All` is never empty. -/
def isEmpty (s : Select (List Nat)) : Bool :=
  match s with
  | .all => false
  | .these l => l.isEmpty

/-- `Select::is_all` (src/tracking.rs:57-62). -/
def isAll (s : Select (List Nat)) : Bool :=
  match s with
  | .all => true
  | .these _ => false

/-- `Select::sort` (src/tracking.rs:113-117): slice sort (of numbers, so every sorting
algorithm gives the same result). -/
def sort (s : Select (List Nat)) : Select (List Nat) :=
  match s with
  | .all => .all
  | .these l => .these (l.insertionSort (· ≤ ·))

end Select

/-- `Event` (src/event.rs:9-14). -/
structure Event where
  id : Nat
  isRemoval : Bool
  isCreation : Bool
deriving DecidableEq, Repr

/-- The generated `Write` lock (macros/output.rs:489-498), by value. -/
structure W (S : Schema) where
  tbl : Tbl S
  changes : Select (List Nat)
  pushed : Bool
  delete : Bool

namespace W
variable {S : Schema}

/-- `convert_write_guard` (macros/output.rs:1666-1689): a new lock has no changes. -/
def lock (t : Tbl S) : W S := { tbl := t, changes := .these [], pushed := false, delete := false }

/-- `event_add` (macros/output.rs:1184-1187 consistent; no-op 1203, 1212 otherwise). -/
def eventAdd (w : W S) (i : Nat) : W S :=
  if S.kind = .consistent then { w with pushed := true, changes := w.changes.push i } else w

/-- `event_del` (macros/output.rs:1189-1192 consistent; no-op otherwise). -/
def eventDel (w : W S) (i : Nat) : W S :=
  if S.kind = .consistent then { w with delete := true, changes := w.changes.push i } else w

/-- `clear()` = `event_cleared()` (macros/output.rs:1235-1237): consistent 1179-1182 marks everything;
append and bag 1200-1202 clear at once; list and sorted 1211: nothing. -/
def clear (w : W S) : R (W S) :=
  match S.kind with
  | .consistent => .ok { w with delete := true, changes := .all }
  | .append | .bag => do
    let t ← w.tbl.clearRaw
    .ok { w with tbl := t }
  | .list | .sorted => .ok w

/-- `push_end_unchecked` (macros/output.rs:1241-1246). -/
def pushEnd (w : W S) (row : Row S) : R (W S × Nat) := do
  let (t, i) ← w.tbl.pushOnly row
  .ok (({ w with tbl := t } : W S).eventAdd i, i)

/-- `push` (macros/output.rs:1553-1575), for every unsorted kind; only consistent tables ever have free
rows. The `cfg!(test)` assertion against `next_pushed` is omitted (it is property C02). -/
def push (w : W S) (row : Row S) : R (W S × Nat) :=
  match w.tbl.free with
  | old :: _ => do
    let w1 : W S := { w with tbl := { w.tbl with free := BSet.erase old w.tbl.free } }
    let w2 := w1.eventAdd old
    let (t, _) ← w2.tbl.swapOutRow old row
    .ok ({ w2 with tbl := t }, old)
  | [] => w.pushEnd row

/-- `push_all` (macros/output.rs:1542-1547). -/
def pushAll (w : W S) (rows : List (Row S)) : R (W S) :=
  rows.foldlM (fun w r => do let (w, _) ← w.push r; .ok w) w

/-- `next_pushed` (macros/output.rs:1578-1584). `unwrap_or` evaluates its argument eagerly. -/
def nextPushed (w : W S) : R Nat := do
  let dflt ← fromUsize S.max w.tbl.len
  .ok (match w.tbl.free with | old :: _ => old | [] => dflt)

/-- The loop of `push_array` (macros/output.rs:1598-1600). -/
def pushArrayLoop (w : W S) (last : Nat) : List (Row S) → R (W S × Nat)
  | [] => .ok (w, last)
  | r :: rs => do
    let (w, i) ← w.pushEnd r
    pushArrayLoop w i rs

/-- `push_array` (macros/output.rs:1587-1605). An empty input gives `RowRange::empty()`, i.e.
`MAX..MAX` (src/index.rs:294-299, 105-112). -/
def pushArray (w : W S) (rows : List (Row S)) : R (W S × (Nat × Nat)) :=
  match rows with
  | [] => .ok (w, (S.max, S.max))
  | r :: rs => do
    let (w, start) ← w.pushEnd r
    let (w, last) ← pushArrayLoop w start rs
    let e ← nextId S.max last
    .ok (w, (start, e))

/-- `delete` (macros/output.rs:823-827 consistent: check and mark; 855-859 bag: check and remove;
874-876 otherwise: unimplemented). -/
def deleteRow (w : W S) (i : Nat) : R (W S) :=
  match S.kind with
  | .consistent => do
    let i ← w.tbl.check i
    .ok (w.eventDel i)
  | .bag => do
    let i ← w.tbl.check i
    let t ← w.tbl.deleteRaw i
    .ok { w with tbl := t }
  | _ => .error .badDelete

/-- `select` (macros/output.rs:1029-1031). -/
def select (w : W S) (i : Nat) : W S := { w with changes := w.changes.push i }

/-- `select_all` (macros/output.rs:1034-1036). -/
def selectAll (w : W S) : W S := { w with changes := .all }

/-- In-place edit of a cell through the lock. -/
def setCell (w : W S) (j : Fin (S.n + 1)) (i : Nat) (v : S.E j) : R (W S) := do
  let t ← w.tbl.setCell j i v
  .ok { w with tbl := t }

/-- Dropping the lock, which gives the table back to the universe: consistent
macros/output.rs:844-850, others 1172-1176. -/
def drop (w : W S) : R (Tbl S) :=
  if S.kind = .consistent ∧ w.changes.isEmpty = false then .error .unflushed else .ok w.tbl

end W
end V11
