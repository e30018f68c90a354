import Verif.Model.Table

/-!
# Row ranges, merge joins and row iterators
-/

namespace V11

/-- `RowRange<RowId>` (src/index.rs:274-277): `start..end`. -/
structure RowRange where
  start : Nat
  stop : Nat
deriving DecidableEq, Repr

namespace RowRange

/-- `RowRange::empty()` (src/index.rs:294-299): both ends are the id type's maximum
(`Default`, src/index.rs:105-112). -/
def empty (max : Nat) : RowRange := ⟨max, max⟩

/-- `RowRange::on` (src/index.rs:303-308). -/
def on (max i : Nat) : R RowRange := do
  let e ← nextId max i
  .ok ⟨i, e⟩

/-- `RowRange::offset` (src/index.rs:312-325); `checked_add` gives `None` above the type's maximum. -/
def offset (max : Nat) (r : RowRange) (n : Nat) : Option Nat :=
  if r.start + n ≤ max then
    if r.start + n > r.stop then none else some (r.start + n)
  else none

/-- `RowRange::len` (src/index.rs:329-331). -/
def len (r : RowRange) : R Nat := if r.stop < r.start then .error .subOverflow else .ok (r.stop - r.start)

/-- `RowRange::contains` (src/index.rs:335-337). -/
def contains (r : RowRange) (o : Nat) : Bool := r.start ≤ o && o < r.stop

/-- `RowRange::intersects` (src/index.rs:341-350), with its debug assertions. -/
def intersects (r o : RowRange) : R Bool :=
  if r.start ≤ r.stop ∧ o.start ≤ o.stop then .ok (!(r.stop ≤ o.start || o.stop ≤ r.start))
  else .error .badRange

/-- `RowRange::inner_index` (src/index.rs:354-360). -/
def innerIndex (r : RowRange) (o : Nat) : Option Nat :=
  if r.contains o then some (o - r.start) else none

end RowRange

/-- Draining an iterator (a `for` loop) with a step budget; running out of budget is
`stackOverflow`, so "drains to `l`" includes termination. -/
def drain {It A : Type} (next : It → R (Option A × It)) : Nat → It → R (List A)
  | 0, _ => .error .stackOverflow
  | n + 1, it => do
    let (o, it) ← next it
    match o with
    | none => .ok []
    | some a => do
      let r ← drain next n it
      .ok (a :: r)

namespace RowRange

/-- `UncheckedIter::next` (src/index.rs:475-487) and `CheckedIter::next` (src/index.rs:441-453): the
state is the remaining range. -/
def next (max : Nat) (it : RowRange) : R (Option Nat × RowRange) :=
  if it.start ≥ it.stop then .ok (none, it)
  else do
    let i ← nextId max it.start
    .ok (some it.start, { it with start := i })

/-- `skip_fast` (src/index.rs:434-437, 466-470). -/
def skipFast (max : Nat) (it : RowRange) (n : Nat) : R RowRange := do
  let i ← fromUsize max (it.start + n)
  .ok { it with start := i }

/-- `size_hint` (src/index.rs:455-458, 489-492): the subtraction overflows past the end. -/
def sizeHint (it : RowRange) : R Nat :=
  if it.stop < it.start then .error .subOverflow else .ok (it.stop - it.start)

/-- `iter_slow` (src/index.rs:363-368). -/
def iterSlow (r : RowRange) : RowRange := r

end RowRange

/-- `Join` (src/joincore.rs:105-112). -/
inductive Join (A : Type) where
  | next | stop | hit (a : A)
deriving DecidableEq, Repr

/-- `JoinCore::join` (src/joincore.rs:46-71), on the list of right items not yet consumed:
drop the items below `l`; a match is not consumed. -/
def joinStep {A : Type} [LinearOrder A] (l : A) : List A → Join A × List A
  | [] => (.stop, [])
  | r :: rs => if l < r then (.next, r :: rs) else if l = r then (.hit r, r :: rs) else joinStep l rs

/-- `JoinCore::join` (src/joincore.rs:46-71) with an arbitrary comparison of left with right items;
`joinStep` above is the instance used by the row iterators (src/index.rs:573-581). -/
def joinBy {L A : Type} (cmp : L → A → Ordering) (l : L) : List A → Join A × List A
  | [] => (.stop, [])
  | r :: rs =>
    match cmp l r with
    | .lt => (.next, r :: rs)
    | .eq => (.hit r, r :: rs)
    | .gt => joinBy cmp l rs

/-- `JoinCore::join_next` (src/joincore.rs:73-98) with an arbitrary comparison. -/
def joinNextBy {L A : Type} (cmp : L → A → Ordering) (l : L) : List A → Join A × List A
  | [] => (.stop, [])
  | r :: rs =>
    match cmp l r with
    | .lt => (.next, r :: rs)
    | .eq => (.hit r, rs)
    | .gt => joinNextBy cmp l rs

/-- A loop over left items that calls `join` for each (the usage in src/joincore.rs:14-26, without the
`break`): the answers. -/
def joinDrive {L A : Type} (step : L → List A → Join A × List A) : List L → List A → List (Join A)
  | [], _ => []
  | l :: ls, right =>
    let (j, right) := step l right
    j :: joinDrive step ls right

/-- `ConsistentIter` (src/index.rs:548-551) and `EditIter` (src/index.rs:587-590): remaining range and
the free ids not yet passed. -/
structure LiveIter where
  rows : RowRange
  deleted : List Nat
deriving DecidableEq, Repr

namespace LiveIter

/-- The `while` loop of `ConsistentIter::next` (src/index.rs:573-581) and `EditIter::next`
(src/index.rs:606-614), with a step budget. -/
def nextLoop (max : Nat) : Nat → LiveIter → R (Option Nat × LiveIter)
  | 0, _ => .error .stackOverflow
  | k + 1, it => do
    let (o, rows) ← it.rows.next max
    match o with
    | none => .ok (none, { it with rows := rows })
    | some row =>
      let (j, del) := joinStep row it.deleted
      let it := { rows := rows, deleted := del }
      match j with
      | .hit _ => nextLoop max k it
      | .next | .stop => .ok (some row, it)

/-- `next`; the loop cannot take more steps than there are ids left, plus one to notice the end. -/
def next (max : Nat) (it : LiveIter) : R (Option Nat × LiveIter) :=
  nextLoop max (it.rows.stop - it.rows.start + 1) it

/-- `skip_fast` (src/index.rs:565-568, 599-602). -/
def skipFast (max : Nat) (it : LiveIter) (n : Nat) : R LiveIter := do
  let rows ← it.rows.skipFast max n
  .ok { it with rows := rows }

end LiveIter

namespace Tbl
variable {S : Schema}

/-- `CheckedIter::from` (src/index.rs:417-425), the `range(..)` of non-consistent tables
(macros/output.rs:739-741). -/
def rangeChecked (t : Tbl S) (r : RowRange) : R RowRange :=
  if r.start < t.len ∨ r.start = r.stop then
    if r.stop ≤ t.len then .ok r else .error .badRange
  else .error .badRange

/-- `range(..)` of consistent tables (macros/output.rs:644-647): a checked range joined against the
free list. -/
def rangeLive (t : Tbl S) (r : RowRange) : R LiveIter := do
  let rows ← t.rangeChecked r
  .ok { rows := rows, deleted := t.free }

/-- `for id in table.range(r)`, any kind: the ids it yields. -/
def rangeIds (t : Tbl S) (r : RowRange) : R (List Nat) :=
  if S.kind = .consistent then do
    let it ← t.rangeLive r
    drain (LiveIter.next S.max) (r.stop - r.start + 1) it
  else do
    let it ← t.rangeChecked r
    drain (RowRange.next S.max) (r.stop - r.start + 1) it

/-- `for id in table.iter()` (macros/output.rs:673-735): the range `0..len`. -/
def iterIds (t : Tbl S) : R (List Nat) := do
  let (a, b) ← t.rowRange
  t.rangeIds ⟨a, b⟩

/-- `for id in table.editing().1` (macros/output.rs:512-528): the full range joined against the free
list, without the checks of `CheckedIter::from`. -/
def editIds (t : Tbl S) : R (List Nat) := do
  let (a, b) ← t.rowRange
  drain (LiveIter.next S.max) (b - a + 1) { rows := ⟨a, b⟩, deleted := t.free }

/-- `dump()` (macros/output.rs:657-664): every row, for non-consistent tables. -/
def dump (t : Tbl S) : R (List (Row S)) := do
  let ids ← t.iterIds
  ids.mapM t.getRow

end Tbl
end V11
