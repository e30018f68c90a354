import Verif.Model.Rug
import Verif.Model.Sorted
import Verif.Model.Bag

/-!
# Structural operations of every table kind, and reachable tables
-/

namespace V11
variable {S : Schema} {K : Type} [LinearOrder K]

/-- The loop over selected rows in `flush` (macros/output.rs:959-967), `live_flush` (1002-1010) and
consistent `remove_rows` (357-364). `len` is read once, before the loop. -/
def Tbl.deleteLoop (len : Nat) (t : Tbl S) (rows : List Nat) : R (Tbl S) :=
  rows.foldlM (fun t row => if row < len then t.deleteRaw row else .error .assertRow) t

/-- The removal step of `flush` (macros/output.rs:956-968) and `live_flush` (999-1011). -/
def Tbl.removeSel (t : Tbl S) (sel : Select (List Nat)) : R (Tbl S) :=
  match sel with
  | .all => t.clearRaw
  | .these rows => t.deleteLoop t.len rows

/-- One public structural operation on a table under a write lock. `set` is an in-place edit,
`remove` is what a removal flush does to the table in the end (`Model/Universe.lean` shows how a flush gets
there). A closure that is called once per id, in order, is given by its results. -/
inductive TOp (S : Schema) where
  | push (row : Row S)
  | pushArray (rows : List (Row S))
  | set (j : Fin (S.n + 1)) (i : Nat) (v : S.E j)
  | remove (sel : Select (List Nat))
  | bagDelete (i : Nat)
  | clearRaw
  | retain (f : Tbl S → Nat → Bool)
  | visit (f : Tbl S → Nat → Action (Row S))
  | merge (rows : List (Row S))
  | removeRows (ids : List Nat)

namespace TOp

/-- For which kinds `table!` generates the method: the guards at macros/output.rs:378 (`removeRows`),
853 (bag `delete`), 1334 (`retain`), 1418 (`visit`), 1430 (`merge`), 1539 (`push`, `push_array`). -/
def Allowed (k : Kind) : TOp S → Prop
  | .push _ | .pushArray _ => k ≠ .sorted
  | .set .. | .remove _ | .clearRaw => True
  | .bagDelete _ => k = .bag
  | .retain _ => k ≠ .consistent
  | .visit _ => k ≠ .consistent ∧ k ≠ .sorted
  | .merge _ | .removeRows _ => k = .sorted

/-- The operations that empty the columns at once (`clear_raw`). -/
def clears : TOp S → Bool
  | .remove .all | .clearRaw => true
  | _ => false

/-- Runs the operation under a fresh write lock and takes the table out of it (the change list does not
influence these operations). -/
def run (key : Row S → K) (op : TOp S) (t : Tbl S) : R (Tbl S) :=
  match op with
  | .push row => do let (w, _) ← (W.lock t).push row; .ok w.tbl
  | .pushArray rows => do let (w, _) ← (W.lock t).pushArray rows; .ok w.tbl
  | .set j i v => t.setCell j i v
  | .remove sel => t.removeSel sel
  | .bagDelete i => BagIter.bagDelete t i
  | .clearRaw => t.clearRaw
  | .retain f => do let (t, _) ← t.retain (fun t i (_ : Unit) => (f t i, ())) (); .ok t
  | .visit f => do let (t, _) ← t.visit (fun t i (_ : Unit) => (f t i, ())) (); .ok t
  | .merge rows => do let (t, _) ← t.mergeLogged key rows; .ok t
  | .removeRows ids => t.removeRows ids

end TOp

/-- Runs operations one after another, stopping at the first panic. -/
def runOps (key : Row S → K) (t : Tbl S) (ops : List (TOp S)) : R (Tbl S) :=
  ops.foldlM (fun t op => op.run key t) t

/-- The tables that can exist: those some history of structural operations leads to. In a `clean`
history a table is emptied at once (`clear`+removal flush, `clear_raw`) only while none of its rows is
deleted; without that restriction the free list outlives the rows (property C09). -/
inductive Reach (key : Row S → K) (clean : Bool) : Tbl S → Prop
  | new : Reach key clean Tbl.new
  | step {t t' : Tbl S} {op : TOp S} : Reach key clean t → op.Allowed S.kind →
      (clean = true → op.clears = true → ∀ i < t.len, t.contains i = true) →
      op.run key t = .ok t' → Reach key clean t'

end V11
