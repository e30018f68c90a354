import Verif.Model.Crash
import Verif.Model.Serial

/-!
# What a panic under a write lock does to the lock, its change list and its table

`Model/Crash` says what a panicking call leaves of the table; here the lock's change list is kept as well, which decides
whether the process survives (macros/output.rs:844-850: the destructor of a consistent table's `Write` panics if the list
is not empty, and a panic during a panic aborts).
-/

namespace V11

/-- A call on a write lock: the lock it leaves, and its result or panic. -/
def Wr (S : Schema) (α : Type) := W S → W S × R α

namespace Wr
variable {S : Schema} {α β : Type}

/-- Returns. -/
def ret (a : α) : Wr S α := fun w => (w, .ok a)

/-- Panics. -/
def fail (p : Panic) : Wr S α := fun w => (w, .error p)

/-- One after the other; a panic is the end. -/
def andThen (x : Wr S α) (f : α → Wr S β) : Wr S β := fun w =>
  match x w with
  | (w, .ok a) => f a w
  | (w, .error p) => (w, .error p)

instance : Monad (Wr S) where
  pure := ret
  bind := andThen

/-- A part that concerns only the table. -/
def onTbl (x : Cr S α) : Wr S α := fun w => ({ w with tbl := (x w.tbl).1 }, (x w.tbl).2)

/-- A part that changes only the change list. -/
def mark (f : W S → W S) : Wr S Unit := fun w => (f w, .ok ())

variable [LeavesSchema S]

/-- `push_end_unchecked` (macros/output.rs:1241-1246). -/
def pushEnd (row : Row S) : Wr S Nat := do
  let i ← onTbl (Cr.pushOnly row)
  mark (·.eventAdd i)
  ret i

/-- `push` (macros/output.rs:1553-1575): a reused id is listed before the row is written. -/
def push (row : Row S) : Wr S Nat := do
  match ← onTbl (Cr.look fun t => .ok t.free) with
  | old :: _ => do
    onTbl (Cr.setFree (BSet.erase old))
    mark (·.eventAdd old)
    let _ ← onTbl (Cr.swapOutRow old row)
    ret old
  | [] => pushEnd row

/-- `push_all` (macros/output.rs:1542-1547) of an iterator that may panic (`none`). -/
def pushAll : List (Option (Row S)) → Wr S Unit
  | [] => ret ()
  | none :: _ => fail .userPanic
  | some r :: rs => do
    let _ ← push r
    pushAll rs

/-- The loop of `push_array` (macros/output.rs:1598-1600). -/
def pushArrayLoop (last : Nat) : List (Option (Row S)) → Wr S Nat
  | [] => ret last
  | none :: _ => fail .userPanic
  | some r :: rs => do
    let i ← pushEnd r
    pushArrayLoop i rs

/-- `push_array` (macros/output.rs:1587-1605). -/
def pushArray : List (Option (Row S)) → Wr S (Nat × Nat)
  | [] => ret (S.max, S.max)
  | none :: _ => fail .userPanic
  | some r :: rs => do
    let start ← pushEnd r
    let last ← pushArrayLoop start rs
    let e ← onTbl (Cr.lift (nextId S.max last))
    ret (start, e)

/-- `delete` (macros/output.rs:823-827 consistent, 855-859 bag, 874-876 otherwise). -/
def delete (i : Nat) : Wr S Unit :=
  match S.kind with
  | .consistent => do
    let i ← onTbl (Cr.look (Tbl.check · i))
    mark (·.eventDel i)
  | .bag => onTbl (Cr.bagDelete i)
  | _ => fail .badDelete

/-- `clear` (macros/output.rs:1235-1237, 1179-1182, 1200-1202, 1211). -/
def clear : Wr S Unit :=
  match S.kind with
  | .consistent => mark fun w => { w with delete := true, changes := .all }
  | .append | .bag => onTbl Cr.clearRaw
  | .list | .sorted => ret ()

end Wr

/-- A call under a write lock, with what the caller hands it; or a panic of the caller's own code between calls. `other`:
the calls that never touch the change list (retain, visit, merge, remove_rows, clear_raw, a loop over a bag). -/
inductive UOp (S : Schema) where
  | push (row : Row S)
  | pushAll (rows : List (Option (Row S)))
  | pushArray (rows : List (Option (Row S)))
  | delete (i : Nat)
  | clear
  | select (i : Nat)
  | selectAll
  | set (j : Fin (S.n + 1)) (i : Nat) (v : S.E j)
  | other (op : COp S)
  | user

namespace UOp
variable {S : Schema} [LeavesSchema S] {K : Type} [LinearOrder K]

/-- For which kinds the method exists. `clear_raw` of a consistent table is left out. -/
def Allowed (S : Schema) : UOp S → Prop
  | .push _ | .pushAll _ | .pushArray _ => S.kind ≠ .sorted
  | .other op => op.Allowed S ∧ S.kind ≠ .consistent
  | _ => True

/-- What the call leaves of the lock, and whether it panics. -/
def run (key : Row S → K) : UOp S → Wr S Unit
  | .push row => do let _ ← Wr.push row; Wr.ret ()
  | .pushAll rows => Wr.pushAll rows
  | .pushArray rows => do let _ ← Wr.pushArray rows; Wr.ret ()
  | .delete i => Wr.delete i
  | .clear => Wr.clear
  | .select i => Wr.mark (·.select i)
  | .selectAll => Wr.mark (·.selectAll)
  | .set j i v => Wr.onTbl (Cr.setCell j i v)
  | .other op => Wr.onTbl (op.run key)
  | .user => Wr.fail .userPanic

end UOp

/-- What becomes of a write lock. -/
inductive Fate (S : Schema) where
  /-- the calls returned and the lock is still there -/
  | held (w : W S)
  /-- the thread panicked; the lock is poisoned and the table is left like this -/
  | unwound (p : Panic) (x : Tbl S)
  /-- the destructor of the lock panicked as well, and the process is gone -/
  | aborted (p : Panic)

/-- The lock is dropped by a panic (macros/output.rs:844-850 consistent; 1172-1176 others). -/
def W.unwind {S : Schema} (w : W S) (p : Panic) : Fate S :=
  match w.drop with
  | .ok x => .unwound p x
  | .error _ => .aborted p

/-- Calls on a write lock, one after another, to the first panic. -/
def W.use {S : Schema} [LeavesSchema S] {K : Type} [LinearOrder K] (key : Row S → K) (w : W S) : List (UOp S) → Fate S
  | [] => .held w
  | op :: ops =>
    match op.run key w with
    | (w, .ok _) => w.use key ops
    | (w, .error p) => w.unwind p

/-! ## A restore that panics -/

variable {T : Type} {S : T → Schema}

/-- The loop of an unsorted table (macros/output.rs:1847-1854), as `restorePush`. -/
def fillPush {t : T} [LeavesSchema (S t)] (fl : T → FlushLock) (own : List (Own S t)) (x : Extraction (S t)) (noTrackers : Bool) :
    List (Nat × Nat) → List (Nat × Nat) → Wr (S t) (List (Nat × Nat))
  | [], rm => Wr.ret rm
  | (old, k) :: rest, rm => do
    let row ← Wr.onTbl (Cr.lift (x.rowNo k))
    let row ← Wr.onTbl (Cr.lift (updateRow fl own row))
    let new ← Wr.push row
    fillPush fl own x noTrackers rest (if noTrackers then rm else rm ++ [(old, new)])

variable {K : Type} [LinearOrder K]

/-- `merge_logged` (macros/output.rs:1462-1538) with a `log` that collects the ids. -/
def fillMerge {S : Schema} [LeavesSchema S] (key : Row S → K) (rows : List (Row S)) : Wr S (List Nat) :=
  Wr.onTbl (Cr.mergeLogged key (COp.logging fun _ _ _ => false) (rows.map some) [])

/-- The loop of a sorted table that has trackers (macros/output.rs:1839-1843), as `restoreMergeEach`. -/
def fillMergeEach {t : T} [LeavesSchema (S t)] (key : Row (S t) → K) (fl : T → FlushLock) (own : List (Own S t))
    (x : Extraction (S t)) : List (Nat × Nat) → List (Nat × Nat) → Wr (S t) (List (Nat × Nat))
  | [], rm => Wr.ret rm
  | (old, k) :: rest, rm => do
    let row ← Wr.onTbl (Cr.lift (x.rowNo k))
    let row ← Wr.onTbl (Cr.lift (updateRow fl own row))
    match ← fillMerge key [row] with
    | [new] => fillMergeEach key fl own x rest (rm ++ [(old, new)])
    | _ => Wr.fail .unwrapNone

/-- `MERGE_EXTRACT` (macros/output.rs:1828-1856), as `mergeExtract`. A sorted table without trackers collects all rows
before it merges any. -/
def fillExtract {t : T} [LeavesSchema (S t)] (key : Row (S t) → K) (fl : T → FlushLock) (own : List (Own S t))
    (x : Extraction (S t)) (noTrackers : Bool) : Wr (S t) (List (Nat × Nat)) :=
  if (S t).kind = .sorted then
    if noTrackers then do
      let rows ← Wr.onTbl (Cr.lift ((List.range x.selection.length).mapM x.rowNo))
      let _ ← fillMerge key (sortRows key rows)
      Wr.ret []
    else fillMergeEach key fl own x x.selection.zipIdx []
  else fillPush fl own x noTrackers x.selection.zipIdx []

/-- What becomes of the lock a `restore_extract` (macros/output.rs:1860-1908) consumes. -/
inductive Restored (S : Schema) where
  /-- it returned, with an error or without; the table is left like this -/
  | returned (e : Option String) (x : Tbl S)
  /-- all rows are in; it goes on to flush (1905-1906) -/
  | flushes (w : W S) (remap : List (Nat × Nat))
  /-- it panicked before that -/
  | fell (f : Fate S)

/-- `restore_extract` (macros/output.rs:1860-1904) of a lock on a table that holds `x`, up to its flush; the parents'
remappings (1871-1893) are given. -/
def restoreUpToFlush {t : T} [LeavesSchema (S t)] (key : Row (S t) → K) (fl : T → FlushLock) (noTrackers : Bool) (sig : Sig)
    (own : List (Own S t)) (data : Extraction (S t)) (x : Tbl (S t)) : Restored (S t) :=
  match data.validate sig with
  | .error p => .fell ((W.lock x).unwind p)
  | .ok (some e) => .returned (some e) x
  | .ok none =>
    match fillExtract key fl own data noTrackers (W.lock x) with
    | (w, .error p) => .fell (w.unwind p)
    | (w, .ok rm) => if w.changes.isEmpty then .returned none w.tbl else .flushes w rm

end V11
