import Verif.Model.Universe

/-!
# The lock of a table: results, poisoning, and what a panic does
-/

namespace V11

/-- `std::sync::LockResult`. -/
inductive LockResult (α : Type) where
  | ok (a : α)
  | poisoned (a : α)
deriving DecidableEq

/-- `std::sync::TryLockResult`. -/
inductive TryLockResult (α : Type) where
  | ok (a : α)
  | poisoned (a : α)
  | wouldBlock
deriving DecidableEq

/-- `wrangle_lock::map_result` (src/intern.rs:38-46). -/
def mapResult {α β : Type} (r : LockResult α) (f : α → β) : LockResult β :=
  match r with
  | .ok t => .ok (f t)
  | .poisoned t => .poisoned (f t)

/-- `wrangle_lock::map_try_result` (src/intern.rs:48-59). -/
def mapTryResult {α β : Type} (r : TryLockResult α) (f : α → β) : TryLockResult β :=
  match r with
  | .ok t => .ok (f t)
  | .poisoned t => .poisoned (f t)
  | .wouldBlock => .wouldBlock

/-- `Result::unwrap` of a `LockResult`. -/
def LockResult.unwrap {α : Type} : LockResult α → R α
  | .ok a => .ok a
  | .poisoned _ => .error .poisoned

/-- A table's `RwLock<GenericTable>` (src/domain.rs:190): its contents, the poison flag, the read guards and
the write guard that are out. While a write guard is out its `W` holds the table. -/
structure RwLk (S : Schema) where
  tbl : Tbl S
  poisoned : Bool
  readers : Nat
  writer : Option (W S)

namespace RwLk
variable {S : Schema}

/-- A new lock (`RwLock::new`). -/
def new : RwLk S := ⟨Tbl.new, false, 0, none⟩

/-- `RwLock::read`; `none` means that it waits. -/
def stdRead (l : RwLk S) : Option (LockResult (Tbl S)) :=
  if l.writer.isSome then none else some (if l.poisoned then .poisoned l.tbl else .ok l.tbl)

/-- `RwLock::write`; `none` means that it waits. -/
def stdWrite (l : RwLk S) : Option (LockResult (Tbl S)) :=
  if l.writer.isSome ∨ l.readers ≠ 0 then none else some (if l.poisoned then .poisoned l.tbl else .ok l.tbl)

/-- `RwLock::try_read`. -/
def stdTryRead (l : RwLk S) : TryLockResult (Tbl S) :=
  match l.stdRead with
  | none => .wouldBlock
  | some (.ok t) => .ok t
  | some (.poisoned t) => .poisoned t

/-- `RwLock::try_write`. -/
def stdTryWrite (l : RwLk S) : TryLockResult (Tbl S) :=
  match l.stdWrite with
  | none => .wouldBlock
  | some (.ok t) => .ok t
  | some (.poisoned t) => .poisoned t

/-- `read_result` (macros/output.rs:1654-1657). `convert_read_guard` (1615-1645) only borrows the columns. -/
def readResult (l : RwLk S) : Option (LockResult (Tbl S)) := l.stdRead.map (fun r => mapResult r id)

/-- `read` (macros/output.rs:1649-1651). -/
def read (l : RwLk S) : Option (R (Tbl S)) := l.readResult.map LockResult.unwrap

/-- `try_read` (macros/output.rs:1659-1662). -/
def tryRead (l : RwLk S) : TryLockResult (Tbl S) := mapTryResult l.stdTryRead id

/-- `write_result` (macros/output.rs:1696-1700); `convert_write_guard` (1666-1689) starts with no changes. -/
def writeResult (l : RwLk S) : Option (LockResult (W S)) := l.stdWrite.map (fun r => mapResult r W.lock)

/-- `write` (macros/output.rs:1692-1694). -/
def write (l : RwLk S) : Option (R (W S)) := l.writeResult.map LockResult.unwrap

/-- `try_write` (macros/output.rs:1702-1705). -/
def tryWrite (l : RwLk S) : TryLockResult (W S) := mapTryResult l.stdTryWrite W.lock

end RwLk

/-- What can happen to the lock, by whichever thread. -/
inductive LkAct (S : Schema) where
  /-- a read guard is handed out (by any of the three functions; a poisoned guard can be kept with `into_inner`) -/
  | read
  /-- a read guard is dropped, panicking or not -/
  | dropRead
  /-- a write guard is handed out -/
  | write
  /-- a method is called on the write guard and returns -/
  | call (op : LOp S)
  /-- the write guard is consumed by `flush`, which returns and leaves the table as given -/
  | flush (result : Tbl S)
  /-- the write guard goes out of scope -/
  | drop
  /-- the thread that has the write guard panics -/
  | panic

/-- The process. -/
inductive Proc (S : Schema) where
  | alive (l : RwLk S)
  | aborted

variable {S : Schema} {K : Type} [LinearOrder K]

/-- `none`: this cannot happen now. A write guard that is dropped while its thread panics poisons the lock (std). Dropping
the write guard of a consistent table with unflushed changes panics (macros/output.rs:844-850) without looking at
`thread::panicking()`: on the way out of another panic that aborts the process. The panics of a call itself are not modelled
here (what they leave of the table is not). -/
def RwLk.act (key : Row S → K) (l : RwLk S) : LkAct S → Option (Proc S)
  | .read => if l.writer.isSome then none else some (.alive { l with readers := l.readers + 1 })
  | .dropRead => if l.readers = 0 then none else some (.alive { l with readers := l.readers - 1 })
  | .write => if l.writer.isSome ∨ l.readers ≠ 0 then none else some (.alive { l with writer := some (W.lock l.tbl) })
  | .call op =>
    match l.writer with
    | none => none
    | some w =>
      match w.step key op with
      | .ok w => some (.alive { l with writer := some w })
      | .error _ => none
  | .flush x =>
    match l.writer with
    | none => none
    | some _ => some (.alive { l with tbl := x, writer := none })
  | .drop =>
    match l.writer with
    | none => none
    | some w =>
      match w.drop with
      | .ok x => some (.alive { l with tbl := x, writer := none })
      | .error _ => some (.alive { l with tbl := w.tbl, writer := none, poisoned := true })
  | .panic =>
    match l.writer with
    | none => none
    | some w =>
      match w.drop with
      | .ok x => some (.alive { l with tbl := x, writer := none, poisoned := true })
      | .error _ => some .aborted

/-- A history of the lock. -/
def Proc.run (key : Row S → K) (p : Proc S) : List (LkAct S) → Option (Proc S)
  | [] => some p
  | a :: as =>
    match p with
    | .aborted => none
    | .alive l =>
      match l.act key a with
      | none => none
      | some p => p.run key as

end V11
