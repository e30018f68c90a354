import Verif.Model.Basic

/-!
# `context!`: bundles of locks, and handing them on

One thread is modelled: waiting for another thread's lock ends, waiting for one's own does not.
-/

namespace V11

/-- A type that implements `Lockable` (src/context.rs:31-37): its `TYPE_NAME`, its `TypeId`, what it locks,
and whether for writing (macros/output.rs:1804-1813, src/property.rs:157-182). -/
structure LockTy where
  name : String
  tid : Nat
  res : Nat
  write : Bool
deriving DecidableEq, Repr

/-- A lock that is held. `no` tells different locks apart. `dirty`: dropping it panics, because it is the write
lock of a consistent table with unflushed changes (macros/output.rs:844-850). -/
structure Guard where
  ty : LockTy
  no : Nat
  dirty : Bool
deriving DecidableEq, Repr

/-- What happened to a lock. -/
inductive LEv where
  | acquired (g : Guard)
  | released (g : Guard)
deriving DecidableEq, Repr

/-- The locks this thread holds, the number of the next one, and what has happened. -/
structure Locks where
  held : List Guard
  next : Nat
  log : List LEv

/-- `RwLock`: a write lock excludes all others. -/
def conflicts (a b : LockTy) : Bool := decide (a.res = b.res) && (a.write || b.write)

namespace Locks

/-- `Lockable::lock(universe)`: waits forever if this thread holds a conflicting lock. -/
def acquire (l : Locks) (ty : LockTy) : R (Guard × Locks) :=
  if l.held.any (fun g => conflicts g.ty ty) then .error .deadlock
  else
    let g : Guard := { ty := ty, no := l.next, dirty := false }
    .ok (g, { held := g :: l.held, next := l.next + 1, log := l.log ++ [.acquired g] })

/-- `mem::drop(field)` (src/context.rs:113). -/
def release (l : Locks) (g : Guard) : R Locks :=
  if g.dirty then .error .unflushed
  else .ok { l with held := l.held.erase g, log := l.log ++ [.released g] }

end Locks

/-- A field of the new context: its type, and the lock moved into it, if any (src/context.rs:147-149). -/
abbrev Slot := LockTy × Option Guard

/-- The first field whose `TYPE_NAME` is `name`: the arm the `match` takes (src/context.rs:152-153). -/
def slotFor (slots : List Slot) (name : String) : Option Nat := slots.findIdx? (fun s => s.1.name = name)

/-- What `release_fields` does with one field of the old context (src/context.rs:108-131) and the closure
answers (src/context.rs:151-170): no such field, or it is filled: drop the lock. Otherwise the field becomes
zeroed memory; if the type is another one the panic unwinds and drops that memory as if it were a lock, which is
undefined behaviour; else the lock is moved into it. Types with one `TypeId` have one size (src/context.rs:121-125). -/
def releaseField (slots : List Slot) (l : Locks) (g : Guard) : R (List Slot × Locks) :=
  match slotFor slots g.ty.name with
  | none => do
    let l ← l.release g
    .ok (slots, l)
  | some i =>
    match slots[i]? with
    | none => .error .vecOob
    | some (ty, some _) => do
      let l ← l.release g
      .ok (slots, l)
    | some (ty, none) =>
      if ty.tid ≠ g.ty.tid then .error .ub
      else .ok (slots.set i (ty, some g), l)

/-- The fields of one context, in order. -/
def releaseList (slots : List Slot) (l : Locks) : List Guard → R (List Slot × Locks)
  | [] => .ok (slots, l)
  | g :: gs => do
    let (slots, l) ← releaseField slots l g
    releaseList slots l gs

/-- What implements `ReleaseFields`: contexts and tuples (src/context.rs:205-256). -/
inductive Old where
  | unit
  | ctx (fields : List Guard)
  | one (a : Old)
  | two (a b : Old)
  | three (a b c : Old)

/-- The locks in a context or tuple of contexts, in field order. -/
def Old.guards : Old → List Guard
  | .unit => []
  | .ctx fields => fields
  | .one a => a.guards
  | .two a b => a.guards ++ b.guards
  | .three a b c => a.guards ++ b.guards ++ c.guards

/-- `ReleaseFields::release_fields` (src/context.rs:101-135, 205-256). -/
def Old.release (slots : List Slot) (l : Locks) : Old → R (List Slot × Locks)
  | .unit => .ok (slots, l)
  | .ctx fields => releaseList slots l fields
  | .one a => a.release slots l
  | .two a b => do
    let (slots, l) ← a.release slots l
    b.release slots l
  | .three a b c => do
    let (slots, l) ← a.release slots l
    let (slots, l) ← b.release slots l
    c.release slots l

/-- Locks what is missing (src/context.rs:172-177) and unwraps the fields (src/context.rs:179-183). -/
def lockMissing (l : Locks) : List Slot → R (List Guard × Locks)
  | [] => .ok ([], l)
  | (_, some g) :: rest => do
    let (gs, l) ← lockMissing l rest
    .ok (g :: gs, l)
  | (ty, none) :: rest => do
    let (g, l) ← l.acquire ty
    let (gs, l) ← lockMissing l rest
    .ok (g :: gs, l)

/-- `$name::from(universe, old)` (src/context.rs:140-185) for a context with fields of these types. -/
def ctxFrom (fields : List LockTy) (old : Old) (l : Locks) : R (List Guard × Locks) := do
  let (slots, l) ← old.release (fields.map (fun ty => (ty, none))) l
  lockMissing l slots

/-- `$name::new(universe)` (src/context.rs:88-93). -/
def ctxNew (l : Locks) : List LockTy → R (List Guard × Locks)
  | [] => .ok ([], l)
  | ty :: rest => do
    let (g, l) ← l.acquire ty
    let (gs, l) ← ctxNew l rest
    .ok (g :: gs, l)

end V11
