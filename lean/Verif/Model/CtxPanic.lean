import Verif.Model.Context

/-!
# `context!` and panics: poisoned locks, and what unwinding drops
-/

namespace V11

/-- The locks of this thread, and the locks (by what they lock) that are poisoned. -/
structure PLocks where
  locks : Locks
  bad : Nat → Bool

/-- A panic drops the guard `g`: std poisons the lock of a write guard that is dropped while panicking; read guards poison nothing. -/
def PLocks.lose (s : PLocks) (g : Guard) : PLocks :=
  { locks := { s.locks with held := s.locks.held.erase g, log := s.locks.log ++ [.released g] },
    bad := if g.ty.write then Function.update s.bad g.ty.res true else s.bad }

/-- Unwinding drops these guards; `none` if the process ends, because a destructor panics too (macros/output.rs:844-850). -/
def PLocks.unwind (s : PLocks) : List Guard → Option PLocks
  | [] => some s
  | g :: gs => if g.dirty then none else (s.lose g).unwind gs

/-- `release_fields` (src/context.rs:101-135, 205-256) of the fields of the old contexts, in order (`release_guards`: a tuple does its
contexts one after another). If the destructor of a lock with no place panics, that lock is released and poisoned (its guard is a field of
`Write` and is dropped by the panic), and what is left is dropped: the fields that were not yet moved out of `self` and out of the tuple, and
the variables of `from` (147-149), in reverse. -/
def pReleaseList (slots : List Slot) (s : PLocks) : List Guard → Option (PLocks × R (List Slot))
  | [] => some (s, .ok slots)
  | g :: gs =>
    match releaseField slots s.locks g with
    | .ok (slots, l) => pReleaseList slots { s with locks := l } gs
    | .error .unflushed => ((s.lose g).unwind (gs ++ (slots.filterMap (·.2)).reverse)).map fun s => (s, .error .unflushed)
    | .error p => some (s, .error p)

/-- Locks what is missing (src/context.rs:172-183); `done` are the fields before. Taking a poisoned lock panics, in `unwrap`
(macros/output.rs:1649-1651, 1692-1695, src/property.rs:157-182), which drops the variables, in reverse. -/
def pLockMissing (done : List Guard) (s : PLocks) : List Slot → Option (PLocks × R (List Guard))
  | [] => some (s, .ok done)
  | (_, some g) :: rest => pLockMissing (done ++ [g]) s rest
  | (ty, none) :: rest =>
    match s.locks.acquire ty with
    | .error p => some (s, .error p)
    | .ok (g, l) =>
      if s.bad ty.res then (s.unwind (done ++ rest.filterMap (·.2)).reverse).map fun s => (s, .error .poisoned)
      else pLockMissing (done ++ [g]) { s with locks := l } rest

/-- `$name::from(universe, old)` (src/context.rs:140-185). -/
def pCtxFrom (fields : List LockTy) (old : Old) (s : PLocks) : Option (PLocks × R (List Guard)) :=
  match pReleaseList (fields.map fun ty => (ty, none)) s old.guards with
  | none => none
  | some (s, .error p) => some (s, .error p)
  | some (s, .ok slots) => pLockMissing [] s slots

/-- `$name::new(universe)` (src/context.rs:88-93); `done` are the fields evaluated before, which a panic drops, in reverse. -/
def pCtxNew (done : List Guard) (s : PLocks) : List LockTy → Option (PLocks × R (List Guard))
  | [] => some (s, .ok done)
  | ty :: rest =>
    match s.locks.acquire ty with
    | .error p => some (s, .error p)
    | .ok (g, l) =>
      if s.bad ty.res then (s.unwind done.reverse).map fun s => (s, .error .poisoned)
      else pCtxNew (done ++ [g]) { s with locks := l } rest

end V11
