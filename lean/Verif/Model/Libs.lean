import Verif.Model.Registry

/-!
# Several copies of the library in one process

Every dynamic library may have its own copy of the global `V11_GLOBALS` (src/domain.rs:393-400), which is a lock around
a shared pointer to a registry. `sync_globals` makes a copy point at somebody else's registry.
-/

namespace V11

variable {Ty : Type} {V : Ty → Type} {P : Type}

/-- One registry, behind its `RwLock`. -/
structure Shelf (V : Ty → Type) where
  g : Globals V
  poisoned : Bool

/-- One copy of `V11_GLOBALS` (src/domain.rs:396-400): which registry it points at, and whether its own lock is
poisoned. -/
structure Copy where
  reg : Nat
  dead : Bool
deriving DecidableEq, Repr

/-- The process: registries, numbered; libraries, numbered, with their copies of the global; the `static`s of all the
`property!`s; and the universes. -/
structure Host (P : Type) (V : Ty → Type) where
  regs : Nat → Shelf V
  libs : Nat → Copy
  idx : P → Option PIndex
  unis : List (List (MaybeDomain V))

/-- Nothing has happened: `Default::default()` (src/domain.rs:399) gives each library an empty registry of its own. -/
def Host.start : Host P V :=
  { regs := fun _ => { g := (World.empty : World P V).g, poisoned := false }, libs := fun i => { reg := i, dead := false }, idx := fun _ => none, unis := [] }

/-- What library `i` works on. Every use of the registry begins with `clone_globals().read().unwrap()` or
`.write().unwrap()`, and `clone_globals` itself panics if the library's copy of the global is poisoned, so to the caller
the two locks are as one. -/
def Host.view (p : Host P V) (i : Nat) : World P V :=
  { g := (p.regs (p.libs i).reg).g, poisoned := (p.libs i).dead || (p.regs (p.libs i).reg).poisoned, idx := p.idx, unis := p.unis }

/-- `GlobalProperties::is_empty` (src/domain.rs:383-385). -/
def Globals.isEmpty (g : Globals V) : Bool := g.domains.isEmpty && g.producers.isEmpty

/-- `clone_globals` (src/domain.rs:403-405). A handle is the number of the registry. -/
def Host.cloneGlobals (p : Host P V) (i : Nat) : R Nat :=
  if (p.libs i).dead then .error .poisoned else .ok (p.libs i).reg

/-- A panic while library `i`'s copy of the global is locked for writing. -/
def Host.killed (p : Host P V) (i : Nat) : Host P V := { p with libs := Function.update p.libs i { p.libs i with dead := true } }

/-- `sync_globals` (src/domain.rs:408-421) called in library `i` with the handle `h`. The addresses compared are those of
the registries. The two read locks are taken by one thread, which can wait for itself if another thread waits
to write; that is in `Model/SyncThreads`. -/
def Host.sync (p : Host P V) (i h : Nat) : R Unit × Host P V :=
  if (p.libs i).dead then (.error .poisoned, p)
  else if (p.regs (p.libs i).reg).poisoned then (.error .poisoned, p.killed i)
  else if (p.regs h).poisoned then (.error .poisoned, p.killed i)
  else if (p.libs i).reg = h then (.ok (), p)
  else if !(p.regs (p.libs i).reg).g.isEmpty then (.error .globalsSet, p.killed i)
  else (.ok (), { p with libs := Function.update p.libs i { p.libs i with reg := h } })

variable [DecidableEq P] [DecidableEq Ty]

/-- Any call of the registry or of a universe, made by library `i`. If its copy of the global is poisoned it cannot touch
a registry. -/
def Host.call (decl : P → PropDecl V) (p : Host P V) (i : Nat) (op : ROp decl) : R Unit × Host P V :=
  let r := (p.view i).step decl op
  (r.1, { p with
    regs := if (p.libs i).dead then p.regs else Function.update p.regs (p.libs i).reg { g := r.2.g, poisoned := r.2.poisoned }
    idx := r.2.idx
    unis := r.2.unis })

/-- What a library can do. -/
inductive DlOp (decl : P → PropDecl V) where
  | call (i : Nat) (op : ROp decl)
  | sync (i h : Nat)

/-- One such call. -/
def Host.step (decl : P → PropDecl V) (p : Host P V) : DlOp decl → R Unit × Host P V
  | .call i op => p.call decl i op
  | .sync i h => p.sync i h

/-- A history. -/
def Host.run (decl : P → PropDecl V) (p : Host P V) : List (DlOp decl) → Host P V
  | [] => p
  | op :: ops => ((p.step decl op).2).run decl ops

end V11
