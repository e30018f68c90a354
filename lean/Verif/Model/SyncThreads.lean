import Verif.Model.Libs

/-!
# Libraries and threads: `clone_globals`, `sync_globals` and the two locks

Every call on the registry first gets a handle of the registry from its library's copy of the global (`clone_globals`), lets go of the
global, and then locks the registry through the handle, reads or writes it, and unlocks it. `sync_globals` keeps the global locked for
writing while it reads the registry the global has, and with that one locked the registry of its argument. Here threads of several libraries do
so at the same time. What is done with a locked registry is one step and can be anything (`LockedWork`); the calls of
`Model/Registry` are made of such sections.
-/

namespace V11
variable {Ty : Type} {V : Ty → Type} {P : Type}

/-- What a call does while it has the registry locked: what it leaves, and whether it panics. -/
abbrev LockedWork (V : Ty → Type) := Globals V → Globals V × Bool

/-- Calls. A handle is the number of a registry, and registry `n` is the one library `n` started with. -/
inductive SyOp (V : Ty → Type) where
  /-- `clone_globals().write()` or `clone_globals().read()`, made by library `lib` (such as src/domain.rs:45-48, 73-75, 230-232, 243-248,
  268-270, 278-283, src/property.rs:266-268, 314-320). -/
  | use (lib : Nat) (write : Bool) (f : LockedWork V)
  /-- `sync_globals` called in library `lib` with the handle `h` (src/domain.rs:408-421). -/
  | sync (lib h : Nat)

/-- Where a thread is. -/
inductive SyPhase (V : Ty → Type) where
  /-- Not in a call. -/
  | idle
  /-- The call has begun. -/
  | begun (op : SyOp V)
  /-- `clone_globals` has returned registry `r`. -/
  | cloned (lib : Nat) (write : Bool) (f : LockedWork V) (r : Nat)
  /-- In `read()` or `write()` of registry `r`. -/
  | queued (lib : Nat) (write : Bool) (f : LockedWork V) (r : Nat)
  /-- Has the guard of registry `r`. -/
  | inside (lib : Nat) (write : Bool) (f : LockedWork V) (r : Nat)
  /-- `sync_globals`: has the global locked for writing (src/domain.rs:409). -/
  | syncing (lib h : Nat)
  /-- And registry `r` for reading (src/domain.rs:411). -/
  | comparing (lib h r : Nat)

/-- What happens, in order. -/
inductive SyEv (ι : Type) (V : Ty → Type) where
  | began (i : ι) (op : SyOp V)
  /-- `clone_globals` returned registry `r`. -/
  | cloned (i : ι) (lib r : Nat)
  /-- A section on registry `r`. -/
  | made (i : ι) (lib r : Nat) (write : Bool) (f : LockedWork V)
  /-- `sync_globals` returned. -/
  | synced (i : ι) (lib h : Nat)
  /-- `sync_globals` panicked with the global locked. -/
  | refused (i : ι) (lib h : Nat)
  /-- The call panicked because a lock was poisoned. -/
  | failed (i : ι) (op : SyOp V)

/-- The process. -/
structure SySys (ι : Type) (P : Type) (V : Ty → Type) where
  host : Host P V
  th : ι → SyPhase V
  log : List (SyEv ι V)

section
variable {ι : Type}

/-- Nobody has done anything: every library has an empty registry (src/domain.rs:396-400). -/
def SySys.start : SySys ι P V := { host := Host.start, th := fun _ => .idle, log := [] }

/-- A `sync_globals` has library `lib`'s copy of the global locked. `clone_globals` locks it only for a moment (src/domain.rs:403-405). -/
def SySys.locked (s : SySys ι P V) (lib : Nat) : Prop := ∃ j h, s.th j = .syncing lib h ∨ ∃ r, s.th j = .comparing lib h r

/-- Registry `r` can be had for reading: nobody has it for writing, and, if readers wait for writers that wait (`waits`, as
the `RwLock` of std may or may not), nobody waits to write. -/
def SySys.readable (waits : Bool) (s : SySys ι P V) (r : Nat) : Prop :=
  (∀ j lib f, s.th j ≠ .inside lib true f r) ∧ (waits = true → ∀ j lib f, s.th j ≠ .queued lib true f r)

/-- Registry `r` can be had for writing: nobody has it. -/
def SySys.writable (s : SySys ι P V) (r : Nat) : Prop :=
  (∀ j lib w f, s.th j ≠ .inside lib w f r) ∧ ∀ j lib h, s.th j ≠ .comparing lib h r

/-- The lock of a section can be had. -/
def SySys.grantable (waits : Bool) (s : SySys ι P V) (r : Nat) : Bool → Prop
  | true => s.writable r
  | false => s.readable waits r

variable [DecidableEq ι]

/-- Thread `i` goes on like this, and that has happened. -/
def SySys.goOn (s : SySys ι P V) (i : ι) (ph : SyPhase V) (host : Host P V) (evs : List (SyEv ι V)) : SySys ι P V :=
  { host := host, th := Function.update s.th i ph, log := s.log ++ evs }

/-- What a section leaves: a panic of a writer poisons the lock, and a reader changes nothing (std). -/
def Shelf.after (x : Shelf V) (write : Bool) (f : LockedWork V) : Shelf V :=
  if write then { g := (f x.g).1, poisoned := (f x.g).2 } else x

/-- The process after a section on registry `r`. -/
def Host.made (p : Host P V) (r : Nat) (write : Bool) (f : LockedWork V) : Host P V :=
  { p with regs := Function.update p.regs r ((p.regs r).after write f) }

/-- One step of thread `i`. -/
inductive SyStep (waits : Bool) (s : SySys ι P V) (i : ι) : SySys ι P V → Prop where
  /-- It begins a call. -/
  | begin (op : SyOp V) : s.th i = .idle → SyStep waits s i (s.goOn i (.begun op) s.host [.began i op])
  /-- `clone_globals` (src/domain.rs:403-405): waits while somebody else has the global, and panics if it is poisoned. -/
  | clone {lib w f r} : s.th i = .begun (.use lib w f) → ¬ s.locked lib → s.host.cloneGlobals lib = .ok r →
      SyStep waits s i (s.goOn i (.cloned lib w f r) s.host [.cloned i lib r])
  | cloneFails {lib w f e} : s.th i = .begun (.use lib w f) → ¬ s.locked lib → s.host.cloneGlobals lib = .error e →
      SyStep waits s i (s.goOn i .idle s.host [.failed i (.use lib w f)])
  /-- It asks for the registry. -/
  | ask {lib w f r} : s.th i = .cloned lib w f r → SyStep waits s i (s.goOn i (.queued lib w f r) s.host [])
  /-- And gets it, or panics because it is poisoned. -/
  | enter {lib w f r} : s.th i = .queued lib w f r → s.grantable waits r w → (s.host.regs r).poisoned = false →
      SyStep waits s i (s.goOn i (.inside lib w f r) s.host [])
  | enterFails {lib w f r} : s.th i = .queued lib w f r → s.grantable waits r w → (s.host.regs r).poisoned = true →
      SyStep waits s i (s.goOn i .idle s.host [.failed i (.use lib w f)])
  /-- It does its work and unlocks. -/
  | leave {lib w f r} : s.th i = .inside lib w f r →
      SyStep waits s i (s.goOn i .idle (s.host.made r w f) [.made i lib r w f])
  /-- `V11_GLOBALS.write().unwrap()` (src/domain.rs:409). -/
  | lock {lib h} : s.th i = .begun (.sync lib h) → ¬ s.locked lib → (s.host.libs lib).dead = false →
      SyStep waits s i (s.goOn i (.syncing lib h) s.host [])
  | lockFails {lib h} : s.th i = .begun (.sync lib h) → ¬ s.locked lib → (s.host.libs lib).dead = true →
      SyStep waits s i (s.goOn i .idle s.host [.failed i (.sync lib h)])
  /-- `old.read().unwrap()` (src/domain.rs:411). -/
  | first {lib h} : s.th i = .syncing lib h → s.readable waits (s.host.libs lib).reg → (s.host.regs (s.host.libs lib).reg).poisoned = false →
      SyStep waits s i (s.goOn i (.comparing lib h (s.host.libs lib).reg) s.host [])
  | firstFails {lib h} : s.th i = .syncing lib h → s.readable waits (s.host.libs lib).reg → (s.host.regs (s.host.libs lib).reg).poisoned = true →
      SyStep waits s i (s.goOn i .idle (s.host.killed lib) [.refused i lib h])
  /-- `globals.read().unwrap()`, and the rest (src/domain.rs:412-421), which is that of `Host.sync`. -/
  | second {lib h r host} : s.th i = .comparing lib h r → s.readable waits h → s.host.sync lib h = (.ok (), host) →
      SyStep waits s i (s.goOn i .idle host [.synced i lib h])
  | secondFails {lib h r host e} : s.th i = .comparing lib h r → s.readable waits h → s.host.sync lib h = (.error e, host) →
      SyStep waits s i (s.goOn i .idle host [.refused i lib h])

/-- Any schedule. -/
inductive SyRun (waits : Bool) (s : SySys ι P V) : SySys ι P V → Prop where
  | refl : SyRun waits s s
  | step {t t' : SySys ι P V} (i : ι) (h : SyRun waits s t) (hs : SyStep waits t i t') : SyRun waits s t'

/-- Some thread is in a call, and none that is can go on. -/
def SySys.Stuck (waits : Bool) (s : SySys ι P V) : Prop :=
  (∃ i, s.th i ≠ .idle) ∧ ∀ i, s.th i ≠ .idle → ∀ s', ¬ SyStep waits s i s'

end
end V11
