import Verif.Model.Registry
import Verif.Model.Threads

/-!
# The locks of properties, among threads

Every property of a universe is a `RwLock` of its own. `get`, `set` and `swap` lock it for a moment; `universe.read(prop)`, `universe.write(prop)`,
the `read` and `write` of the property's module, and `Read` and `Write` in a `context!` give a guard that is kept. A thread is a
tree of what it does next, which may depend on the values it reads. Finding the property's place, which may set its static `Prop`, is one
step here (`Model/RegThreads` has its parts); the property of a name in a universe has one place (C40), so a lock is known by these two.
-/

namespace V11
variable {Ty : Type} {V : Ty → Type} {P : Type}

/-- A property's lock: the universe and the property's name. -/
abbrev PKey := Nat × String

/-- What a thread does with properties. -/
inductive PScript (decl : P → PropDecl V) where
  /-- Ends; guards that are left are dropped. -/
  | done
  /-- Panics. -/
  | panic
  /-- `universe.get(prop)` (src/property.rs:353-356). -/
  | get (k : Nat) (p : P) (f : V (decl p).ty → PScript decl)
  /-- `universe.set(prop, val)` (src/property.rs:358-361). -/
  | set (k : Nat) (p : P) (v : V (decl p).ty) (next : PScript decl)
  /-- `universe.swap(prop, val)` (src/property.rs:363-368). -/
  | swap (k : Nat) (p : P) (v : V (decl p).ty) (f : V (decl p).ty → PScript decl)
  /-- `universe.read(prop)`, `prop::read(universe)`, `Read::lock` (src/property.rs:144-157, 370-373). -/
  | read (k : Nat) (p : P) (next : PScript decl)
  /-- `universe.write(prop)`, `prop::write(universe)`, `Write::lock` (src/property.rs:148-150, 165-172, 375-378). -/
  | write (k : Nat) (p : P) (next : PScript decl)
  /-- `*guard` (src/property.rs:158-163, 173-178). -/
  | look (k : Nat) (p : P) (f : V (decl p).ty → PScript decl)
  /-- `*guard = val` (src/property.rs:179-183). -/
  | store (k : Nat) (p : P) (v : V (decl p).ty) (next : PScript decl)
  /-- `drop(guard)`. -/
  | drop (k : Nat) (p : P) (m : Mode) (next : PScript decl)

/-- The lock of a property. -/
def PropDecl.key (decl : P → PropDecl V) (k : Nat) (p : P) : PKey := (k, (decl p).name)

/-- The lock the thread wants next: whose, and how. -/
def PScript.asks {decl : P → PropDecl V} : PScript decl → Option (Nat × P × Mode)
  | .get k p _ => some (k, p, .rd)
  | .set k p _ _ => some (k, p, .wr)
  | .swap k p _ _ => some (k, p, .wr)
  | .read k p _ => some (k, p, .rd)
  | .write k p _ => some (k, p, .wr)
  | _ => none

/-- A guard: of which property, and of which kind. -/
abbrev PGuard (P : Type) := Nat × P × Mode

/-- The lock it is on. -/
def PGuard.key (decl : P → PropDecl V) (g : PGuard P) : PKey := PropDecl.key decl g.1 g.2.1

/-- What happens, in order. -/
inductive PlEv (ι : Type) (decl : P → PropDecl V) where
  /-- Found the property's place. -/
  | found (i : ι) (k : Nat) (p : P)
  /-- Read a value. -/
  | saw (i : ι) (k : Nat) (p : P) (v : V (decl p).ty)
  /-- Wrote a value. -/
  | wrote (i : ι) (k : Nat) (p : P) (v : V (decl p).ty)
  /-- Got a guard. -/
  | took (i : ι) (g : PGuard P)
  /-- Let it go. -/
  | left (i : ι) (g : PGuard P)
  /-- Panicked. -/
  | died (i : ι)

/-- A thread: what it still does, the guards it has, and whether it is unwinding. -/
structure PlThread (decl : P → PropDecl V) where
  script : PScript decl
  held : List (PGuard P)
  falling : Bool

/-- The process. -/
structure PlSys (ι : Type) (decl : P → PropDecl V) where
  w : World P V
  /-- The locks that are poisoned. -/
  bad : PKey → Bool
  th : ι → PlThread decl
  log : List (PlEv ι decl)

section
variable [DecidableEq Ty] [DecidableEq P] {ι : Type} [DecidableEq ι] {decl : P → PropDecl V}

/-- Threads start after the calls that made `w`. -/
def PlSys.start (w : World P V) (progs : ι → PScript decl) : PlSys ι decl :=
  { w := w, bad := fun _ => false, th := fun i => { script := progs i, held := [], falling := false }, log := [] }

/-- The lock can be had: for reading if nobody has it for writing, for writing if nobody has it. -/
def PlSys.free (s : PlSys ι decl) (l : PKey) : Mode → Prop
  | .rd => ∀ j, ∀ g ∈ (s.th j).held, g.key decl = l → g.2.2 = .rd
  | .wr => ∀ j, ∀ g ∈ (s.th j).held, g.key decl ≠ l

/-- Thread `i` goes on like this, and that has happened. -/
def PlSys.goOn (s : PlSys ι decl) (i : ι) (t : PlThread decl) (w : World P V) (evs : List (PlEv ι decl)) : PlSys ι decl :=
  { s with w := w, th := Function.update s.th i t, log := s.log ++ evs }

/-- Thread `i` panics and starts to unwind. -/
def PlSys.fall (s : PlSys ι decl) (i : ι) (w : World P V) (evs : List (PlEv ι decl)) : PlSys ι decl :=
  s.goOn i { script := .panic, held := (s.th i).held, falling := true } w (evs ++ [.died i])

/-- Thread `i` gets the lock it asked for, whose value is `v` (src/property.rs:144-183, 353-378). -/
def PlSys.grant (s : PlSys ι decl) (i : ι) : PScript decl → PlSys ι decl
  | .get k p f =>
    match s.w.get decl k p with
    | (.ok v, w) => s.goOn i { script := f v, held := (s.th i).held, falling := false } w [.found i k p, .saw i k p v]
    | (.error _, w) => s.fall i w [.found i k p]
  | .set k p x next =>
    match s.w.set decl k p x with
    | (.ok _, w) => s.goOn i { script := next, held := (s.th i).held, falling := false } w [.wrote i k p x]
    | (.error _, w) => s.fall i w [.found i k p]
  | .swap k p x f =>
    match s.w.swap decl k p x with
    | (.ok v, w) => s.goOn i { script := f v, held := (s.th i).held, falling := false } w [.saw i k p v, .wrote i k p x]
    | (.error _, w) => s.fall i w [.found i k p]
  | .read k p next => s.goOn i { script := next, held := (k, p, .rd) :: (s.th i).held, falling := false } (s.w.get decl k p).2
      [.found i k p, .took i (k, p, .rd)]
  | .write k p next => s.goOn i { script := next, held := (k, p, .wr) :: (s.th i).held, falling := false } (s.w.get decl k p).2
      [.found i k p, .took i (k, p, .wr)]
  | _ => s

/-- One step of thread `i`. A lock that is free can be had; whether a reader waits for writers that wait is left open (`PlSys.Sure`). -/
inductive PlStep (s : PlSys ι decl) (i : ι) : PlSys ι decl → Prop where
  /-- The property is not there (src/property.rs:380-417): the thread panics and locks nothing. -/
  | absent {k p m e} : (s.th i).falling = false → (s.th i).script.asks = some (k, p, m) → (s.w.get decl k p).1 = .error e →
      PlStep s i (s.fall i (s.w.get decl k p).2 [.found i k p])
  /-- The lock is poisoned: the `unwrap` panics. -/
  | poisoned {k p m v} : (s.th i).falling = false → (s.th i).script.asks = some (k, p, m) → (s.w.get decl k p).1 = .ok v →
      s.free (PropDecl.key decl k p) m → s.bad (PropDecl.key decl k p) = true → PlStep s i (s.fall i (s.w.get decl k p).2 [.found i k p])
  /-- It gets the lock. -/
  | take {k p m v} : (s.th i).falling = false → (s.th i).script.asks = some (k, p, m) → (s.w.get decl k p).1 = .ok v →
      s.free (PropDecl.key decl k p) m → s.bad (PropDecl.key decl k p) = false → PlStep s i (s.grant i (s.th i).script)
  /-- It reads through a guard. -/
  | look {k p f v m} : (s.th i).falling = false → (s.th i).script = .look k p f → (k, p, m) ∈ (s.th i).held → (s.w.get decl k p).1 = .ok v →
      PlStep s i (s.goOn i { script := f v, held := (s.th i).held, falling := false } s.w [.saw i k p v])
  /-- It writes through a guard. -/
  | store {k p x next} : (s.th i).falling = false → (s.th i).script = .store k p x next → (k, p, .wr) ∈ (s.th i).held →
      PlStep s i (s.goOn i { script := next, held := (s.th i).held, falling := false } (s.w.set decl k p x).2 [.wrote i k p x])
  /-- It drops a guard. -/
  | drop {k p m next} : (s.th i).falling = false → (s.th i).script = .drop k p m next → (k, p, m) ∈ (s.th i).held →
      PlStep s i (s.goOn i { script := next, held := (s.th i).held.erase (k, p, m), falling := false } s.w [.left i (k, p, m)])
  /-- It panics. -/
  | panic : (s.th i).falling = false → (s.th i).script = .panic → PlStep s i (s.fall i s.w [])
  /-- It has ended, and its guards are dropped. -/
  | leave {g rest} : (s.th i).falling = false → (s.th i).script = .done → (s.th i).held = g :: rest →
      PlStep s i (s.goOn i { script := .done, held := rest, falling := false } s.w [.left i g])
  /-- It unwinds: a guard is dropped, and a write guard poisons its lock (std). -/
  | unwind {g rest} : (s.th i).falling = true → (s.th i).held = g :: rest →
      PlStep s i { (s.goOn i { script := .panic, held := rest, falling := true } s.w [.left i g]) with
        bad := if g.2.2 = .wr then Function.update s.bad (g.key decl) true else s.bad }

/-- Any schedule. -/
inductive PlRun (s : PlSys ι decl) : PlSys ι decl → Prop where
  | refl : PlRun s s
  | step {t t' : PlSys ι decl} (i : ι) (h : PlRun s t) (hs : PlStep t i t') : PlRun s t'

/-- Thread `i` can take a step also if readers wait for writers that wait: who asks for reading has nobody before it that asks for writing. -/
def PlSys.Sure (s : PlSys ι decl) (i : ι) : Prop :=
  (∃ s', PlStep s i s') ∧
  ∀ k p, (s.th i).falling = false → (s.th i).script.asks = some (k, p, .rd) → (∃ v, (s.w.get decl k p).1 = .ok v) →
    ∀ j k' p', (s.th j).falling = false → (s.th j).script.asks = some (k', p', .wr) → PropDecl.key decl k' p' ≠ PropDecl.key decl k p

/-- Thread `i` has nothing left to do. -/
def PlSys.Over (s : PlSys ι decl) (i : ι) : Prop := (s.th i).held = [] ∧ ((s.th i).falling = true ∨ (s.th i).script = .done)

end
end V11
