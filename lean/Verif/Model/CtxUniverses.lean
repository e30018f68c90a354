import Verif.Model.Context
import Mathlib.Data.Nat.Pairing

/-!
# Contexts and several universes

`$name<'a>::from(universe: &'a Universe, old: F)` (src/context.rs:140-185) takes any `F: ReleaseFields`; no lifetime
ties `old` to `universe`. A program that makes and drops universes and contexts is modelled together with what
the borrow checker enforces: a value of type `$name<'a>` borrows the universe that was passed to make it, and a
universe can be dropped when nothing borrows it. One thread. A step that panics or waits forever ends the program.
-/

namespace V11

/-- A `Lockable` type as a lock of universe `u`: name and `TypeId` do not depend on the universe, what is locked does
(macros/output.rs:1799-1815: `lock` calls `read(universe)` or `write(universe)`). -/
def LockTy.on (u : Nat) (ty : LockTy) : LockTy := { ty with res := Nat.pair u ty.res }

/-- The universe a lock was taken in. -/
def Guard.uni (g : Guard) : Nat := g.ty.res.unpair.1

/-- A context: the universe its lifetime parameter stands for, and its fields (src/context.rs:83-85). -/
structure UCtx where
  owner : Nat
  fields : List Guard

/-- The second argument of `from`: contexts, moved out of variables, and tuples of them (src/context.rs:205-256). -/
inductive CArgs where
  | unit
  | var (v : Nat)
  | one (a : CArgs)
  | two (a b : CArgs)
  | three (a b c : CArgs)

/-- Moves the contexts out of the variables. `none`: use of a moved or unknown variable, which does not compile. -/
def CArgs.take (vars : Nat → Option UCtx) : CArgs → Option (Old × (Nat → Option UCtx))
  | .unit => some (.unit, vars)
  | .var v => match vars v with
    | none => none
    | some c => some (.ctx c.fields, Function.update vars v none)
  | .one a => (a.take vars).map fun x => (.one x.1, x.2)
  | .two a b => (a.take vars).bind fun x => (b.take x.2).map fun y => (.two x.1 y.1, y.2)
  | .three a b c => (a.take vars).bind fun x => (b.take x.2).bind fun y => (c.take y.2).map fun z => (.three x.1 y.1 z.1, z.2)

/-- A program's universes and context variables, and the locks its thread holds. -/
structure UProg where
  alive : List Nat
  nextUni : Nat
  vars : Nat → Option UCtx
  nextVar : Nat
  locks : Locks

/-- What the program does next. -/
inductive UAct where
  /-- `Universe::new(…)`. -/
  | makeUni
  /-- The universe is dropped. -/
  | dropUni (u : Nat)
  /-- `let v = Ctx::new(&u)`. -/
  | new (u : Nat) (tys : List LockTy)
  /-- `let v = Ctx::from(&u, old)`. -/
  | from (u : Nat) (tys : List LockTy) (old : CArgs)
  /-- `drop(v)`. -/
  | drop (v : Nat)

/-- Dropping a context drops its fields in order. -/
def ctxDrop (l : Locks) (gs : List Guard) : R Locks := gs.foldlM Locks.release l

namespace UProg

/-- Before anything is made. -/
def start : UProg :=
  { alive := [], nextUni := 0, vars := fun _ => none, nextVar := 0, locks := { held := [], next := 0, log := [] } }

/-- A new variable. -/
def bindVar (s : UProg) (u : Nat) (gs : List Guard) (l : Locks) : UProg :=
  { s with vars := Function.update s.vars s.nextVar (some ⟨u, gs⟩), nextVar := s.nextVar + 1, locks := l }

/-- One action: `none` if the compiler rejects it. `$name::new` (src/context.rs:88-93) and `from` (140-185) return a
`$name<'a>`, where `'a` is the borrow of the universe passed; the old contexts' lifetimes appear nowhere in it. -/
def step (s : UProg) : UAct → Option (R UProg)
  | .makeUni => some (.ok { s with alive := s.nextUni :: s.alive, nextUni := s.nextUni + 1 })
  | .dropUni u =>
    if u ∈ s.alive ∧ ∀ v < s.nextVar, ∀ c ∈ s.vars v, c.owner ≠ u then
      some (.ok { s with alive := s.alive.filter (· ≠ u) })
    else none
  | .new u tys =>
    if u ∈ s.alive then some (do
      let (gs, l) ← ctxNew s.locks (tys.map (LockTy.on u))
      .ok (s.bindVar u gs l))
    else none
  | .from u tys args =>
    if u ∈ s.alive then
      (args.take s.vars).map fun x => do
        let (gs, l) ← ctxFrom (tys.map (LockTy.on u)) x.1 s.locks
        .ok (({ s with vars := x.2 } : UProg).bindVar u gs l)
    else none
  | .drop v => match s.vars v with
    | none => none
    | some c => some (do
      let l ← ctxDrop s.locks c.fields
      .ok { s with vars := Function.update s.vars v none, locks := l })

/-- The actions of a program, one after the other. -/
def run (s : UProg) : List UAct → Option (R UProg)
  | [] => some (.ok s)
  | a :: as => match s.step a with
    | some (.ok s) => s.run as
    | r => r

end UProg
end V11
