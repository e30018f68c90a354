import Verif.Model.CtxPanic

/-!
# What a thread does with contexts, panics being caught
-/

namespace V11

/-- The locks, and the contexts this thread has. A lock outside of a context is a context with one field: it is taken, marked and dropped alike. -/
structure CtxState where
  s : PLocks
  live : List (List Guard)

/-- Whether the write lock with this number has something to flush. -/
def Guard.setDirty (no : Nat) (d : Bool) (g : Guard) : Guard := if g.no = no ∧ g.ty.write = true then { g with dirty := d } else g

/-- One thing the thread does; `true`: it returned, `false`: it panicked, and the panic was caught. Deadlocks, undefined behaviour and aborts
have no step. -/
inductive CtxStep : CtxState → Bool → CtxState → Prop
  /-- `C::new(universe)` (src/context.rs:88-93). -/
  | new {s s' live fields ctx} : pCtxNew [] s fields = some (s', .ok ctx) → CtxStep ⟨s, live⟩ true ⟨s', ctx :: live⟩
  | newPanics {s s' live fields p} : p ≠ .deadlock → pCtxNew [] s fields = some (s', .error p) → CtxStep ⟨s, live⟩ false ⟨s', live⟩
  /-- `C::from(universe, old)` (src/context.rs:140-185), `old` any tuple of contexts, which are moved. Dropping a context is
  the same without fields: its fields are dropped in order, and if the destructor of one panics the others are dropped by the panic. -/
  | recycle {s s' live olds rest old fields ctx} : live.Perm (olds ++ rest) → old.guards = olds.flatten → pCtxFrom fields old s = some (s', .ok ctx) →
      CtxStep ⟨s, live⟩ true ⟨s', ctx :: rest⟩
  | recyclePanics {s s' live olds rest old fields p} : live.Perm (olds ++ rest) → old.guards = olds.flatten → p ≠ .deadlock → p ≠ .ub →
      pCtxFrom fields old s = some (s', .error p) → CtxStep ⟨s, live⟩ false ⟨s', rest⟩
  /-- Something is changed, or flushed, through a write lock (macros/output.rs:844-850 asks for `_changes`). -/
  | mark {s live} (no : Nat) (d : Bool) : CtxStep ⟨s, live⟩ true
      ⟨{ s with locks := { s.locks with held := s.locks.held.map (Guard.setDirty no d) } }, live.map (List.map (Guard.setDirty no d))⟩
  /-- The program panics, which drops some of the contexts. -/
  | panics {s s' live olds rest} : live.Perm (olds ++ rest) → s.unwind olds.flatten = some s' → CtxStep ⟨s, live⟩ false ⟨s', rest⟩

/-- Any number of them. -/
inductive CtxRun : CtxState → CtxState → Prop
  | refl (st) : CtxRun st st
  | step {st st' st'' b} : CtxRun st st' → CtxStep st' b st'' → CtxRun st st''

end V11
