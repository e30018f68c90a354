import Verif.Spec.Registry
import Verif.Model.Unlocked

/-!
# Histories in which domains are unlocked
-/

namespace V11

variable {Ty : Type} [DecidableEq Ty] {V : Ty → Type} {P : Type} [DecidableEq P] (decl : P → PropDecl V)

/-- The calls other than `set_locked`, and whether each returned. -/
def World.lkTrace (w : World P V) : List (LkOp decl) → List (ROp decl × Bool)
  | [] => []
  | .call op :: ops => (op, (w.step decl op).1.isOk) :: ((w.step decl op).2).lkTrace ops
  | .setLocked n b :: ops => ((w.setLocked n b).2).lkTrace ops

/-- The process after these calls. -/
abbrev World.lkAfter (ops : List (LkOp decl)) : World P V := (World.empty : World P V).lkRun decl ops

/-- These calls, `set_locked` left out, and whether each returned. -/
abbrev World.lkHistory (ops : List (LkOp decl)) : List (ROp decl × Bool) := (World.empty : World P V).lkTrace decl ops

variable {decl}

/-- The property was registered: some call of its `register` returned. -/
def Registers (p : P) (ops : List (LkOp decl)) : Prop := ((ROp.registerProp p : ROp decl), true) ∈ (World.empty : World P V).lkTrace decl ops

end V11
