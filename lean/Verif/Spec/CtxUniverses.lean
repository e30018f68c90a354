import Verif.Model.CtxUniverses

/-!
# Contexts and the universes their locks are in
-/

namespace V11

/-- The variables named. -/
def CArgs.names : CArgs → List Nat
  | .unit => []
  | .var v => [v]
  | .one a => a.names
  | .two a b => a.names ++ b.names
  | .three a b c => a.names ++ b.names ++ c.names

/-- Contexts are only handed on within one universe. -/
def SameUniverse (s : UProg) : UAct → Prop
  | .from u _ args => ∀ v ∈ args.names, ∀ c, s.vars v = some c → c.owner = u
  | _ => True

/-- The states of programs all of whose actions satisfy `P`. -/
inductive URun (P : UProg → UAct → Prop) : UProg → Prop
  | start : URun P UProg.start
  | step {s s' : UProg} {a : UAct} : URun P s → P s a → s.step a = some (.ok s') → URun P s'

/-- Some context holds a lock of a universe that no longer exists. -/
def Dangling (s : UProg) : Prop := ∃ v c, s.vars v = some c ∧ ∃ g ∈ c.fields, g.uni ∉ s.alive

/-- The locks in all the contexts that exist, by variable. -/
def inContexts (vars : Nat → Option UCtx) (n : Nat) : List Guard := (List.range n).flatMap (fun v => ((vars v).map UCtx.fields).getD [])

/-- Some context holds a lock of universe `u`. -/
def InUse (s : UProg) (u : Nat) : Prop := ∃ v c, s.vars v = some c ∧ ∃ g ∈ c.fields, g.uni = u

end V11
