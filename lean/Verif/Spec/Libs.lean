import Verif.Model.Libs
import Verif.Spec.Registry

/-!
# How several libraries are meant to share a registry
-/

namespace V11
variable {Ty : Type} [DecidableEq Ty] {V : Ty → Type} {P : Type} [DecidableEq P] {decl : P → PropDecl V}

/-- Library `0` is `main`. Every other library, before anything else, calls `sync_globals` with `main`'s handle (and it
may do so again later); `joined` are those that have. -/
def Polite (joined : List Nat) : List (DlOp decl) → Prop
  | [] => True
  | .call i _ :: ops => (i = 0 ∨ i ∈ joined) ∧ Polite joined ops
  | .sync i h :: ops => h = 0 ∧ Polite (i :: joined) ops

/-- The calls of a history, no matter which library makes them. -/
def callsOf : List (DlOp decl) → List (ROp decl)
  | [] => []
  | .call _ op :: ops => op :: callsOf ops
  | .sync _ _ :: ops => callsOf ops

/-- Those that have called `sync_globals`. -/
def joinedOf : List (DlOp decl) → List Nat
  | [] => []
  | .call _ _ :: ops => joinedOf ops
  | .sync i _ :: ops => i :: joinedOf ops

/-- What each call of a history came to. -/
def Host.outcomes (decl : P → PropDecl V) (p : Host P V) : List (DlOp decl) → List (R Unit)
  | [] => []
  | .call i op :: ops => (p.call decl i op).1 :: ((p.call decl i op).2).outcomes decl ops
  | .sync i h :: ops => ((p.sync i h).2).outcomes decl ops

/-- What each call of a history came to, when there is one library. -/
def World.outcomes (decl : P → PropDecl V) (w : World P V) : List (ROp decl) → List (R Unit)
  | [] => []
  | op :: ops => (w.step decl op).1 :: ((w.step decl op).2).outcomes decl ops

end V11
