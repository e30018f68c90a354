import Verif.Model.Registry

/-!
# Unlocking a domain

`DomainName::locked` and `DomainName::set_locked` are public (though hidden from the documentation). With them a domain
that is used by a universe can be unlocked again, and more can be registered on it; `Universe::add_properties` is for
that.
-/

namespace V11

variable {Ty : Type} {V : Ty → Type} {P : Type} [DecidableEq P]

/-- `DomainName::set_locked` (src/domain.rs:97-100), by `map_info_mut` (src/domain.rs:80-85): the registry is locked for
writing, so asking for a domain that is not registered poisons it. -/
def World.setLocked (w : World P V) (name : String) (b : Bool) : R Unit × World P V :=
  if w.poisoned then (.error .poisoned, w)
  else match w.g.domains.lookup name with
    | none => w.die .noSuchDomain
    | some _ => (.ok (), { w with g := w.g.update name (fun info => { info with locked := b }) })

/-- `DomainName::locked` (src/domain.rs:92-95), by `map_info` (src/domain.rs:73-78): a read lock, which a panic does not
poison. -/
def World.locked (w : World P V) (name : String) : R Bool :=
  if w.poisoned then .error .poisoned
  else match w.g.domains.lookup name with
    | none => .error .noSuchDomain
    | some info => .ok info.locked

variable [DecidableEq Ty]

/-- Any call, `set_locked` being one. -/
inductive LkOp (decl : P → PropDecl V) where
  | call (op : ROp decl)
  | setLocked (name : String) (b : Bool)

/-- Whether the call returned, and the world afterwards. -/
def World.lkStep (decl : P → PropDecl V) (w : World P V) : LkOp decl → R Unit × World P V
  | .call op => w.step decl op
  | .setLocked n b => w.setLocked n b

/-- A history of calls; panics are caught and the program goes on. -/
def World.lkRun (decl : P → PropDecl V) (w : World P V) : List (LkOp decl) → World P V
  | [] => w
  | op :: ops => ((w.lkStep decl op).2).lkRun decl ops

end V11
