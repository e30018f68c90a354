import Verif.Model.Registry

/-!
# What a program can tell about the registry, from its own history of calls
-/

namespace V11

/-- The letters of identifiers. -/
def letters : List Char := "ABCDEFGHIJKLMNOPQRSTUVWXYZabcdefghijklmnopqrstuvwxyz".toList

/-- What may follow. -/
def nameChars : List Char := letters ++ "0123456789_".toList

/-- `[A-Za-z][A-Za-z0-9_]*` -/
def IsName (s : List Char) : Prop := ∃ c cs, s = c :: cs ∧ c ∈ letters ∧ ∀ x ∈ cs, x ∈ nameChars

/-- `domain/short` with both parts names. -/
def IsPropName (domain name : List Char) : Prop := IsName domain ∧ ∃ short, name = domain ++ '/' :: short ∧ IsName short

/-- Drops what has occurred before. -/
def firsts {α β : Type} [DecidableEq β] (f : α → β) : List α → List α
  | [] => []
  | a :: l => a :: (firsts f l).filter (fun b => f b ≠ f a)

section
variable {Ty : Type} [DecidableEq Ty] {V : Ty → Type} {P : Type} [DecidableEq P] (decl : P → PropDecl V)

/-- The calls of a history, and whether each returned. -/
def World.trace (w : World P V) : List (ROp decl) → List (ROp decl × Bool)
  | [] => []
  | op :: ops => (op, (w.step decl op).1.isOk) :: ((w.step decl op).2).trace ops

/-- The process after these calls. -/
abbrev World.after (ops : List (ROp decl)) : World P V := (World.empty : World P V).run decl ops

/-- These calls and whether each returned. -/
abbrev World.history (ops : List (ROp decl)) : List (ROp decl × Bool) := (World.empty : World P V).trace decl ops

variable {decl}

/-- The universe numbered `k` has the domain. -/
def World.hasDomain (w : World P V) (k : Nat) (n : String) : Prop := ∃ u d, w.unis[k]? = some u ∧ MaybeDomain.domain d ∈ u ∧ d.name = n

/-- Universe `k` has the table `t` of domain `d`, and this is its state. -/
def World.hasTable (w : World P V) (k : Nat) (d t : String) (x : TableInst) : Prop :=
  ∃ u i, w.unis[k]? = some u ∧ MaybeDomain.domain i ∈ u ∧ i.name = d ∧ i.tables.lookup t = some x

/-- Universe `k` has the table, and its lock is poisoned. -/
def World.dead (w : World P V) (k : Nat) (d t : String) : Prop := ∃ x, w.hasTable k d t x ∧ x.poisoned = true

/-- The value a call wrote to the property of this name in universe `k`. -/
def written (k : Nat) (name : String) : ROp decl × Bool → Option (Σ t, V t)
  | (.set k' p v, true) => if k' = k ∧ (decl p).name = name then some ⟨_, v⟩ else none
  | (.swap k' p v, true) => if k' = k ∧ (decl p).name = name then some ⟨_, v⟩ else none
  | _ => none

/-- No call in the list writes a property of this name in universe `k`. -/
def NoWrite (k : Nat) (name : String) (ops : List (ROp decl)) : Prop := ∀ op ∈ ops, written k name (op, true) = none

/-- The value last written to the property of this name in universe `k`. -/
def lastWrite (tr : List (ROp decl × Bool)) (k : Nat) (name : String) : Option (Σ t, V t) := (tr.filterMap (written k name)).getLast?

/-- The initial value given by a registration of the property of this name. -/
def initOf (name : String) : ROp decl × Bool → Option (Σ t, V t)
  | (.registerProp p, true) => if (decl p).name = name then some ⟨_, (decl p).init⟩ else none
  | _ => none

/-- The initial value given by the first registration of a property of this name. -/
def firstInit (tr : List (ROp decl × Bool)) (name : String) : Option (Σ t, V t) := (tr.filterMap (initOf name)).head?

/-- The name of a registered domain. -/
def okDomain : ROp decl × Bool → Option String
  | (.registerDomain n, true) => some n
  | _ => none

/-- The registered domains, in order. -/
def domainsOf (tr : List (ROp decl × Bool)) : List String := firsts id (tr.filterMap okDomain)

/-- A table registered on this domain. -/
def okTable (domain : String) : ROp decl × Bool → Option GTable
  | (.registerTable t, true) => if t.domain = domain then some t else none
  | _ => none

/-- The tables of a domain: the first of each name, in order. -/
def tablesOf (tr : List (ROp decl × Bool)) (domain : String) : List GTable := firsts GTable.name (tr.filterMap (okTable domain))

/-- The foreign trackers these tables declare. -/
def declaredBy (tr : List (ROp decl × Bool)) (domain : String) : List Reg := (tablesOf tr domain).flatMap GTable.init

/-- The tracker does not fit the table: another module's, or not `consistent`. -/
def Reg.misfits (r : Reg) (tr : List (ROp decl × Bool)) : Prop :=
  ∃ g ∈ tablesOf tr r.domain, g.name = r.table ∧ (g.ty ≠ r.ty ∨ r.consistent = false)

/-- The tracker fits a table that was registered: it is that module's and `consistent`. -/
def Reg.fits (r : Reg) (tr : List (ROp decl × Bool)) : Prop :=
  r.consistent = true ∧ ∃ g ∈ tablesOf tr r.domain, g.name = r.table ∧ g.ty = r.ty

/-- The calls after which, if they panic, the table's lock can be poisoned: locking it for writing through a module whose
registration did not come first, panicking with it in hand, and registering trackers that do not fit, also by adding the
domain of a table that declares one. -/
def Kills (tr : List (ROp decl × Bool)) (k : Nat) (d t : String) : ROp decl → Prop
  | .openTable k' m write _ => k' = k ∧ write = true ∧ m.domain = d ∧ m.name = t ∧ m ∉ tablesOf tr d
  | .panicWriting k' m _ => k' = k ∧ m.domain = d ∧ m.name = t
  | .registerTracker k' r => k' = k ∧ r.domain = d ∧ r.table = t ∧ r.misfits tr
  | .addDomain k' n => k' = k ∧ ∃ r ∈ declaredBy tr n, r.domain = d ∧ r.table = t ∧ r.misfits tr
  | _ => False

end
end V11
