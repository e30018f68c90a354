import Verif.Model.Inits
import Verif.Spec.Registry

/-!
# What the initialisers of properties are expected to do
-/

namespace V11
variable {Ty : Type} {V : Ty → Type} {P : Type} [DecidableEq P] {decl : P → PropDecl V}

/-- An instance of a domain without the values of its properties. -/
def Instance.bare (d : Instance V) : Instance V := { d with props := [] }

/-- The same for a place of a universe. -/
def MaybeDomain.bare : MaybeDomain V → MaybeDomain V
  | .unset n => .unset n
  | .domain d => .domain d.bare

/-- The process apart from the values of properties. -/
def World.bare (w : World P V) : World P V := { w with unis := w.unis.map (List.map MaybeDomain.bare) }

/-- The property that was the first with its name. -/
def firstNamed (rs : List P) (p : P) : P := (rs.find? (fun q => decide ((decl q).name = (decl p).name))).getD p

/-- The initialisers that are to be evaluated for a domain if these properties were registered, in this order: one for each registration on
the domain, namely that of the first property with its name. -/
def lineup (rs : List P) (n : String) : List P :=
  (rs.filter (fun p => decide ((decl p).domain = n))).map (firstNamed (decl := decl) rs)

/-- The call locks the registry, whatever the state. -/
def ROp.locksRegistry : ROp decl → Prop
  | .registerDomain n => IsName n.toList
  | .registerTable t => t.build = .ok ()
  | .get _ _ => False
  | .set _ _ _ => False
  | .swap _ _ _ => False
  | _ => True

/-- The initialiser makes a call that locks the registry, whatever it is given by the calls before. -/
inductive Recipe.Locks {t : Ty} : Recipe decl t → Prop
  | now (op : ROp decl) (k : R (Given V) → Recipe decl t) (h : op.locksRegistry) : Recipe.Locks (.call op k)
  | later (op : ROp decl) (k : R (Given V) → Recipe decl t) (h : ∀ r, Recipe.Locks (k r)) : Recipe.Locks (.call op k)

/-- The call is the use of one of the properties `ready` in a universe other than `busy`. -/
def ROp.mild (ready : P → Prop) (busy : Option Nat) : ROp decl → Prop
  | .get k p => busy ≠ some k ∧ ready p
  | .set k p _ => busy ≠ some k ∧ ready p
  | .swap k p _ => busy ≠ some k ∧ ready p
  | _ => False

/-- The initialiser only makes such calls, and does not panic. -/
inductive Recipe.Mild {t : Ty} (ready : P → Prop) (busy : Option Nat) : Recipe decl t → Prop
  | ret (v : V t) : Recipe.Mild ready busy (.ret v)
  | call (op : ROp decl) (k : R (Given V) → Recipe decl t) (h : op.mild ready busy) (hk : ∀ r, Recipe.Mild ready busy (k r)) :
      Recipe.Mild ready busy (.call op k)

/-- The initialiser only makes such calls, and then panics, whatever it is given. -/
inductive Recipe.Panics {t : Ty} (ready : P → Prop) (busy : Option Nat) : Recipe decl t → Prop
  | now : Recipe.Panics ready busy .panic
  | call (op : ROp decl) (k : R (Given V) → Recipe decl t) (h : op.mild ready busy) (hk : ∀ r, Recipe.Panics ready busy (k r)) :
      Recipe.Panics ready busy (.call op k)

variable [DecidableEq Ty] (inits : (p : P) → Recipe decl (decl p).ty)

/-- These initialisers, evaluated one after the other until one does not return: what each gave, and the process afterwards. -/
def evalEach (busy : Option Nat) : List P → World P V → List (P × R (Σ t, V t)) × World P V
  | [], w => ([], w)
  | p :: ps, w =>
    match (inits p).run busy w with
    | (.error q, w) => ([(p, .error q)], w)
    | (.ok v, w) => ((p, .ok ⟨_, v⟩) :: (evalEach busy ps w).1, (evalEach busy ps w).2)

/-- The properties whose registration took effect, in order: those that were not registered or used before. -/
def EWorld.joins (e : EWorld decl) : List (ROp decl) → List P
  | [] => []
  | op :: ops =>
    (match op with
     | .registerProp p => if (e.step inits op).1.isOk ∧ (e.w.idx p).isNone then [p] else []
     | _ => []) ++ (e.step inits op).2.joins ops

/-- The calls of a history, and whether each returned. -/
def EWorld.trace (e : EWorld decl) : List (ROp decl) → List (ROp decl × Bool)
  | [] => []
  | op :: ops => (op, (e.step inits op).1.isOk) :: (e.step inits op).2.trace ops

end V11
