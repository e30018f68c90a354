import Verif.Model.PropLocks
import Verif.Spec.Registry

/-!
# What threads can rely on when they use properties
-/

namespace V11
variable {Ty : Type} [DecidableEq Ty] {V : Ty → Type} {P : Type} [DecidableEq P] {ι : Type} [DecidableEq ι] {decl : P → PropDecl V}

/-- The calls a single thread would make to do the same. -/
def opsOf (log : List (PlEv ι decl)) : List (ROp decl) :=
  log.filterMap (fun e => match e with
    | .found _ k p => some (.get k p)
    | .wrote _ k p v => some (.set k p v)
    | _ => none)

/-- The event reads or writes the value under this lock, or gets a guard on it. -/
def PlEv.uses (l : PKey) : PlEv ι decl → Prop
  | .saw _ k p _ => PropDecl.key decl k p = l
  | .wrote _ k p _ => PropDecl.key decl k p = l
  | .took _ g => g.key decl = l
  | _ => False

/-- The event writes the value under this lock, or gets a write guard on it. -/
def PlEv.writes (l : PKey) : PlEv ι decl → Prop
  | .wrote _ k p _ => PropDecl.key decl k p = l
  | .took _ g => g.key decl = l ∧ g.2.2 = .wr
  | _ => False

/-- The thread that did it. -/
def PlEv.doer : PlEv ι decl → ι
  | .found i _ _ => i
  | .saw i _ _ _ => i
  | .wrote i _ _ _ => i
  | .took i _ => i
  | .left i _ => i
  | .died i => i

/-- The value the event puts under this lock. -/
def PlEv.puts (l : PKey) : PlEv ι decl → Option (Σ t, V t)
  | .wrote _ k p v => if PropDecl.key decl k p = l then some ⟨_, v⟩ else none
  | _ => none

/-- The value threads last put under this lock. -/
def lastPut (log : List (PlEv ι decl)) (l : PKey) : Option (Σ t, V t) := (log.filterMap (PlEv.puts l)).getLast?

/-- A thread dropped a write guard on this lock after it had panicked. -/
def Spoiled (log : List (PlEv ι decl)) (l : PKey) : Prop :=
  ∃ pre i g post, log = pre ++ .left i g :: post ∧ .died i ∈ pre ∧ g.2.2 = .wr ∧ g.key decl = l

/-- A thread that has these guards uses guards it has only, and asks for locks below all those it has a guard on. -/
def PScript.InTurn (lev : PKey → Nat) : List (PGuard P) → PScript decl → Prop
  | _, .done => True
  | _, .panic => True
  | h, .get k p f => (∀ g ∈ h, lev (PropDecl.key decl k p) < lev (g.key decl)) ∧ ∀ v, (f v).InTurn lev h
  | h, .set k p _ next => (∀ g ∈ h, lev (PropDecl.key decl k p) < lev (g.key decl)) ∧ next.InTurn lev h
  | h, .swap k p _ f => (∀ g ∈ h, lev (PropDecl.key decl k p) < lev (g.key decl)) ∧ ∀ v, (f v).InTurn lev h
  | h, .read k p next => (∀ g ∈ h, lev (PropDecl.key decl k p) < lev (g.key decl)) ∧ next.InTurn lev ((k, p, .rd) :: h)
  | h, .write k p next => (∀ g ∈ h, lev (PropDecl.key decl k p) < lev (g.key decl)) ∧ next.InTurn lev ((k, p, .wr) :: h)
  | h, .look k p f => (∃ m, (k, p, m) ∈ h) ∧ ∀ v, (f v).InTurn lev h
  | h, .store k p _ next => (k, p, .wr) ∈ h ∧ next.InTurn lev h
  | h, .drop k p m next => (k, p, m) ∈ h ∧ next.InTurn lev (h.erase (k, p, m))

/-- The thread does not panic of itself, and uses these properties only. -/
def PScript.Steady (ok : Nat → P → Prop) : PScript decl → Prop
  | .done => True
  | .panic => False
  | .get k p f => ok k p ∧ ∀ v, (f v).Steady ok
  | .set k p _ next => ok k p ∧ next.Steady ok
  | .swap k p _ f => ok k p ∧ ∀ v, (f v).Steady ok
  | .read k p next => ok k p ∧ next.Steady ok
  | .write k p next => ok k p ∧ next.Steady ok
  | .look _ _ f => ∀ v, (f v).Steady ok
  | .store _ _ _ next => next.Steady ok
  | .drop _ _ _ next => next.Steady ok

/-- A thread that updates a property by these functions, one after the other, each under a write guard. -/
def updates (k : Nat) (p : P) : List (V (decl p).ty → V (decl p).ty) → PScript decl
  | [] => .done
  | f :: fs => .write k p (.look k p (fun v => .store k p (f v) (.drop k p .wr (updates k p fs))))

end V11
