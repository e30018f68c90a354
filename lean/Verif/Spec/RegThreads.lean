import Verif.Model.RegThreads
import Verif.Spec.Registry

/-!
# What it means for calls of several threads to take effect one at a time
-/

namespace V11
variable {Ty : Type} [DecidableEq Ty] {V : Ty → Type} {P : Type} [DecidableEq P] {ι : Type} [DecidableEq ι] {decl : P → PropDecl V}

/-- The call of thread `i` began, took effect, lapsed or returned. -/
def RtEv.isBy (i : ι) : RtEv ι decl → Prop
  | .began j _ => j = i
  | .effect j _ => j = i
  | .bound _ _ _ => False
  | .lapse j _ => j = i
  | .returned j _ _ => j = i

/-- The calls that took effect, in order. A static `Prop` that was set on the way counts as a `get` of that property. -/
def effectsOf (log : List (RtEv ι decl)) : List (ROp decl) :=
  log.filterMap (fun e => match e with
    | .effect _ op => some op
    | .bound _ k p => some (.get k p)
    | _ => none)

/-- After `pre`, thread `i` gets the answer `out` to `op`: it began the call, which took effect later (`a`, `b` and `c` being
what happened before, between and since), and a single thread which had made the calls that took effect before it, in
that order, and then this one, would have got the same: the same value, or a panic too. -/
def Answered (w : World P V) (pre : List (RtEv ι decl)) (i : ι) (op : ROp decl) (out : R (Given V)) : Prop :=
  ∃ a b c, pre = a ++ .began i op :: (b ++ .effect i op :: c) ∧ (∀ e ∈ b, ¬ e.isBy i) ∧ (∀ e ∈ c, ¬ e.isBy i) ∧
    out.toOption = ((w.run decl (effectsOf (a ++ .began i op :: b))).given decl op).toOption

/-- After `pre`, the call of thread `i`, which never took effect, panics, having met another thread at work at the end of `b`. -/
def Lapsed (pre : List (RtEv ι decl)) (i : ι) (op : ROp decl) (out : R (Given V)) : Prop :=
  ∃ a b c, pre = a ++ .began i op :: (b ++ .lapse i op :: c) ∧ (∀ e ∈ b, ¬ e.isBy i) ∧ (∀ e ∈ c, ¬ e.isBy i) ∧ out.toOption = none

/-- The calls of thread `i` that returned, in order. -/
def returnsOf (i : ι) (log : List (RtEv ι decl)) : List (ROp decl) :=
  log.filterMap (fun e => match e with
    | .returned j op _ => if j = i then some op else none
    | _ => none)

/-- Thread `j` registered property `p`, or set its static `Prop` on the way, and has done nothing since. -/
def BeingSet (pre : List (RtEv ι decl)) (j : ι) (p : P) : Prop :=
  ∃ a e b, pre = a ++ e :: b ∧ (e = .effect j (.registerProp p) ∨ ∃ k, e = .bound j k p) ∧ ∀ e' ∈ b, ¬ e'.isBy j

/-- Two universes have the same domains, with the same contents: what a program can tell of them. -/
def SameDomains (u u' : List (MaybeDomain V)) : Prop := ∀ (j : Nat) (d : Instance V), u[j]? = some (MaybeDomain.domain d) ↔ u'[j]? = some (MaybeDomain.domain d)

/-- The property a call uses. -/
def ROp.uses {decl : P → PropDecl V} : ROp decl → Option P
  | .get _ p => some p
  | .set _ p _ => some p
  | .swap _ p _ => some p
  | _ => none

end V11
