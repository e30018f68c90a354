import Verif.Spec.Cascade

/-!
# How often trackers should be told
-/

namespace V11
variable {T : Type} [DecidableEq T] {S : T → Schema}

/-- The dependants of `p`, one for each foreign_auto column that references it. -/
def dependants (cfg : Cfg S) (p : T) : List T :=
  (cfg.trackers p).filterMap fun tr => match tr with
    | .auto fk => some fk.child
    | .observer _ => none

/-- The number of chains of `d` foreign_auto columns that lead from `t` up to `p`. -/
def chains (cfg : Cfg S) : Nat → T → T → Nat
  | 0, p, t => if p = t then 1 else 0
  | d + 1, p, t => ((dependants cfg p).map fun c => chains cfg d c t).sum

/-- The sum of `f 0, …, f (n - 1)`. -/
def sumTo (n : Nat) (f : Nat → Nat) : Nat := ((List.range n).map f).sum

/-- How often the observers named `name` on `t`'s tracker list were called in `log`. -/
def toldAt (t : T) (name : Nat) (log : List (Call S)) : Nat := log.countP (fun c => c.table = t ∧ c.name = name)

/-- How often an interested observer named `name` is on `t`'s tracker list. -/
def listening (cfg : Cfg S) (ev : Event) (t : T) (name : Nat) : Nat :=
  (observers ev (cfg.trackers t)).countP (fun o => o.name = name)

end V11
