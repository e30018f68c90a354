import Verif.Model.Custom

/-!
# Who is told what in a flush, in plain terms
-/

namespace V11
variable {T : Type} [DecidableEq T] {S : T → Schema}

/-- The trackers that want the event, in registration order, each with the selection it is to be given: sorted from
the first one on that asks for it. -/
def toldOf (trackers : List (XTracker S)) (ev : Event) (sel : Select (List Nat)) : List (XTracker S × Select (List Nat)) :=
  let want := trackers.filter (fun tr => tr.considers ev)
  want.mapIdx fun k tr => (tr, if (want.take (k + 1)).any (fun tr => tr.sort) then sel.sort else sel)

/-- Runs pieces of code one after the other up to the first panic. -/
def inTurn : List (Xr S Unit) → Xr S Unit
  | [], env => (env, .ok ())
  | x :: xs, env =>
    match x env with
    | (env, .ok _) => inTurn xs env
    | (env, .error p) => (env, .error p)

end V11
