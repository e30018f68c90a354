import Verif.Model.Deletable

/-!
# When a row that an iteration over a bag has reached is deleted
-/

namespace V11

/-- Of a bag with `N` rows, the `n`-th row reached is hit: some `delete`, of whichever `Deletable` that the program has by
then, is called after `next` has returned that row and before it returns another one. -/
def Hit (ops : List LoopOp) (N n : Nat) : Prop :=
  ∃ pre j post, ops = pre ++ .delete j :: post ∧ j ≤ n ∧ min (pre.count .next) N = n + 1

open Classical in
/-- The rows reached that are not hit. -/
noncomputable def spared {A : Type} (ops : List LoopOp) (N : Nat) (visits : List (Nat × A)) : List A :=
  (visits.zipIdx.filter (fun v => decide (¬ Hit ops N v.2))).map (fun v => v.1.2)

end V11
