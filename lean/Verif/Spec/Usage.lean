import Verif.Model.Ops

/-!
# How many rows a table has, and how many ids it takes
-/

namespace V11
variable {S : Schema}

/-- The number of live rows. -/
def liveCount (t : Tbl S) : Nat := ((List.range t.len).filter (fun i => t.contains i)).length

/-- One row is added at a time, rows are edited, and rows are removed by listing them. -/
def TOp.Single : TOp S → Prop
  | .push _ | .set .. | .remove (.these _) => True
  | _ => False

/-- A row appended with `push_array` and deleted, `n` times. -/
def appendAndDelete (row : Row S) (n : Nat) : List (TOp S) :=
  (List.range n).flatMap fun k => [.pushArray [row], .remove (.these [k])]

end V11
