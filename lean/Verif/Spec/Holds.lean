import Verif.Model.Table

/-!
# What a reader sees of a table without deleted rows
-/

namespace V11

/-- The table holds exactly the rows `L`, in id order: `len()` is their number and `get_row(i)` is the
`i`-th. -/
def Holds {S : Schema} (t : Tbl S) (L : List (Row S)) : Prop :=
  t.len = L.length ∧ ∀ i (h : i < L.length), t.getRow i = .ok L[i]

end V11
