import Verif.Model.Poison
import Verif.Spec.Session

/-!
# What a history of lock actions amounts to
-/

namespace V11
variable {S : Schema}

/-- The calls made on the write guard that is out, if one is. -/
def openCalls : List (LkAct S) → Option (List (LOp S)) :=
  List.foldl (fun o a => match a with
    | .write => some []
    | .call op => o.map (· ++ [op])
    | .flush _ | .drop | .panic => none
    | .read | .dropRead => o) none

/-- The number of read guards that are out. -/
def openReads : List (LkAct S) → Nat :=
  List.foldl (fun n a => match a with | .read => n + 1 | .dropRead => n - 1 | _ => n) 0

/-- These calls leave something to flush. -/
def Unflushed (S : Schema) (calls : List (LOp S)) : Prop := S.kind = .consistent ∧ ∃ op ∈ calls, op.touches = true

/-- After `h`, the action ends a write guard badly: by a panic, or by dropping it unflushed. -/
def EndsBadly (h : List (LkAct S)) (a : LkAct S) : Prop :=
  ∃ calls, openCalls h = some calls ∧ (a = .panic ∨ (a = .drop ∧ Unflushed S calls))

/-- At some point of the history a write guard ended badly. -/
def WasPoisoned (h : List (LkAct S)) : Prop := ∃ h1 a h2, h = h1 ++ a :: h2 ∧ EndsBadly h1 a

end V11
