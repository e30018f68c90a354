import Verif.Model.Unwind
import Verif.Spec.Serial

/-!
# Which calls leave something to flush, even by panicking
-/

namespace V11
variable {S : Schema}

/-- A call that returned leaves something to flush. -/
def UOp.Marks : UOp S → Prop
  | .push _ | .delete _ | .clear | .select _ | .selectAll => True
  | .pushAll rows | .pushArray rows => rows ≠ []
  | .set .. | .other _ | .user => False

/-- An edit in place. -/
def UOp.IsSet : UOp S → Prop
  | .set .. => True
  | _ => False

/-- Some id below `len()` is deleted, and will be used again. -/
def HasGap (t : Tbl S) : Prop := ∃ i < t.len, t.contains i = false

/-- On this table the call hands out a first id before it panics. -/
def UOp.GivesOne (t : Tbl S) : UOp S → Prop
  | .pushAll (some _ :: _) => HasGap t ∨ t.len ≤ S.max
  | .pushArray (some _ :: _) => t.len ≤ S.max
  | _ => False

end V11

namespace V11
variable {T : Type} {S : T → Schema} {t : T}

/-- The extraction begins with entries that are complete and whose foreign keys all have a new id; remapped, they are
`rows`. -/
def Extraction.BeginsWith (x : Extraction (S t)) (fl : T → FlushLock) (own : List (Own S t)) (rows : List (Row (S t))) : Prop :=
  ∀ k (h : k < rows.length), ∃ r : Row (S t), (∀ j, (((S t).C j).toList (x.data j))[k]? = some (r j)) ∧ Remapped fl own r rows[k]

/-- Entry `k` has a value missing in some column. -/
def Extraction.ShortAt (x : Extraction (S t)) (k : Nat) : Prop :=
  ∃ j, (((S t).C j).toList (x.data j)).length ≤ k

/-- Entry `k` is complete, but one of its foreign keys has no new id. -/
def Extraction.LostAt (x : Extraction (S t)) (fl : T → FlushLock) (own : List (Own S t)) (k : Nat) : Prop :=
  ∃ r : Row (S t), (∀ j, (((S t).C j).toList (x.data j))[k]? = some (r j)) ∧ ∃ o ∈ own, (fl o.parent).remap (o.key (r o.col)) = none

end V11
