import Verif.Model.Caught
import Verif.Spec.Cascade

/-!
# Calls a program makes
-/

namespace V11
variable {T : Type} [DecidableEq T] {S : T → Schema}

/-- The methods exist for these kinds of tables. -/
def Deed.Possible : Deed S → Prop
  | .write t parts ops _ _ => (∀ x ∈ parts, ∀ o ∈ x.ops, o.Allowed (S t)) ∧ ∀ o ∈ ops, o.Allowed (S t)
  | .tell .. => True

/-- What the caller hands to the call does not panic within it: it may panic between calls. -/
def UOp.Whole {S : Schema} : UOp S → Prop
  | .pushAll rows | .pushArray rows => none ∉ rows
  | .other c => ∃ op : TOp S, c = op.toC
  | _ => True

/-- The same of all calls of a session. -/
def Deed.Whole : Deed S → Prop
  | .write _ parts ops _ _ => (∀ x ∈ parts, ∀ o ∈ x.ops, o.Whole) ∧ ∀ o ∈ ops, o.Whole
  | .tell .. => True

/-- Neither `live_flush` nor `as_read().select_rows` in it. -/
def Deed.Plain : Deed S → Prop
  | .write _ parts _ _ _ => parts = []
  | .tell .. => True

/-- There is something in `w` that must be flushed before it is dropped. -/
def HasChanges {t : T} (w : W (S t)) : Prop := (S t).kind = .consistent ∧ w.changes.isEmpty = false

/-- The table it is about. -/
def Deed.about : Deed S → T
  | .write t .. => t
  | .tell t .. => t

end V11
