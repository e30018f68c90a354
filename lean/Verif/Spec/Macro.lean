import Verif.Model.MacroConfig

/-!
# What a `table!` invocation says, and which are good
-/

namespace V11
namespace Macro

/-- The name of a kind. -/
def kindName : Kind → String
  | .append => "append" | .consistent => "consistent" | .bag => "bag" | .list => "list" | .sorted => "sorted"

/-- The attributes of the table are well formed and exactly one of them is the kind, which is `k`. -/
structure Parses (d : Decl) (k : Kind) : Prop where
  /-- exactly one `kind` -/
  kind : ∃ pre post, d.attrs = pre ++ .kind (some (kindName k)) :: post ∧ ∀ a ∈ pre ++ post, ∀ arg, a ≠ .kind arg
  rowId : .rowId none ∉ d.attrs
  version : .version none ∉ d.attrs
  known : ∀ name, .other name ∉ d.attrs
  /-- the same for columns -/
  colVersion : ∀ col ∈ d.cols, .version none ∉ col.attrs
  /-- at most one sort key -/
  oneSortKey : (d.cols.filter fun col => col.attrs.contains .sortKey).length ≤ 1
  /-- and that only in sorted tables -/
  sortKey : ∀ col ∈ d.cols, .sortKey ∈ col.attrs → k = .sorted

/-- A trait is derived for the row. -/
def Derives (d : Decl) (trait : String) : Prop := ∃ items, .rowDerive (some items) ∈ d.attrs ∧ trait ∈ items

/-- What is only complained about. -/
def Complaint (d : Decl) (k : Kind) : Prop :=
  d.domain = "" ∨ d.name = "" ∨ d.cols = [] ∨ (Derives d "Copy" ∧ ¬ Derives d "Clone") ∨
    (k ≠ .consistent ∧ ∃ e, .addTracker (some e) ∈ d.attrs)

/-- A column tracked with `foreign_auto` can be searched. (The sort key is recognised by its name.) -/
def Trackable (d : Decl) : Prop :=
  ∀ col ∈ d.cols, .foreignAuto ∈ col.attrs → .index ∈ col.attrs ∨ ∃ col' ∈ d.cols, .sortKey ∈ col'.attrs ∧ col'.name = col.name

/-- The configuration code is generated for is the one written down. -/
structure Describes (d : Decl) (k : Kind) (c : Conf) : Prop where
  kind : c.kind = some k
  domain : c.domain = d.domain
  name : c.name = d.name
  /-- all columns, in order -/
  cols : c.cols.length = d.cols.length
  col : ∀ (i : Nat) col col', d.cols[i]? = some col → c.cols[i]? = some col' → col'.name = col.name ∧
    (col'.indexed = true ↔ .index ∈ col.attrs) ∧ (col'.foreign = true ↔ .foreign ∈ col.attrs ∨ .foreignAuto ∈ col.attrs) ∧
    (col'.foreignAuto = true ↔ .foreignAuto ∈ col.attrs)
  /-- all trackers that are written as `= "…"`, in order -/
  trackers : c.trackers = d.attrs.filterMap fun | .addTracker e => e | _ => none
  clone : c.clone = true ↔ Derives d "Clone"
  copy : c.copy = true ↔ Derives d "Copy"
  save : c.save = true ↔ .save ∈ d.attrs
  sortKey : ∀ name, c.sortKey = some name ↔ ∃ col ∈ d.cols, .sortKey ∈ col.attrs ∧ col.name = name
  /-- the guarantees of the kind -/
  sorted : c.sorted = true ↔ k = .sorted
  consistent : c.consistent = true ↔ k = .consistent
  secret : c.secret = true ↔ k = .bag ∨ k = .list

end Macro
end V11
