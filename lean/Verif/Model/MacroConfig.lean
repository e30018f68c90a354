import Verif.Model.Ops

/-!
# What `table!` accepts

The tokens of a `table!` invocation after Rust's own parsing: attributes, domain and table name, columns. Types, visibility,
`row_id`, version numbers and the text that is generated are left out. A panic or error of the procedural macro is a
compile error: `badConfig`.
-/

namespace V11
namespace Macro

/-- An attribute of a table (macros/parse.rs:47-95). `none` stands for an argument of the wrong form or, for `version`, one
that is not a number. -/
inductive TblAttr where
  | kind (arg : Option String)
  | rowId (arg : Option String)
  | rowDerive (items : Option (List String))
  | save
  | version (arg : Option Nat)
  | addTracker (arg : Option String)
  | doc
  | other (name : String)
deriving DecidableEq

/-- An attribute of a column (macros/parse.rs:120-139). -/
inductive ColAttr where
  | index | foreign | foreignAuto | sortKey
  | version (arg : Option Nat)
  | other (name : String)
deriving DecidableEq

/-- A column as written. -/
structure ColDecl where
  name : String
  attrs : List ColAttr
deriving DecidableEq

/-- An invocation of `table!`. -/
structure Decl where
  attrs : List TblAttr
  domain : String
  name : String
  cols : List ColDecl

/-- `Col` (macros/table.rs:124-135). -/
structure Col where
  name : String
  indexed : Bool
  foreign : Bool
  foreignAuto : Bool
deriving DecidableEq

/-- `Table` (macros/table.rs:20-45). `immutable` is never set. -/
structure Conf where
  kind : Option Kind
  domain : String
  name : String
  cols : List Col
  trackers : List String
  clone : Bool
  copy : Bool
  save : Bool
  sortKey : Option String
  sorted : Bool
  consistent : Bool
  secret : Bool
deriving DecidableEq

/-- `Table::new` (macros/table.rs:97-103). -/
def Conf.new : Conf := ⟨none, "", "", [], [], false, false, false, none, false, false, false⟩

/-- The kinds by name (macros/parse.rs:51-57). -/
def parseKind (s : String) : Option Kind :=
  if s = "append" then some .append
  else if s = "consistent" then some .consistent
  else if s = "bag" then some .bag
  else if s = "list" then some .list
  else if s = "sorted" then some .sorted
  else none

/-- `set_kind` (macros/table.rs:57-79). -/
def Conf.setKind (c : Conf) (k : Kind) : R Conf :=
  if c.kind.isSome then .error .badConfig
  else
    let c : Conf := { c with kind := some k }
    let c : Conf := match k with
      | .append => c
      | .consistent => { c with consistent := true, secret := false }
      | .bag => { c with secret := true }
      | .list => { c with secret := true }
      | .sorted => { c with sorted := true }
    if c.cols.any (·.indexed) then .error .badConfig else .ok c

/-- One iteration of the loop over the table's attributes (macros/parse.rs:47-95). -/
def Conf.attr (c : Conf) : TblAttr → R Conf
  | .kind none => .error .badConfig
  | .kind (some s) =>
    match parseKind s with
    | none => .error .badConfig
    | some k => c.setKind k
  | .rowId none => .error .badConfig
  | .rowId (some _) => .ok c
  | .rowDerive none => .ok c
  | .rowDerive (some items) => .ok { c with clone := c.clone || items.contains "Clone", copy := c.copy || items.contains "Copy" }
  | .save => .ok { c with save := true }
  | .version none => .error .badConfig
  | .version (some _) => .ok c
  | .addTracker none => .ok c
  | .addTracker (some e) => .ok { c with trackers := c.trackers ++ [e] }
  | .doc => .ok c
  | .other _ => .error .badConfig

/-- What the attributes of a column say of it (macros/parse.rs:115-139, 155-164). -/
def ColDecl.toCol (d : ColDecl) : Col where
  name := d.name
  indexed := d.attrs.contains .index
  foreign := d.attrs.contains .foreign || d.attrs.contains .foreignAuto
  foreignAuto := d.attrs.contains .foreignAuto

/-- One column (macros/parse.rs:114-164). -/
def Conf.col (c : Conf) (d : ColDecl) : R Conf :=
  if d.attrs.contains (.version none) then .error .badConfig
  else
    let sortKey := d.attrs.contains .sortKey
    if sortKey && c.sortKey.isSome then .error .badConfig
    else if sortKey && decide (c.kind ≠ some .sorted) then .error .badConfig
    else .ok { c with sortKey := if sortKey then some d.name else c.sortKey, cols := c.cols ++ [d.toCol] }

/-- `parse_table` (macros/parse.rs:33-180). -/
def parseTable (d : Decl) : R Conf := do
  let c ← d.attrs.foldlM Conf.attr Conf.new
  if c.kind.isNone then .error .badConfig
  else d.cols.foldlM Conf.col { c with domain := d.domain, name := d.name }

/-- `validate_guarantees` (macros/table.rs:80-96). -/
def Conf.validateGuarantees (c : Conf) : R Unit :=
  if c.sorted && c.consistent then .error .badConfig
  else if c.consistent && (c.sorted || c.secret) then .error .badConfig
  else if c.save && !c.clone then .error .badConfig
  else .ok ()

/-- `validate` (macros/table.rs:104-122) after `validate_guarantees`: a message, or none. -/
def Conf.complaint (c : Conf) : Option String :=
  if c.domain = "" then some "No domain"
  else if c.name = "" then some "No name"
  else if c.cols = [] then some "No columns"
  else if c.copy && !c.clone then some "deriving copy, but not clone"
  else if !c.consistent && decide (c.trackers ≠ []) then some "only consistent tables can have trackers"
  else none

/-- The panics of `write_out` (macros/output.rs:1112-1121, 1817). -/
def Conf.writeOut (c : Conf) : R Unit :=
  if c.cols.any (fun col => col.foreignAuto && !(decide (some col.name = c.sortKey) || col.indexed)) then .error .badConfig
  else if c.save && !c.clone then .error .badConfig
  else .ok ()

/-- `table!` (macros/lib.rs:22-44): the configuration code is generated for; `none` if a complaint was printed and nothing
is generated. -/
def expand (d : Decl) : R (Option Conf) := do
  let c ← parseTable d
  c.validateGuarantees
  match c.complaint with
  | some _ => .ok none
  | none => do
    c.writeOut
    .ok (some c)

/-- Methods of `Write` that change which rows there are. -/
inductive Method where
  | push | pushArray | merge | removeRows | retain | visit | deleteLater | bagDelete | clear | flush
deriving DecidableEq

/-- For which configurations a method is generated: the conditions at macros/output.rs:378 (`removeRows`), 821
(`delete` of consistent tables), 853 (bag `delete`), 885-886 (`flush`), 1221 (`clear`), 1334 (`retain`), 1418 (`visit`), 1430 (`merge`), 1539 (`push`, `push_array`). -/
def Conf.has (c : Conf) : Method → Bool
  | .push | .pushArray => !c.sorted
  | .merge => c.sorted && !c.consistent
  | .removeRows => !c.consistent && c.sorted
  | .retain => c.clone && !c.consistent
  | .visit => c.clone && !c.sorted && !c.consistent
  | .deleteLater => c.consistent
  | .bagDelete => !c.consistent && decide (c.kind = some .bag)
  | .clear => true
  | .flush => true

end Macro
end V11
