import Verif.Model.Columns
import Verif.Model.Handlers
import Verif.Model.MacroConfig
import Verif.Model.Registry
import Mathlib.Data.Nat.Pairing

/-!
# From `table!` declarations to a universe

`Model/Universe` takes schemas and tracker lists as given. Here they are computed from declarations: which storage a column
gets, which trackers a module's `register_foreign_trackers` registers, in which order, on which tables.
-/

namespace V11

/-- The type of a column's elements, in a program with `n` tables. `rowId p` is `GenericRowId<p::Row>`, a newtype of a
number (src/index.rs:22-28). The storage written behind it is a vector (`VecCol`, `SegCol`) or, for `bool`, `BoolCol`. -/
inductive ElemTy (n : Nat) : Type 1 where
  | data (E : Type) (ord : Option (LinearOrder E))
  | bool
  | rowId (table : Fin n)

namespace ElemTy
variable {n : Nat}

/-- The column type (macros/output.rs:79-88): a `BTreeIndex` around the storage for `#[index]`. It needs `Ord` elements;
without, rustc rejects the generated code (`Program.Typed`). -/
@[reducible] def spec : ElemTy n → Bool → ColSpec
  | .data E (some ord), true => .index E ord
  | .data E _, _ => .vec E
  | .bool, true => .indexBool
  | .bool, false => .bool
  | .rowId _, true => .index Nat inferInstance
  | .rowId _, false => .vec Nat

/-- Reads an element as a row number: for row ids only (src/index.rs:59). -/
def number : (e : ElemTy n) → (indexed : Bool) → Option ((e.spec indexed).Elem ≃ Nat)
  | .rowId _, true => some (Equiv.refl Nat)
  | .rowId _, false => some (Equiv.refl Nat)
  | _, _ => none

/-- The table of a row id (`GetParam`, src/index.rs; macros/output.rs:1124-1127). -/
def parent : ElemTy n → Option (Fin n)
  | .rowId p => some p
  | _ => none

end ElemTy

/-- A module made by `table!` and what the user wrote for it: the types of the columns by position, the largest row id, the
`Tracker` implemented for `track_$col_events` of a column that is `#[foreign]` but not `#[foreign_auto]`, and the values of
the `#[add_tracker]` expressions. A tracker comes with the table it tracks (`Tracker::Foreign`, src/tracking.rs:168). -/
structure TableModule (n : Nat) where
  decl : Macro.Decl
  elem : Nat → ElemTy n
  max : Nat
  tracks : Nat → Fin n × Observer
  extra : List (Fin n × Observer)

/-- A program's tables, and the configuration the macro computes for each. -/
structure Program (n : Nat) where
  mods : Fin n → TableModule n
  conf : Fin n → Macro.Conf
  accepted : ∀ t, Macro.expand (mods t).decl = .ok (some (conf t))

namespace Program
variable {n : Nat} (P : Program n)

/-- Column `j` has an index. -/
@[reducible] def indexed (t : Fin n) (j : Nat) : Bool :=
  match (P.conf t).cols[j]? with
  | some col => col.indexed
  | none => false

/-- The `Table` of a module (macros/output.rs:79-88, 302-342). -/
@[reducible] def schema (t : Fin n) : Schema :=
  mkSchema (n := (P.conf t).cols.length - 1) (fun j => ((P.mods t).elem j).spec (P.indexed t j)) (P.mods t).max
    ((P.conf t).kind.getD .append)

/-- The tracker a column brings (macros/output.rs:1112-1141, 1763-1767) and the table it is for. -/
def colTracker (t : Fin n) (j : Fin ((P.schema t).n + 1)) : Option (Fin n × Tracker P.schema) :=
  match (P.conf t).cols[j.val]? with
  | none => none
  | some col =>
    if col.foreignAuto then
      match ((P.mods t).elem j).parent, ((P.mods t).elem j).number (P.indexed t j) with
      | some p, some key => some (p, .auto { child := t, col := j, key := key, bySort := decide (some col.name = (P.conf t).sortKey) })
      | _, _ => none
    else if col.foreign then some ((((P.mods t).tracks j).1), .observer ((P.mods t).tracks j).2)
    else none

/-- What `register_foreign_trackers` registers (macros/output.rs:1786-1795): the foreign columns' trackers, then the
`#[add_tracker]` ones. -/
def trackersOf (t : Fin n) : List (Fin n × Tracker P.schema) :=
  (List.finRange ((P.schema t).n + 1)).filterMap (P.colTracker t) ++ (P.mods t).extra.map fun q => (q.1, .observer q.2)

/-- A universe before its tables' `init_fn`s have run: no trackers, the default handlers (src/lib.rs:118-127). -/
def blank : Cfg P.schema := { trackers := fun _ => [], handlers := (EventHandlers.default id).fallbacks }

/-- Runs one table's `init_fn` (macros/output.rs:1726). -/
def initTable (cfg : Cfg P.schema) (t : Fin n) : R (Cfg P.schema) :=
  (P.trackersOf t).foldlM (fun cfg q => cfg.register q.1 q.2) cfg

/-- Runs those of the given tables in turn (src/domain.rs:252-265; which tables in which order: `Model/Registry`). -/
def start (order : List (Fin n)) : R (Cfg P.schema) := order.foldlM P.initTable P.blank

/-- A tracker's tag in `Model/Registry`: module and position. -/
def tag (t : Fin n) (i : Nat) : Nat := Nat.pair t.val i

/-- The tracker with this tag. -/
def untag (c : Nat) : Option (Tracker P.schema) :=
  if h : (Nat.unpair c).1 < n then ((P.trackersOf ⟨(Nat.unpair c).1, h⟩)[(Nat.unpair c).2]?).map (·.2) else none

/-- A registration as `Model/Registry` has it: the `i`th of module `t`, for `p`. -/
def reg (t p : Fin n) (i : Nat) : Reg where
  domain := (P.conf p).domain
  table := (P.conf p).name
  consistent := (P.conf p).consistent
  ty := p.val
  tracker := tag t i

/-- The registrations of a module's `init_fn`. -/
def regs (t : Fin n) : List Reg := (P.trackersOf t).zipIdx.map fun q => P.reg t q.1.1 q.2

end Program
end V11
