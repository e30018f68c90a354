import Verif.Model.Table
import Mathlib.Order.BooleanAlgebra.Defs
import Mathlib.Order.Nat

/-!
# Schemas made of the column storages `table!` offers
-/

namespace V11

/-- The column types a `table!` definition can use: `VecCol<E>` (also `SegCol`, src/storage.rs:12-43),
`BoolCol` (src/storage.rs:82), and `BTreeIndex` over either (`#[index]`, macros/output.rs:83-88). -/
inductive ColSpec : Type 1 where
  | vec (E : Type)
  | bool
  | index (E : Type) (ord : LinearOrder E)
  | indexBool

namespace ColSpec

/-- The element type. -/
@[reducible] def Elem : ColSpec → Type
  | .vec E => E
  | .bool => Bool
  | .index E _ => E
  | .indexBool => Bool

/-- The storage. -/
@[reducible] def col (max : Nat) : (c : ColSpec) → TCol c.Elem
  | .vec E => vecCol E
  | .bool => boolCol
  | .index E _ => btreeIndex max (vecCol E)
  | .indexBool => btreeIndex max boolCol

end ColSpec

/-- The schema with the given columns, row-id maximum and kind. -/
@[reducible] def mkSchema {n : Nat} (cs : Fin (n + 1) → ColSpec) (max : Nat) (kind : Kind) : Schema where
  n := n
  E j := (cs j).Elem
  C j := (cs j).col max
  max := max
  kind := kind

end V11
