import Verif.Model.Declared
import Verif.Spec.Macro
import Verif.Spec.Cascade
import Verif.Spec.History

/-!
# What declarations promise
-/

namespace V11
namespace Program
variable {n : Nat}

/-- rustc accepts the generated code: indexed columns are `Ord` (row ids and `bool` are; other types say so themselves), `#[foreign_auto]` columns are row ids, no two columns of a
table have the same name. -/
structure Typed (P : Program n) : Prop where
  index : ∀ t (j : Nat) col, (P.mods t).decl.cols[j]? = some col → .index ∈ col.attrs → ∀ E, (P.mods t).elem j ≠ .data E none
  auto : ∀ t (j : Nat) col, (P.mods t).decl.cols[j]? = some col → .foreignAuto ∈ col.attrs → ∃ p, (P.mods t).elem j = .rowId p
  names : ∀ t, ((P.mods t).decl.cols.map Macro.ColDecl.name).Nodup

/-- Table `t` is declared with this kind. -/
def IsKind (P : Program n) (t : Fin n) (k : Kind) : Prop := Macro.Parses (P.mods t).decl k

/-- Column `j` of table `t` is declared `#[foreign_auto]` with ids of rows of `p`. -/
def RefCol (P : Program n) (t : Fin n) (j : Nat) (p : Fin n) : Prop :=
  ∃ col, (P.mods t).decl.cols[j]? = some col ∧ .foreignAuto ∈ col.attrs ∧ (P.mods t).elem j = .rowId p

/-- Table `t` declares a tracker of any sort for `p`. -/
def Tracks (P : Program n) (t p : Fin n) : Prop :=
  (∃ j, P.RefCol t j p) ∨
  (∃ (j : Nat) (col : Macro.ColDecl), (P.mods t).decl.cols[j]? = some col ∧ .foreign ∈ col.attrs ∧ .foreignAuto ∉ col.attrs ∧
    ((P.mods t).tracks j).1 = p) ∨
  ∃ q ∈ (P.mods t).extra, q.1 = p

/-- The row id in column `j` of a row, as a number. -/
def idIn (P : Program n) (t : Fin n) (r : Row (P.schema t)) (j : Fin ((P.schema t).n + 1)) : Option Nat :=
  match ((P.mods t).elem j).number (P.indexed t j) with
  | some num => some (num.toFun (r j))
  | none => none

/-- The row of `t` holds the id `k` of a row of `p` in a `#[foreign_auto]` column. -/
def References (P : Program n) (t : Fin n) (r : Row (P.schema t)) (p : Fin n) (k : Nat) : Prop :=
  ∃ j : Fin ((P.schema t).n + 1), P.RefCol t j p ∧ P.idIn t r j = some k

/-- The storage a column of this element type should have: an index around it exactly if it is declared `#[index]`. -/
inductive StoredAs : ElemTy n → Prop → ColSpec → Prop
  | data {E : Type} {ord : Option (LinearOrder E)} {ix : Prop} : ¬ ix → StoredAs (.data E ord) ix (.vec E)
  | dataIndexed {E : Type} {ord : LinearOrder E} {ix : Prop} : ix → StoredAs (.data E (some ord)) ix (.index E ord)
  | bool {ix : Prop} : ¬ ix → StoredAs .bool ix .bool
  | boolIndexed {ix : Prop} : ix → StoredAs .bool ix .indexBool
  | rowId {p : Fin n} {ix : Prop} : ¬ ix → StoredAs (.rowId p) ix (.vec Nat)
  | rowIdIndexed {p : Fin n} {ix : Prop} : ix → StoredAs (.rowId p) ix (.index Nat inferInstance)

/-- What goes when `rows` of `p` go, as the declarations of the tables `order` have it. -/
inductive Goes (P : Program n) (order : List (Fin n)) (u : (t : Fin n) → Tbl (P.schema t)) (p : Fin n) (rows : List Nat) :
    Fin n → Nat → Prop
  | seed {i : Nat} : i ∈ rows → Goes P order u p rows p i
  | step {q t : Fin n} {k i : Nat} {r : Row (P.schema t)} : Goes P order u p rows q k → t ∈ order →
      (u t).view i = some r → P.References t r q k → Goes P order u p rows t i

/-- The tables are compared by their `#[sort_key]` column where it holds row ids (macros/output.rs:1294-1304). -/
def SortsByKey (P : Program n) {K : Type} [LinearOrder K] (key : (t : Fin n) → Row (P.schema t) → K) : Prop :=
  ∀ (t : Fin n) (j : Fin ((P.schema t).n + 1)) (col : Macro.ColDecl), (P.mods t).decl.cols[j.val]? = some col → .sortKey ∈ col.attrs →
    ∀ r r' k k', P.idIn t r j = some k → P.idIn t r' j = some k' → (key t r ≤ key t r' ↔ k ≤ k')

/-- `gt t` is what the module `t` registers (macros/output.rs:1707-1733): domain, name, its own types, and its trackers. -/
structure Registers (P : Program n) (gt : Fin n → GTable) : Prop where
  domain : ∀ t, (gt t).domain = (P.conf t).domain
  name : ∀ t, (gt t).name = (P.conf t).name
  ty : ∀ t, (gt t).ty = t.val
  init : ∀ t, (gt t).init = P.regs t

end Program
end V11
