import Verif.Model.Table

/-!
# Row ids (src/index.rs:19-200) as values

`Idx` may be any primitive integer (`PrimInt`, src/tables.rs:272-277), also a signed one.
-/

namespace V11

/-- `T::Idx` (src/tables.rs:272-277; `row_id`, macros/output.rs:167-170): the least and the greatest value of the
integer type, the greatest `usize`, and whether arithmetic is checked for overflow (the debug profile) or wraps. -/
structure IdTy where
  lo : Int
  hi : Int
  usize : Nat
  checks : Bool
  zero : lo ≤ 0 ∧ 0 < hi

/-- The unsigned types `u8`, `u16`, … with greatest value `max`. -/
def IdTy.unsigned (max usize : Nat) (checks : Bool) (h : 0 < max) : IdTy :=
  { lo := 0, hi := max, usize := usize, checks := checks, zero := ⟨le_refl _, by exact_mod_cast h⟩ }

/-- `GenericRowId<T>` (src/index.rs:22-28) and its `i`. -/
structure RowId (I : IdTy) where
  i : Int
  inTy : I.lo ≤ i ∧ i ≤ I.hi
deriving DecidableEq

namespace RowId
variable {I : IdTy}

/-- `T::Idx::from_usize(i).unwrap()` (src/index.rs:56-58). -/
def fromUsize (I : IdTy) (n : Nat) : R (RowId I) :=
  if h : (n : Int) ≤ I.hi then .ok ⟨n, le_trans I.zero.1 (Int.natCast_nonneg n), h⟩ else .error .idxOverflow

/-- `self.i.to_usize().unwrap()` (src/index.rs:59): `None` for negative values and above `usize::MAX`. -/
def toUsize (a : RowId I) : R Nat :=
  if 0 ≤ a.i ∧ a.i ≤ I.usize then .ok a.i.toNat else .error .unwrapNone

/-- The result of an addition or subtraction of `Idx`: a panic out of range when overflow is checked, else wrapped
around (two's complement, one step at most is ever needed here). -/
def arith (I : IdTy) (x : Int) : R (RowId I) :=
  if h : I.lo ≤ x ∧ x ≤ I.hi then .ok ⟨x, h⟩
  else if I.checks then .error .idxOverflow
  else if I.hi < x then .ok ⟨I.lo, le_refl _, le_trans I.zero.1 (le_of_lt I.zero.2)⟩
  else .ok ⟨I.hi, le_trans I.zero.1 (le_of_lt I.zero.2), le_refl _⟩

/-- `next` (src/index.rs:62-64). -/
def next (a : RowId I) : R (RowId I) := arith I (a.i + 1)

/-- `prev` (src/index.rs:66-68). -/
def prev (a : RowId I) : R (RowId I) := arith I (a.i - 1)

/-- `Default::default` (src/index.rs:104-111): the greatest value, "UNDEFINED_INDEX". -/
def default (I : IdTy) : RowId I := ⟨I.hi, le_trans I.zero.1 (le_of_lt I.zero.2), le_refl _⟩

/-- `Serialize` (src/index.rs:30-37): the bare integer. -/
def ser (a : RowId I) : Int := a.i

/-- `Deserialize` (src/index.rs:39-47): whatever `Idx` accepts; serde's integer visitors reject values out of range. -/
def de (I : IdTy) (x : Int) : Option (RowId I) := if h : I.lo ≤ x ∧ x ≤ I.hi then some ⟨x, h⟩ else none

end RowId

/-- A `GenericRowId` or a `CheckedRowId` (src/index.rs:80-85) that borrows a table `τ`. -/
inductive SomeId (I : IdTy) (τ : Type) where
  | generic (a : RowId I)
  | checked (a : RowId I) (table : τ)

namespace SomeId
variable {I : IdTy} {τ : Type}

/-- `==`: between equal types src/index.rs:140-160, between a checked and a generic id 176-200. The table takes no part. -/
def eq : SomeId I τ → SomeId I τ → Bool
  | .generic a, .generic b => a.i == b.i
  | .checked a _, .checked b _ => a.i == b.i
  | .checked a _, .generic b => a.i == b.i
  | .generic a, .checked b _ => a.i == b.i

/-- `cmp` and `partial_cmp` (same lines). -/
def cmp : SomeId I τ → SomeId I τ → Ordering
  | .generic a, .generic b => compare a.i b.i
  | .checked a _, .checked b _ => compare a.i b.i
  | .checked a _, .generic b => compare a.i b.i
  | .generic a, .checked b _ => compare a.i b.i

/-- `uncheck` (src/index.rs:522, 539). -/
def uncheck : SomeId I τ → RowId I
  | .generic a => a
  | .checked a _ => a

/-- `next`: src/index.rs:62-64; of a checked id `self.uncheck().next()` (94). -/
def next (a : SomeId I τ) : R (RowId I) := a.uncheck.next

end SomeId

end V11
