import Verif.Model.Serial

/-!
# `Select` and type-erased selections (src/tracking.rs:18-160, src/any_slice.rs)
-/

namespace V11

namespace Select
variable {α β : Type}

/-- `Select::map` (src/tracking.rs:27-34). -/
def map (f : α → β) : Select α → Select β
  | .all => .all
  | .these rows => .these (f rows)

/-- `Select::unwrap` (src/tracking.rs:50-55). -/
def unwrap : Select α → R α
  | .all => .error .unwrapNone
  | .these i => .ok i

end Select

/-- An iterator as a state machine: `next` gives the item and the rest; `hint` is `size_hint`. -/
structure RowIter where
  σ : Type
  next : σ → Option (Nat × σ)
  hint : σ → Nat × Option Nat

/-- `SelectIter` (src/tracking.rs:132-139): the caller's iterator, or the position in the slice. -/
inductive SelectIter (I : RowIter) where
  | all (r : I.σ)
  | these (r : List Nat)

namespace SelectIter
variable {I : RowIter}

/-- `SelectIter::next` (src/tracking.rs:146-151). -/
def next : SelectIter I → Option (Nat × SelectIter I)
  | .all r => (I.next r).map fun p => (p.1, .all p.2)
  | .these [] => none
  | .these (i :: r) => some (i, .these r)

/-- `SelectIter::size_hint` (src/tracking.rs:152-157); a slice iterator's is exact. -/
def sizeHint : SelectIter I → Nat × Option Nat
  | .all r => I.hint r
  | .these r => (r.length, some r.length)

/-- The `SelectIter` as an iterator. -/
def iter (I : RowIter) : RowIter := { σ := SelectIter I, next := next, hint := sizeHint }

end SelectIter

/-- `iter_or_all_with` and `iter_or_all` (src/tracking.rs:66-83): the closure is called only for `All`. -/
def Select.iterOrAll (I : RowIter) (s : Select (List Nat)) (all : Unit → I.σ) : SelectIter I :=
  match s with
  | .all => .all (all ())
  | .these rows => .these rows

/-! ## `AnySliceRef` -/

/-- The element types that can be asked for, by their `TypeId`; and memory: what is stored at an address, as a typed
array. A borrowed slice keeps its memory as it is (the lifetime in `AnySliceRef<'a>`, src/any_slice.rs:12-17). -/
structure Memory where
  Ty : Type
  dec : DecidableEq Ty
  Elem : Ty → Type
  at_ : Nat → Option (Σ ty, List (Elem ty))

/-- `AnySliceRef` (src/any_slice.rs:12-17). -/
structure AnySlice (M : Memory) where
  id : M.Ty
  ptr : Nat
  len : Nat

/-- A `&'a [E]`: an address where an array of `E` begins, and how many of its elements belong to the slice. -/
structure SliceOf (M : Memory) (E : M.Ty) where
  ptr : Nat
  store : List (M.Elem E)
  here : M.at_ ptr = some ⟨E, store⟩
  len : Nat
  fits : len ≤ store.length

/-- The elements of a slice. -/
def SliceOf.elems {M : Memory} {E : M.Ty} (s : SliceOf M E) : List (M.Elem E) := s.store.take s.len

/-- `AnySliceRef::from` (src/any_slice.rs:22-32). -/
def AnySlice.from {M : Memory} {E : M.Ty} (s : SliceOf M E) : AnySlice M := { id := E, ptr := s.ptr, len := s.len }

/-- `slice::from_raw_parts` (used at src/any_slice.rs:38-43): undefined unless there are `len` elements of that type. -/
def fromRawParts (M : Memory) (E : M.Ty) (ptr len : Nat) : R (List (M.Elem E)) :=
  match M.at_ ptr with
  | none => .error .ub
  | some ⟨ty, l⟩ =>
    have := M.dec
    if h : ty = E then if len ≤ l.length then .ok (h ▸ l.take len) else .error .ub
    else .error .ub

/-- `AnySliceRef::downcast` (src/any_slice.rs:34-44). -/
def AnySlice.downcast {M : Memory} (a : AnySlice M) (E : M.Ty) : R (Option (List (M.Elem E))) :=
  have := M.dec
  if a.id ≠ E then .ok none
  else do
    let l ← fromRawParts M E a.ptr a.len
    .ok (some l)

/-- `AnySliceRef::is_empty` and `len` (src/any_slice.rs:46-48). -/
def AnySlice.isEmpty {M : Memory} (a : AnySlice M) : Bool := a.len == 0

/-! ## Functions that take a type-erased selection -/

variable {T : Type} {S : T → Schema} [DecidableEq T]

/-- `SelectAny` (src/tracking.rs:129) with the element type narrowed to the row ids of the tables of a universe: the
`TypeId` is the table's, the memory behind it is the list (`AnySlice` shows that this is what `downcast` gives). -/
abbrev AnySel (T : Type) := Select (T × List Nat)

/-- `as_any` (src/tracking.rs:85-91). -/
def Select.asAny (t : T) (s : Select (List Nat)) : AnySel T := s.map fun rows => (t, rows)

/-- `downcast_any_selection` of table `t` (macros/output.rs:630-638). -/
def downcastSel (t : T) (s : AnySel T) : R (Select (List Nat)) :=
  match s with
  | .all => .ok .all
  | .these (ty, rows) => if ty = t then .ok (.these rows) else .error .wrongRows

/-- `Table::remove_rows` (macros/output.rs:346-397, 446-450) as called through `get_row_remover`
(322-324), from the type-erased selection: the write lock is taken first; then the rows are looked at. A table that
cannot lose rows does not look at them. -/
def removeRowsAny (doFlush : FlushFn S) (t : T) (ev : Event) (rows : AnySel T) (env : Env S) : R (Env S) :=
  match (S t).kind with
  | .consistent | .sorted => do
    let _ ← env.lock t
    let rows ← downcastSel t rows
    tableRemoveRows doFlush t ev rows env
  | _ => .error .notRemovable

/-- `TTable::generic_select` (macros/output.rs:327-340) → `select` (886-903). No lock is held. -/
def genericSelect (cfg : Cfg S) (n : Nat) (t : T) (ev : Event) (rows : AnySel T) (env : Env S) : R (Env S) := do
  let rows ← downcastSel t rows
  let (_, env) ← doFlush cfg n t ev false false rows env
  .ok env

/-- `SerialExtraction::extract` (macros/output.rs:267-275, 288-296 → 1912): downcast, then `extract_selection`. -/
def extractAny (t : T) (sig : Sig) (rows : AnySel T) (x : Tbl (S t)) : R (Extraction (S t)) := do
  let rows ← downcastSel t rows
  x.extractSelection sig rows

end V11
