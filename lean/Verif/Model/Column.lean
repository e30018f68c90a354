import Verif.Model.Basic

/-!
# Column storage: `TCol`, `VecCol`, `BoolCol`, `BTreeIndex`
-/

namespace V11

/-- `trait TCol` (src/columns.rs:22-49).  A mutating method returns the new state.
`indexMut` returns the referent of the `&mut` together with the write-back of a new value through it.
`find`/`range` exist only on indexed columns (src/map_index.rs:41-59, src/columns.rs:177-196), hence
the `Option`; `le` is the element order an indexed column's `BTreeMap` uses (irrelevant otherwise).
`reserve` has no observable effect and is omitted. -/
structure TCol (E : Type) where
  σ : Type
  new : σ
  len : σ → Nat
  truncate : σ → Nat → R σ
  index : σ → Nat → R E
  indexMut : σ → Nat → R (E × (E → σ))
  clear : σ → R σ
  push : σ → E → R σ
  swapOut : σ → Nat → E → R (σ × E)
  swap : σ → Nat → Nat → R σ
  deleted : σ → Nat → R σ
  toList : σ → List E
  find : Option (σ → E → R (List Nat))
  range : Option (σ → E → E → R (List Nat))
  le : E → E → Prop

/-- `slice::get_unchecked` (src/storage.rs:19): undefined behaviour out of bounds. -/
def uncheckedGet {E : Type} (l : List E) (i : Nat) : R E :=
  match l[i]? with
  | some e => .ok e
  | none => .error .ub

/-- Bounds-checked `[]` of `Vec`/`BitVec`. -/
def checkedGet {E : Type} (l : List E) (i : Nat) : R E :=
  match l[i]? with
  | some e => .ok e
  | none => .error .vecOob

/-- `BitVec::set(i, b)`: asserts the index is in range. -/
def checkedSet {E : Type} (l : List E) (i : Nat) (e : E) : R (List E) :=
  if i < l.length then .ok (l.set i e) else .error .vecOob

/-- `VecCol<E>` (src/storage.rs:12-38), also `SegCol` (src/storage.rs:43).  `clear` and `deleted` are
`Vec::clear` (line 22) and the trait default no-op (src/columns.rs:38); `unchecked_swap_out` is the trait
default `mem::swap(self.unchecked_index_mut(i), new)` (src/columns.rs:35); `unchecked_swap` uses the
unchecked branch (`cfg!(debug)` is never set), src/storage.rs:24-32. -/
@[reducible] def vecCol (E : Type) : TCol E where
  σ := List E
  new := []
  len s := s.length
  truncate s n := .ok (s.take n)
  index s i := uncheckedGet s i
  indexMut s i := do
    let e ← uncheckedGet s i
    .ok (e, fun v => s.set i v)
  clear _ := .ok []
  push s e := .ok (s ++ [e])
  swapOut s i e := do
    let old ← uncheckedGet s i
    .ok (s.set i e, old)
  swap s a b := do
    let ea ← uncheckedGet s a
    let eb ← uncheckedGet s b
    .ok ((s.set a eb).set b ea)
  deleted s _ := .ok s
  toList s := s
  find := none
  range := none
  le _ _ := True

/-- State of `BoolCol` (src/storage.rs:82-86).  `refIdx = none` stands for `ref_idx == usize::MAX`. -/
structure BoolState where
  refVal : Bool
  refIdx : Option Nat
  data : List Bool
deriving DecidableEq, Repr

/-- `BoolCol::flush` (src/storage.rs:97-101). -/
def BoolState.flush (s : BoolState) : R BoolState :=
  match s.refIdx with
  | none => .ok s
  | some i =>
    if s.data.length ≤ i then .ok s
    else do
      let d ← checkedSet s.data i s.refVal
      .ok { s with data := d, refIdx := none }

/-- `BoolCol` (src/storage.rs:87-150).  `clear` is the trait default `truncate(0)` (src/columns.rs:32). -/
@[reducible] def boolCol : TCol Bool where
  σ := BoolState
  new := { refVal := false, refIdx := none, data := [] }
  len s := s.data.length
  truncate s n := do
    let s ← s.flush
    .ok { s with data := s.data.take n }
  index s i := if s.refIdx = some i then .ok s.refVal else checkedGet s.data i
  indexMut s i := do
    let s ← s.flush
    let v ← checkedGet s.data i
    .ok (v, fun b => { s with refIdx := some i, refVal := b })
  clear s := do
    let s ← s.flush
    .ok { s with data := s.data.take 0 }
  push s e := .ok { s with data := s.data ++ [e] }
  swapOut s i e := do
    let s ← s.flush
    let old ← checkedGet s.data i
    let d ← checkedSet s.data i e
    .ok ({ s with data := d }, old)
  swap s a b := do
    let s ← s.flush
    let av ← checkedGet s.data a
    let bv ← checkedGet s.data b
    let d ← checkedSet s.data a bv
    let d ← checkedSet d b av
    .ok { s with data := d }
  deleted s _ := .ok s
  toList s :=
    match s.flush with
    | .ok s => s.data
    | .error _ => []
  find := none
  range := none
  le _ _ := True

/-- State of `BTreeIndex` (src/map_index.rs:29-36). The `BTreeMap<(Element, Idx), ()>` is a strictly
ascending list of keys in lexicographic order. -/
structure IndexState (E : Type) (C : TCol E) where
  inner : C.σ
  index : List (E ×ₗ Nat)

variable {E : Type} [LinearOrder E]

/-- `BTreeIndex::deleted` (src/map_index.rs:129-134). -/
def btreeDeleted (max : Nat) (C : TCol E) (s : IndexState E C) (i : Nat) : R (IndexState E C) := do
  let old ← C.index s.inner i
  let ni ← fromUsize max i
  let inner ← C.deleted s.inner i
  .ok { inner := inner, index := BSet.erase (toLex (old, ni)) s.index }

/-- `BTreeIndex::find` (src/map_index.rs:41-49): the half-open range `(key, 0)..(key, MAX)`. -/
def btreeFind (max : Nat) (C : TCol E) (s : IndexState E C) (k : E) : R (List Nat) := do
  let r ← BSet.range (toLex (k, 0)) (toLex (k, max)) s.index
  .ok (r.map fun p => (ofLex p).2)

/-- `BTreeIndex::range` (src/map_index.rs:51-59): the half-open range `(lo, 0)..(hi, MAX)`. -/
def btreeRange (max : Nat) (C : TCol E) (s : IndexState E C) (lo hi : E) : R (List Nat) := do
  let r ← BSet.range (toLex (lo, 0)) (toLex (hi, max)) s.index
  .ok (r.map fun p => (ofLex p).2)

/-- `impl TCol for BTreeIndex` (src/map_index.rs:73-140) over an arbitrary inner column. -/
@[reducible] def btreeIndex (max : Nat) (C : TCol E) : TCol E where
  σ := IndexState E C
  new := { inner := C.new, index := [] }
  len s := C.len s.inner
  truncate s n := do
    let s ← (List.range' n (C.len s.inner - n)).foldlM (btreeDeleted max C) s
    let inner ← C.truncate s.inner n
    .ok { s with inner := inner }
  index s i := C.index s.inner i
  indexMut _ _ := .error .indexedMut
  clear s := do
    let inner ← C.clear s.inner
    .ok { inner := inner, index := [] }
  push s e := do
    let i := C.len s.inner
    let inner ← C.push s.inner e
    let ni ← fromUsize max i
    .ok { inner := inner, index := BSet.insert (toLex (e, ni)) s.index }
  swapOut s i e := do
    let old ← C.index s.inner i
    let ni ← fromUsize max i
    let idx := BSet.erase (toLex (old, ni)) s.index
    let idx := BSet.insert (toLex (e, ni)) idx
    let (inner, out) ← C.swapOut s.inner i e
    .ok ({ inner := inner, index := idx }, out)
  swap s a b := do
    let oldA ← C.index s.inner a
    let oldB ← C.index s.inner b
    let na ← fromUsize max a
    let nb ← fromUsize max b
    let idx := BSet.erase (toLex (oldA, na)) s.index
    let idx := BSet.erase (toLex (oldB, nb)) idx
    let idx := BSet.insert (toLex (oldA, nb)) idx
    let idx := BSet.insert (toLex (oldB, na)) idx
    let inner ← C.swap s.inner a b
    .ok { inner := inner, index := idx }
  deleted s i := btreeDeleted max C s i
  toList s := C.toList s.inner
  find := some (btreeFind max C)
  range := some (btreeRange max C)
  le a b := a ≤ b

end V11
