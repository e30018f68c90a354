import Verif.Model.Columns

/-!
# What a column storage is supposed to be: a vector, with a search if it is indexed

The state of the specification is the list of elements and the list of positions that were reported deleted.
-/

namespace V11

/-- The calls of `TCol` and of the index (src/columns.rs:22-49, src/map_index.rs:41-59). `set` writes through `index_mut`. -/
inductive StoreOp (E : Type) where
  | push (e : E) | get (i : Nat) | len | set (i : Nat) (e : E)
  | swap (i k : Nat) | swapOut (i : Nat) (e : E) | truncate (n : Nat) | clear | deleted (i : Nat) | toList
  | find (e : E)

/-- What a call shows its caller. -/
inductive StoreOut (E : Type) where
  | unit | elem (e : E) | num (n : Nat) | list (l : List E) | ids (l : List Nat)

open Classical in
/-- The specification. `none`: a call the table code must not make: a position out of range, swapping a deleted one, a
push beyond the row-id type; mutable access to an indexed column (it always panics, C14); a search of a column without
index. A deleted position is live again once its element is swapped out. The search has a blind spot at the largest row
id (C12). -/
noncomputable def vecSpec {E : Type} (max : Nat) (indexed : Bool) (s : List E × List Nat) :
    StoreOp E → Option ((List E × List Nat) × StoreOut E)
  | .push e => if s.1.length ≤ max then some ((s.1 ++ [e], s.2), .unit) else none
  | .get i => s.1[i]?.map fun v => (s, .elem v)
  | .len => some (s, .num s.1.length)
  | .set i e => if i < s.1.length ∧ indexed = false then some ((s.1.set i e, s.2), .unit) else none
  | .swap i k =>
    match s.1[i]?, s.1[k]? with
    | some a, some b => if i ∈ s.2 ∨ k ∈ s.2 then none else some (((s.1.set i b).set k a, s.2), .unit)
    | _, _ => none
  | .swapOut i e => s.1[i]?.map fun v => ((s.1.set i e, s.2.filter (· ≠ i)), .elem v)
  | .truncate n => some ((s.1.take n, s.2.filter (· < n)), .unit)
  | .clear => some (([], []), .unit)
  | .deleted i => if i < s.1.length then some ((s.1, i :: s.2), .unit) else none
  | .toList => some (s, .list s.1)
  | .find e =>
    if indexed then some (s, .ids ((List.range s.1.length).filter fun i => decide (i < max ∧ s.1[i]? = some e ∧ i ∉ s.2)))
    else none

/-- The same calls on a storage (src/columns.rs:22-49). -/
def storeCall {E : Type} (C : TCol E) (s : C.σ) : StoreOp E → R (C.σ × StoreOut E)
  | .push e => do let s ← C.push s e; .ok (s, .unit)
  | .get i => do let v ← C.index s i; .ok (s, .elem v)
  | .len => .ok (s, .num (C.len s))
  | .set i e => do let (_, put) ← C.indexMut s i; .ok (put e, .unit)
  | .swap i k => do let s ← C.swap s i k; .ok (s, .unit)
  | .swapOut i e => do let (s, v) ← C.swapOut s i e; .ok (s, .elem v)
  | .truncate n => do let s ← C.truncate s n; .ok (s, .unit)
  | .clear => do let s ← C.clear s; .ok (s, .unit)
  | .deleted i => do let s ← C.deleted s i; .ok (s, .unit)
  | .toList => .ok (s, .list (C.toList s))
  | .find e =>
    match C.find with
    | none => .error .unwrapNone
    | some f => do let l ← f s e; .ok (s, .ids l)

/-- Runs calls on the specification, collecting the outputs. -/
noncomputable def vecRun {E : Type} (max : Nat) (indexed : Bool) (s : List E × List Nat) : List (StoreOp E) → Option (List (StoreOut E))
  | [] => some []
  | op :: ops => do
    let (s, o) ← vecSpec max indexed s op
    let os ← vecRun max indexed s ops
    some (o :: os)

/-- Runs calls on a storage, collecting the outputs. -/
def storeRun {E : Type} (C : TCol E) (s : C.σ) : List (StoreOp E) → R (List (StoreOut E))
  | [] => .ok []
  | op :: ops => do
    let (s, o) ← storeCall C s op
    let os ← storeRun C s ops
    .ok (o :: os)

end V11
