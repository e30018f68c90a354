import Verif.Model.Iter

/-!
# Bags: `BagIter`
-/

namespace V11
variable {S : Schema}

/-- `BagIter` (src/index.rs:632-637). -/
structure BagIter (S : Schema) where
  tbl : Tbl S
  delete : Bool
  i : Nat
  last : Option Nat

namespace BagIter

/-- `iter_mut()` of a bag (macros/output.rs:681-688). -/
def new (t : Tbl S) : BagIter S := { tbl := t, delete := false, i := 0, last := none }

/-- `delete_row` = bag `delete` (macros/output.rs:551, 855-859), on the table. -/
def bagDelete (t : Tbl S) (i : Nat) : R (Tbl S) := do
  let i ← t.check i
  t.deleteRaw i

/-- `BagIter::next` (src/index.rs:640-665). -/
def next (it : BagIter S) : R (Option Nat × BagIter S) :=
  if it.i ≥ it.tbl.len then .ok (none, it)
  else do
    let it ← if it.delete then
        match it.last with
        | none => .error .unwrapNone
        | some l => do
          let l ← fromUsize S.max l
          let t ← bagDelete it.tbl l
          .ok { it with tbl := t, delete := false }
      else .ok { it with last := some it.i, i := it.i + 1 }
    match it.last with
    | none => .error .unwrapNone
    | some l => do
      let l ← fromUsize S.max l
      .ok (some l, it)

/-- `Drop for BagIter` (src/index.rs:667-674). -/
def drop (it : BagIter S) : R (Tbl S) :=
  match it.last, it.delete with
  | some l, true => do
    let l ← fromUsize S.max l
    bagDelete it.tbl l
  | _, _ => .ok it.tbl

/-- `for (table, row) in bag.iter_mut() { if f(row's contents) { row.delete() } }`, left by `break` after
`k` rows if it has not ended by then: the body may look at the visited row and keep state, and may mark it
for deletion (`Deletable::delete`, src/index.rs:626-630). Either way the iterator is dropped. The body's
mutable access to the table is not used for structural changes. -/
def run {σ : Type} (f : Nat → Row S → σ → Bool × σ) : Nat → BagIter S → σ → R (Tbl S × σ)
  | 0, it, s => do
    let t ← it.drop
    .ok (t, s)
  | k + 1, it, s => do
    let (o, it) ← it.next
    match o with
    | none => do
      let t ← it.drop
      .ok (t, s)
    | some i => do
      let r ← it.tbl.getRow i
      let (b, s) := f i r s
      run f k { it with delete := b } s

/-- `Deletable::delete` (src/index.rs:626-630): sets the iterator's only mark; the id it was made for
plays no role. -/
def mark (it : BagIter S) : BagIter S := { it with delete := true }

end BagIter
end V11
