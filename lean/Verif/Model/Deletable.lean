import Verif.Model.Bag

/-!
# `Deletable`s that outlive their turn

`BagIter::next` hands out `(&mut table, Deletable)` with the lifetime of the table, not of the call (src/index.rs:638, the
`transmute` at 654-663), so a program may keep the `Deletable`s of earlier rows and call `delete` on them later.
-/

namespace V11
variable {S : Schema}

/-- What a program does with the iterator: ask for the next row, or call `delete` on the `Deletable` it got at its `j`-th
successful call of `next` (src/index.rs:639, 626-629). The program's edits of rows through the `&mut` table are not
modelled here. -/
inductive LoopOp where
  | next
  | delete (j : Nat)
deriving DecidableEq

/-- An iteration under way (src/index.rs:617-620, 632-637): the iterator, and for each `Deletable` handed out so far the id
it dereferences to. -/
structure BagLoop (S : Schema) where
  it : BagIter S
  got : List Nat

namespace BagLoop

/-- `bag.iter_mut()` (macros/output.rs:681-688). -/
def start (t : Tbl S) : BagLoop S := ⟨BagIter.new t, []⟩

/-- One action (src/index.rs:639-664; `Deletable::delete`, 626-629). There is no `Deletable` the iterator has not handed
out. (A `Deletable` is used up by `delete`; calling it twice is allowed here, and makes no difference.) -/
def step (l : BagLoop S) : LoopOp → R (BagLoop S)
  | .next => do
    let (o, it) ← l.it.next
    .ok ⟨it, l.got ++ o.toList⟩
  | .delete j => .ok (if j < l.got.length then ⟨l.it.mark, l.got⟩ else l)

/-- A sequence of actions (src/index.rs:639-664, 626-629). -/
def acts (l : BagLoop S) : List LoopOp → R (BagLoop S)
  | [] => .ok l
  | op :: ops => do
    let l ← l.step op
    l.acts ops

/-- The actions, then the drop of the iterator (src/index.rs:667-674); the ids of the `Deletable`s are reported too. -/
def run (t : Tbl S) (ops : List LoopOp) : R (Tbl S × List Nat) := do
  let l ← (start t).acts ops
  let t ← l.it.drop
  .ok (t, l.got)

end BagLoop
end V11
