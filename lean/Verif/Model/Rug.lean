import Verif.Model.Iter

/-!
# `merge0`: `retain` and `visit`

Generated for non-consistent tables only (macros/output.rs:1334, 1418), whose `event_add` does nothing
(macros/output.rs:1203, 1212); so these functions work on the table without the lock's change list.
-/

namespace V11

/-- `Action` (src/lib.rs:163-173). The iterator of added rows is the list of rows it yields. -/
inductive Action (A : Type) where
  | cont (remove : Bool) (add : List A)
  | brk

variable {S : Schema}

/-- Entries of the rug: `Result<Row, IT::IntoIter>` (macros/output.rs:1360). -/
abbrev Rug (S : Schema) := List (Row S ⊕ List (Row S))

/-- `pull_rug` (macros/output.rs:1363-1376). -/
def pullRug : Rug S → Option (Row S × Rug S)
  | [] => none
  | .inl r :: q => some (r, q)
  | .inr (x :: xs) :: q => some (x, .inr xs :: q)
  | .inr [] :: q => pullRug q

/-- The inner loop `while rug_front < rug_back` (macros/output.rs:1402-1409); the last argument is
`rug_back - rug_front`. -/
def fillGap (t : Tbl S) (rug : Rug S) (front : Nat) : Nat → R (Tbl S × Rug S × Nat)
  | 0 => .ok (t, rug, front)
  | k + 1 =>
    match pullRug rug with
    | none => .ok (t, [], front)
    | some (row, rug) => do
      let (t, _) ← t.swapOutRow front row
      let front ← nextId S.max front
      fillGap t rug front k

/-- The result of the outer loop: an early `return` (line 1394), or the rug to unroll. -/
inductive Scan (S : Schema) (σ : Type) where
  | noop (t : Tbl S) (s : σ)
  | done (t : Tbl S) (rug : Rug S) (front : Nat) (s : σ)

/-- The outer loop `while rug_back < len` (macros/output.rs:1381-1410). The closure `f : FnMut` is a
function that also returns its new captured state. The `Nat` argument is the number of rows left to
scan: `swap_out_row` does not change the length, so this is `len - rug_back`. -/
def scanLoop {σ : Type} (f : Tbl S → Nat → σ → Action (Row S) × σ) (t : Tbl S) (rug : Rug S) (front back : Nat)
    (stopped : Bool) (s : σ) : Nat → R (Scan S σ)
  | 0 => .ok (.done t rug front s)
  | k + 1 => do
    let (action, s) := if stopped then (.brk, s) else f t back s
    match action with
    | .cont remove add => do
      let rug ← if remove then .ok rug else do
        let r ← t.getRow back
        .ok (rug ++ [.inl r])
      let back ← nextId S.max back
      let rug := rug ++ [.inr add]
      let (t, rug, front) ← fillGap t rug front (back - front)
      scanLoop f t rug front back stopped s k
    | .brk =>
      if front = back ∧ rug = [] then .ok (.noop t s)
      else do
        let r ← t.getRow back
        let rug := rug ++ [.inl r]
        let back ← nextId S.max back
        let (t, rug, front) ← fillGap t rug front (back - front)
        scanLoop f t rug front back true s k

/-- The rows left in the rug, in the order `pull_rug` returns them. -/
def rugRows : Rug S → List (Row S)
  | [] => []
  | .inl r :: q => r :: rugRows q
  | .inr xs :: q => xs ++ rugRows q

/-- The final loop (macros/output.rs:1412-1414): `while let Some(row) = pull_rug(..) { push }`, with a
step budget. -/
def unrollRug (t : Tbl S) (rug : Rug S) : Nat → R (Tbl S)
  | 0 => .error .stackOverflow
  | k + 1 =>
    match pullRug rug with
    | none => .ok t
    | some (row, rug) => do
      let (t, _) ← t.pushOnly row
      unrollRug t rug k

/-- `merge0` (macros/output.rs:1354-1415). -/
def Tbl.merge0 {σ : Type} (t : Tbl S) (f : Tbl S → Nat → σ → Action (Row S) × σ) (s : σ) : R (Tbl S × σ) := do
  match ← scanLoop f t [] 0 0 false s t.len with
  | .noop t s => .ok (t, s)
  | .done t rug front s => do
    let t ← t.truncate front
    let t ← unrollRug t rug ((rugRows rug).length + 1)
    .ok (t, s)

/-- `retain` (macros/output.rs:1337-1345). -/
def Tbl.retain {σ : Type} (t : Tbl S) (f : Tbl S → Nat → σ → Bool × σ) (s : σ) : R (Tbl S × σ) :=
  t.merge0 (fun t i s => let (b, s) := f t i s; (.cont (!b) [], s)) s

/-- `visit` (macros/output.rs:1420-1426). -/
def Tbl.visit {σ : Type} (t : Tbl S) (f : Tbl S → Nat → σ → Action (Row S) × σ) (s : σ) : R (Tbl S × σ) :=
  t.merge0 f s

end V11
