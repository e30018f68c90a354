import Mathlib.Order.Defs.LinearOrder

/-!
# Specification of merging into a sorted list
-/

namespace V11
variable {A K : Type} [LinearOrder K]

/-- What `merge` produces: the old rows below the first new row, the first new row, then a left-biased
merge of the remaining old and new rows. Not a stable merge: the first new row precedes old rows with
an equal key (property C17). -/
def mergeSpec (key : A → K) (old new : List A) : List A :=
  match new with
  | [] => old
  | first :: rest =>
    old.takeWhile (fun r => key r < key first) ++
      first :: List.merge (old.dropWhile (fun r => key r < key first)) rest (fun a b => key a ≤ key b)

/-- `log` lists, in ascending order, the positions in `out` at which the elements of `new` sit, and the
elements at the other positions are `old`, in order. -/
def Placed (out old new : List A) (log : List Nat) : Prop :=
  log.Pairwise (· < ·) ∧
  log.map (fun i => out[i]?) = new.map some ∧
  (out.zipIdx.filter (fun p => p.2 ∉ log)).map Prod.fst = old

/-- The elements of `l` whose position is not listed in `ids`. -/
def removeAt (l : List A) (ids : List Nat) : List A :=
  (l.zipIdx.filter (fun p => p.2 ∉ ids)).map Prod.fst

/-- Ascending by key. -/
def SortedBy (key : A → K) (l : List A) : Prop := l.Pairwise (fun a b => key a ≤ key b)

end V11
