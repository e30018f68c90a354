import Verif.Model.Serial

/-!
# What extracting and restoring should do
-/

namespace V11

/-- Iterating over the extraction yields these old ids and rows, in this order. -/
structure Extraction.Yields {S : Schema} (x : Extraction S) (ids : List Nat) (rows : List (Row S)) : Prop where
  sel : x.selection = ids
  len : rows.length = ids.length
  row : ∀ k (h : k < rows.length), x.rowNo k = .ok rows[k]

/-- The extraction carries the table's own description. -/
structure Extraction.Matches {S : Schema} (x : Extraction S) (sig : Sig) : Prop where
  fmt : x.fmt = 0
  domain : x.domain = sig.domain
  name : x.name = sig.name
  version : x.schema = sig.version
  columns : x.columns = sig.columns

/-- `t'` is `t` with `rows` added at the new ids `ids`, which are the lowest ids not in use, in ascending
order; every other id is as before. -/
structure Added {S : Schema} (t t' : Tbl S) (ids : List Nat) (rows : List (Row S)) : Prop where
  len : ids.length = rows.length
  asc : ids.Pairwise (· < ·)
  fresh : ∀ i ∈ ids, t.contains i = false
  lowest : ∀ i ∈ ids, ∀ k < i, t.contains k = true ∨ k ∈ ids
  new : ∀ p ∈ ids.zip rows, t'.view p.1 = some p.2
  old : ∀ i, i ∉ ids → t'.view i = t.view i

variable {T : Type} {S : T → Schema}

/-- `row'` is `row` with each foreign column sent through the parent's table of new ids, and nothing else
changed. -/
def Remapped {t : T} (fl : T → FlushLock) (own : List (Own S t)) (row row' : Row (S t)) : Prop :=
  (∀ o ∈ own, (fl o.parent).remap (o.key (row o.col)) = some (o.key (row' o.col))) ∧
  ∀ j, (∀ o ∈ own, o.col ≠ j) → row' j = row j

end V11
