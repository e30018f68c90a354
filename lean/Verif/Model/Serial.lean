import Verif.Model.Universe

/-!
# (De)serialisation of columns; extracting rows and restoring them; row-id remappings
-/

namespace V11

section Columns
variable {E : Type}

/-- `Serialize for Col` (src/serial.rs:8-27): every element in order, read without bounds checks. The
serialiser is taken to record the sequence of elements. -/
def serCol (C : TCol E) (s : C.σ) : R (List E) := (List.range (C.len s)).mapM (C.index s)

/-- `Deserialize for Col` / `visit_seq` (src/serial.rs:28-68): a new column, each element pushed. A `seq`
that reports an error and the panic of `reserve` are in `Model/Stream`. -/
def deCol (C : TCol E) (l : List E) : R C.σ := l.foldlM C.push C.new

end Columns

/-- `ColumnMeta` (src/tables.rs:249-255). -/
structure ColumnMeta where
  name : String
  storedTypeName : String
  version : Nat
deriving DecidableEq, Repr

/-- What the generated module knows of itself: `TABLE_DOMAIN`, `TABLE_NAME`, `VERSION` and the column
formats (macros/output.rs:578-599). -/
structure Sig where
  domain : String
  name : String
  version : Nat
  columns : List ColumnMeta
deriving DecidableEq, Repr

/-- `EXTRACTION_FMT` (macros/output.rs:555). -/
def EXTRACTION_FMT : Nat := 0

/-- `Extraction` and `Owned` (macros/output.rs:557-574). The fields are public and deserialisable: any
combination can occur. -/
structure Extraction (S : Schema) where
  fmt : Nat
  domain : String
  name : String
  schema : Nat
  columns : List ColumnMeta
  selection : List Nat
  data : (j : Fin (S.n + 1)) → (S.C j).σ

/-- The loop over the table's columns (macros/output.rs:592-603): `col_count`, `mismatch`. `[]` of a `Vec`
panics out of range. -/
def metaLoop (theirs : List ColumnMeta) : List ColumnMeta → Nat → Bool → R Bool
  | [], _, mismatch => .ok mismatch
  | mine :: rest, i, mismatch => do
    let c ← checkedGet theirs i
    metaLoop theirs rest (i + 1) (mismatch || decide (mine ≠ c))

namespace Extraction
variable {S : Schema}

/-- `validate` (macros/output.rs:576-609): `none` is `Ok(())`, `some e` is `Err(e)`. -/
def validate (x : Extraction S) (sig : Sig) : R (Option String) :=
  if x.fmt ≠ EXTRACTION_FMT then .ok (some "fmt mismatch")
  else if x.domain ≠ sig.domain then .ok (some "wrong domain")
  else if x.name ≠ sig.name then .ok (some "wrong name")
  else if x.schema ≠ sig.version then .ok (some "schema version mismatch")
  else do
    let mismatch ← metaLoop x.columns sig.columns 0 false
    if mismatch || decide (sig.columns.length ≠ x.columns.length) then .ok (some "column format mismatch")
    else .ok none

/-- The `k`-th row `into_iter` yields (macros/output.rs:611-627): the `k`-th element of each column, which
must exist. -/
def rowNo (x : Extraction S) (k : Nat) : R (Row S) :=
  seqFin (S.n + 1) (fun j =>
    match ((S.C j).toList (x.data j))[k]? with
    | some e => .ok e
    | none => .error .unwrapNone)

end Extraction

/-- `extract_selection` (macros/output.rs:1912-1953). `All` is the ids `iter()` yields; listed ids are taken
as they are, and `self.col[*i]` checks them against the column's length only. -/
def Tbl.extractSelection {S : Schema} (t : Tbl S) (sig : Sig) (sel : Select (List Nat)) : R (Extraction S) := do
  let ids ← match sel with
    | .all => t.iterIds
    | .these ids => .ok ids
  let data ← seqFin (S.n + 1) (fun j =>
    ids.foldlM (fun (s : (S.C j).σ) i => do
      let e ← t.cell j i
      (S.C j).push s e) (S.C j).new)
  .ok { fmt := EXTRACTION_FMT, domain := sig.domain, name := sig.name, schema := sig.version,
        columns := sig.columns, selection := ids, data := data }

variable {T : Type} {S : T → Schema}

/-- A `#[foreign_auto]` column of table `t` seen from `t` itself (macros/output.rs:1109-1147: the lists
`FOREIGN_LOCAL_COL`, `FOREIGN_ELEMENTS`). -/
structure Own (S : T → Schema) (t : T) where
  parent : T
  col : Fin ((S t).n + 1)
  key : (S t).E col ≃ Nat

/-- The part of `Flush` behind its `RwLock` that restoring uses (src/tracking.rs:225-229), and the read
guards on that lock that were `mem::forget`ten (macros/output.rs:1014). A `HashMap` is the list of the
insertions since the last `clear`. -/
structure FlushLock where
  identity : Bool
  remapped : List (Nat × Nat)
  leaked : Nat
deriving DecidableEq, Repr

namespace FlushLock

/-- `Flush::default()` (src/tracking.rs:236-244). -/
def new : FlushLock := { identity := false, remapped := [], leaked := 0 }

/-- `remap` (src/tracking.rs:302-308): the latest insertion wins. -/
def remap (f : FlushLock) (old : Nat) : Option Nat :=
  if f.identity then some old else f.remapped.reverse.lookup old

/-- `has_remapping` (src/tracking.rs:309). -/
def hasRemapping (f : FlushLock) : Bool := !f.remapped.isEmpty

/-- `flush.write().unwrap().set_remapping(&remap)` (macros/output.rs:1905, src/tracking.rs:289-301). The
write guard is never granted while a read guard exists. -/
def setRemapping (f : FlushLock) (remap : List (Nat × Nat)) : R FlushLock :=
  if f.leaked ≠ 0 then .error .deadlock
  else if f.identity then .ok f
  else .ok { f with remapped := remap }

/-- `set_identity_remap` (src/tracking.rs:310-312) through the write guard. -/
def setIdentity (f : FlushLock) : R FlushLock :=
  if f.leaked ≠ 0 then .error .deadlock else .ok { f with identity := true }

end FlushLock

/-- A universe with the flush state of each table. -/
structure Uni (S : T → Schema) where
  env : Env S
  fl : T → FlushLock

section
variable [DecidableEq T]

/-- `UPDATE_ROW` (macros/output.rs:1820-1827): each foreign column is sent through its parent's
remapping. -/
def updateRow {t : T} (fl : T → FlushLock) (own : List (Own S t)) (row : Row (S t)) : R (Row (S t)) :=
  own.foldlM (fun row o =>
    match (fl o.parent).remap (o.key (row o.col)) with
    | some new => .ok (Function.update row o.col (o.key.symm new))
    | none => .error .noRemapping) row

/-- The loop of an unsorted table (macros/output.rs:1847-1854) over `(old_id, k)`. -/
def restorePush {t : T} (fl : T → FlushLock) (own : List (Own S t)) (x : Extraction (S t)) (noTrackers : Bool) :
    List (Nat × Nat) → W (S t) → List (Nat × Nat) → R (W (S t) × List (Nat × Nat))
  | [], w, rm => .ok (w, rm)
  | (old, k) :: rest, w, rm => do
    let row ← x.rowNo k
    let row ← updateRow fl own row
    let (w, new) ← w.push row
    restorePush fl own x noTrackers rest w (if noTrackers then rm else rm ++ [(old, new)])

/-- The loop of a sorted table that has trackers (macros/output.rs:1839-1843). -/
def restoreMergeEach {K : Type} [LinearOrder K] {t : T} (key : Row (S t) → K) (fl : T → FlushLock) (own : List (Own S t))
    (x : Extraction (S t)) : List (Nat × Nat) → W (S t) → List (Nat × Nat) → R (W (S t) × List (Nat × Nat))
  | [], w, rm => .ok (w, rm)
  | (old, k) :: rest, w, rm => do
    let row ← x.rowNo k
    let row ← updateRow fl own row
    let (tb, new) ← w.tbl.mergeSingle key row
    restoreMergeEach key fl own x rest { w with tbl := tb } (rm ++ [(old, new)])

/-- `MERGE_EXTRACT` (macros/output.rs:1828-1856). A sorted table without trackers merges the rows as they
were extracted. -/
def mergeExtract {K : Type} [LinearOrder K] {t : T} (key : Row (S t) → K) (fl : T → FlushLock) (own : List (Own S t))
    (x : Extraction (S t)) (noTrackers : Bool) (w : W (S t)) : R (W (S t) × List (Nat × Nat)) :=
  if (S t).kind = .sorted then
    if noTrackers then do
      let rows ← (List.range x.selection.length).mapM x.rowNo
      let tb ← w.tbl.mergeVec key rows
      .ok ({ w with tbl := tb }, [])
    else restoreMergeEach key fl own x x.selection.zipIdx w []
  else restorePush fl own x noTrackers x.selection.zipIdx w []

/-- `restore_extract` (macros/output.rs:1860-1908) of a lock on `t` holding `w`. For each foreign column the
parent's table is read-locked (which waits forever if it is `t` itself) and its remapping consulted. A
returned `some e` is `Err(e)`; the lock is dropped. -/
def restoreExtract {K : Type} [LinearOrder K] (key : (t : T) → Row (S t) → K) (cfg : Cfg S) (n : Nat) (t : T)
    (sig : Sig) (own : List (Own S t)) (x : Extraction (S t)) (ev : Event) (w : W (S t)) (u : Uni S) :
    R (Option String × Uni S) := do
  match ← x.validate sig with
  | some e => do
    let tb ← w.drop
    .ok (some e, { u with env := u.env.unlock t tb })
  | none => do
    own.forM (fun o => do let _ ← u.env.peek o.parent; .ok ())
    let (w, rm) ← mergeExtract (key t) u.fl own x (cfg.trackers t).isEmpty w
    if w.changes.isEmpty then do
      let tb ← w.drop
      .ok (none, { u with env := u.env.unlock t tb })
    else do
      let f ← (u.fl t).setRemapping rm
      let env ← flush cfg n t w ev u.env
      .ok (none, { env := env, fl := Function.update u.fl t f })

/-- `t::write(universe).restore_extract(universe, x, ev)`. -/
def restore {K : Type} [LinearOrder K] (key : (t : T) → Row (S t) → K) (cfg : Cfg S) (n : Nat) (t : T)
    (sig : Sig) (own : List (Own S t)) (x : Extraction (S t)) (ev : Event) (u : Uni S) : R (Option String × Uni S) := do
  let (w, env) ← u.env.lock t
  restoreExtract key cfg n t sig own x ev w { u with env := env }

/-- `live_flush` (macros/output.rs:980-1023) with the handling of remappings at its end (lines 1013-1018):
when there is one, the read guard on the flush lock is forgotten, `try_write` then cannot succeed (this
thread's guard still counts), so the remapping stays. -/
def liveFlushU (cfg : Cfg S) (n : Nat) (t : T) (w : W (S t)) (ev : Event) (u : Uni S) : R (W (S t) × Uni S) :=
  if w.changes.isEmpty then .ok (w, u)
  else do
    let (w, env) ← liveFlush cfg n t w ev u.env
    let f := u.fl t
    let f := if f.hasRemapping then { f with leaked := f.leaked + 1 } else f
    .ok (w, { env := env, fl := Function.update u.fl t f })

/-- `Universe::register_tracker` (src/tracking.rs:332-339), which takes the flush lock for writing. -/
def registerTracker (cfg : Cfg S) (u : Uni S) (t : T) (tr : Tracker S) : R (Cfg S) :=
  if u.env.reads t ≠ 0 ∨ u.env.writer t = true then .error .deadlock
  else if (u.fl t).leaked ≠ 0 then .error .deadlock
  else cfg.register t tr

end
end V11
