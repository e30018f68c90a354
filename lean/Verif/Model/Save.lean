import Verif.Model.Serial

/-!
# Saving all tables of a universe and loading them into another

The library has no such call: this is the client code of tests/serial.rs:100-190 for any number of tables. Each table is
extracted, the extractions go through a `Serializer` and a `Deserializer`, and `restore_extract` puts them into
another universe.
-/

namespace V11

/-- An `Extraction` written and read again (`#[derive(Serialize, Deserialize)]` on `Extraction` and `Owned`,
macros/output.rs:556-574): the columns go through `Serialize` and `Deserialize` of `Col` (src/serial.rs:8-68), the other
fields are taken to come back as they were. -/
def Extraction.wire {S : Schema} (x : Extraction S) : R (Extraction S) := do
  let data ← seqFin (S.n + 1) (fun j => do
    let l ← serCol (S.C j) (x.data j)
    deCol (S.C j) l)
  .ok { x with data := data }

variable {T : Type} {S : T → Schema}

/-- One table: `t::read(universe).extract_selection(Select::All)` (macros/output.rs:1912-1953), written and read again. -/
def saveOne (sig : (t : T) → Sig) (env : Env S) (t : T) : R (Sigma fun t => Extraction (S t)) := do
  let tb ← env.peek t
  let x ← tb.extractSelection (sig t) .all
  let x ← x.wire
  .ok ⟨t, x⟩

/-- The listed tables, in order (tests/serial.rs:113-134). -/
def saveAll (sig : (t : T) → Sig) (env : Env S) (order : List T) : R (List (Sigma fun t => Extraction (S t))) :=
  order.mapM (saveOne sig env)

/-- `t::write(universe).restore_extract(universe, x, ev).unwrap()` (macros/output.rs:1860-1908) for each of them, in order
(tests/serial.rs:181-190). -/
def loadAll [DecidableEq T] {K : Type} [LinearOrder K] (key : (t : T) → Row (S t) → K) (cfg : Cfg S) (n : Nat) (sig : (t : T) → Sig)
    (own : (t : T) → List (Own S t)) (ev : Event) : List (Sigma fun t => Extraction (S t)) → Uni S → R (Uni S)
  | [], u => .ok u
  | ⟨t, x⟩ :: rest, u => do
    let (e, u) ← restore key cfg n t (sig t) (own t) x ev u
    match e with
    | some _ => .error .unwrapNone
    | none => loadAll key cfg n sig own ev rest u

end V11
