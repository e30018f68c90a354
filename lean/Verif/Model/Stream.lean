import Verif.Model.Serial

/-!
# Columns and serialisers that fail, input that ends in an error or lies about its length
-/

namespace V11
variable {E D : Type}

/-- What a `SeqAccess` gives (serde): its `size_hint`, the elements, and the error of `next_element` after them if it does not
end well. The input is finite. -/
structure SeqInput (E D : Type) where
  hint : Option Nat
  elems : List E
  fails : Option D

/-- How `deserialize` ends: a column, an error of the format, a panic, or the `capacity overflow` panic (or failed allocation) of
`reserve`. -/
inductive Got (σ D : Type) where
  | col (s : σ)
  | err (d : D)
  | panicked (p : Panic)
  | capacity

/-- The loop `while let Some(e) = seq.next_element()? { inner.push(e); }` (src/serial.rs:62-64). -/
def pushSeq (C : TCol E) : List E → Option D → C.σ → Got C.σ D
  | [], none, s => .col s
  | [], some d, _ => .err d
  | e :: es, f, s =>
    match C.push s e with
    | .ok s => pushSeq C es f s
    | .error p => .panicked p

/-- `visit_seq` of a new column (src/serial.rs:52-67): `reserve` with the hint (`Vec::reserve`, src/storage.rs:21; `BitVec::reserve`,
src/storage.rs:120; handed on by an index, src/map_index.rs:98), which panics if more than `cap` elements are asked for; then the
loop. -/
def deSeq (C : TCol E) (cap : Nat) (inp : SeqInput E D) : Got C.σ D :=
  match inp.hint with
  | some h => if cap < h then .capacity else pushSeq C inp.elems inp.fails C.new
  | none => pushSeq C inp.elems inp.fails C.new

/-- A `Serializer` and its `SerializeSeq` (serde): `serialize_seq(Some(n))`, `serialize_element`, `end`, each of which may fail. -/
structure Sink (E τ O D : Type) where
  start : Nat → Except D τ
  elem : τ → E → Except D τ
  finish : τ → Except D O

/-- How `serialize` ends. -/
inductive Put (O D : Type) where
  | done (o : O)
  | err (d : D)
  | panicked (p : Panic)
deriving DecidableEq

variable {τ O : Type}

/-- The loop of `serialize` (src/serial.rs:20-24) over the remaining indices. -/
def putLoop (C : TCol E) (k : Sink E τ O D) (s : C.σ) : List Nat → τ → Put O D
  | [], t =>
    match k.finish t with
    | .ok o => .done o
    | .error d => .err d
  | i :: is, t =>
    match C.index s i with
    | .error p => .panicked p
    | .ok e =>
      match k.elem t e with
      | .ok t => putLoop C k s is t
      | .error d => .err d

/-- `Serialize for Col` (src/serial.rs:14-25) into any serialiser. -/
def serInto (C : TCol E) (k : Sink E τ O D) (s : C.σ) : Put O D :=
  match k.start (C.len s) with
  | .error d => .err d
  | .ok t => putLoop C k s (List.range (C.len s)) t

end V11
