import Verif.Model.Ops
import Verif.Model.Columns

/-!
# What a call that panics leaves behind

The other models stop at a panic. Here every call also says what table it leaves when it panics: by itself, or
because code the caller handed it (a closure, an iterator) does. `write_result().unwrap_or_else(|e| e.into_inner())`
gets at that table (macros/output.rs:1697-1700), so it can be used further.
-/

namespace V11

/-- What a column is left as by a method that panics after it has changed something. All other methods panic before
they change the column: `unchecked_swap_out`, `unchecked_swap` and `deleted` of `BTreeIndex` convert the ids first
(src/map_index.rs:111,121-122,131). -/
class Leaves {E : Type} (C : TCol E) where
  push : C.σ → E → C.σ
  truncate : C.σ → Nat → C.σ

/-- `VecCol` (src/storage.rs:18,23): neither panics. -/
instance vecLeaves (E : Type) : Leaves (vecCol E) where
  push s _ := s
  truncate s _ := s

/-- `BoolCol` (src/storage.rs:108-111,129): neither panics. -/
instance boolLeaves : Leaves boolCol where
  push s _ := s
  truncate s _ := s

section Index
variable {E : Type} [LinearOrder E]

/-- The loop of `BTreeIndex::truncate` (src/map_index.rs:87-91) up to its panic. -/
def btreeDeletedTill (max : Nat) (C : TCol E) : List Nat → IndexState E C → IndexState E C
  | [], s => s
  | i :: is, s =>
    match btreeDeleted max C s i with
    | .ok s => btreeDeletedTill max C is s
    | .error _ => s

/-- `BTreeIndex`: `push` (src/map_index.rs:102-107) has pushed onto the inner column when it panics, `truncate`
(85-93) has forgotten some rows in the index. -/
instance indexLeaves (max : Nat) (C : TCol E) [Leaves C] : Leaves (btreeIndex max C) where
  push s e :=
    match C.push s.inner e with
    | .ok inner => { s with inner := inner }
    | .error _ => { s with inner := Leaves.push s.inner e }
  truncate s n := btreeDeletedTill max C (List.range' n (C.len s.inner - n)) s

end Index

/-- `Leaves` for each column of a schema. -/
class LeavesSchema (S : Schema) where
  col : (j : Fin (S.n + 1)) → Leaves (S.C j)

attribute [reducible, instance] LeavesSchema.col

/-- The columns `table!` offers. -/
@[reducible] def ColSpec.leaves (max : Nat) : (c : ColSpec) → Leaves (c.col max)
  | .vec E => vecLeaves E
  | .bool => boolLeaves
  | .index _ _ => indexLeaves max _
  | .indexBool => indexLeaves max _

instance mkSchemaLeaves {n : Nat} (cs : Fin (n + 1) → ColSpec) (max : Nat) (kind : Kind) :
    LeavesSchema (mkSchema cs max kind) where
  col j := (cs j).leaves max

/-- A call on a table: the table it leaves, and its result or panic. -/
def Cr (S : Schema) (α : Type) := Tbl S → Tbl S × R α

namespace Cr
variable {S : Schema} {α β : Type}

/-- Returns. -/
def ret (a : α) : Cr S α := fun t => (t, .ok a)

/-- One call after the other; a panic of the first is the end. -/
def andThen (x : Cr S α) (f : α → Cr S β) : Cr S β := fun t =>
  match x t with
  | (t, .ok a) => f a t
  | (t, .error p) => (t, .error p)

instance : Monad (Cr S) where
  pure := ret
  bind := andThen

/-- Panics. -/
def fail (p : Panic) : Cr S α := fun t => (t, .error p)

/-- A part that only looks at the table. -/
def look (f : Tbl S → R α) : Cr S α := fun t => (t, f t)

/-- A part that the table has nothing to do with. -/
def lift (r : R α) : Cr S α := fun t => (t, r)

end Cr

/-- One method call on each column, in declaration order (`#( … )*` in macros/output.rs), given what each leaves and
returns: at the first panic the later columns are left alone. -/
def seqTear : (n : Nat) → {σ α : Fin n → Type} → ((j : Fin n) → σ j) → ((j : Fin n) → σ j → σ j × R (α j)) →
    ((j : Fin n) → σ j) × R ((j : Fin n) → α j)
  | 0, _, _, s, _ => (s, .ok (fun j => j.elim0))
  | n + 1, σ, α, s, f =>
    match f 0 (s 0) with
    | (a, .ok x) =>
      let r := seqTear n (σ := fun j => σ j.succ) (α := fun j => α j.succ) (fun j => s j.succ) (fun j => f j.succ)
      (Fin.cons (α := σ) a r.1, r.2.map (Fin.cons (α := α) x))
    | (a, .error p) => (Fin.cons (α := σ) a (fun j => s j.succ), .error p)

/-- The result of a method without a return value, and what it leaves if it panics. -/
def colStep {σ : Type} (r : R σ) (left : σ) : σ × R Unit :=
  match r with
  | .ok s => (s, .ok ())
  | .error p => (left, .error p)

/-- The same for `unchecked_swap_out`, which gives back the old element. -/
def outStep {σ E : Type} (r : R (σ × E)) (left : σ) : σ × R E :=
  match r with
  | .ok x => (x.1, .ok x.2)
  | .error p => (left, .error p)

namespace Cr
variable {S : Schema} [L : LeavesSchema S]

/-- A method call on each column. -/
def cols (f : (j : Fin (S.n + 1)) → (S.C j).σ → (S.C j).σ × R Unit) : Cr S Unit := fun t =>
  let r := seqTear (S.n + 1) (α := fun _ => Unit) t.cols f
  ({ t with cols := r.1 }, r.2.map fun _ => ())

/-- `clear_raw` (macros/output.rs:1231-1233). -/
def clearRaw : Cr S Unit := cols fun j s => colStep ((S.C j).clear s) s

/-- `push_only_unchecked` (macros/output.rs:1248-1252). -/
def pushOnly (row : Row S) : Cr S Nat := do
  cols fun j s => colStep ((S.C j).push s (row j)) (Leaves.push s (row j))
  match ← look Tbl.last with
  | some i => ret i
  | none => fail .unwrapNone

/-- The column part of `swap_out_row` (macros/output.rs:1313): the caller's row receives the old values. -/
def swapOutRaw (i : Nat) (row : Row S) : Cr S (Row S) := fun t =>
  let r := seqTear (S.n + 1) (α := S.E) t.cols fun j s => outStep ((S.C j).swapOut s i (row j)) s
  ({ t with cols := r.1 }, r.2)

/-- `swap_out_row` (macros/output.rs:1309-1315). -/
def swapOutRow (i : Nat) (row : Row S) : Cr S (Row S) := do
  let i ← look (Tbl.check · i)
  swapOutRaw i row

/-- A change of the free list. -/
def setFree (g : List Nat → List Nat) : Cr S Unit := fun t => ({ t with free := g t.free }, .ok ())

/-- The column part of `swap` (macros/output.rs:1322, 864). -/
def swapRaw (a b : Nat) : Cr S Unit := cols fun j s => colStep ((S.C j).swap s a b) s

/-- `truncate` (macros/output.rs:1327-1329). -/
def truncate (n : Nat) : Cr S Unit := cols fun j s => colStep ((S.C j).truncate s n) (Leaves.truncate s n)

/-- `delete_raw` (macros/output.rs:829-834 consistent, 860-870 bag, 879-881 others). -/
def deleteRaw (i : Nat) : Cr S Unit :=
  match S.kind with
  | .consistent => do
    cols fun j s => colStep ((S.C j).deleted s i) s
    let i ← lift (fromUsize S.max i)
    setFree (BSet.insert i)
  | .bag => do
    let len ← look fun t => .ok t.len
    if len = 0 then fail .subOverflow
    else do
      if i < len - 1 then swapRaw i (len - 1) else ret ()
      truncate (len - 1)
  | _ => fail .badDelete

/-- `push` (macros/output.rs:1553-1575), without the lock's change list: a lock whose change list is not empty ends
the process when it is dropped by a panic (property C49). -/
def push (row : Row S) : Cr S Nat := do
  match ← look fun t => .ok t.free with
  | old :: _ => do
    setFree (BSet.erase old)
    let _ ← swapOutRow old row
    ret old
  | [] => pushOnly row

/-- `push_all` (macros/output.rs:1542-1547). An iterator is the list of what its `next` does: `none` stands for a
panic. -/
def pushAll : List (Option (Row S)) → Cr S Unit
  | [] => ret ()
  | none :: _ => fail .userPanic
  | some r :: rs => do
    let _ ← push r
    pushAll rs

/-- The loop of `push_array` (macros/output.rs:1598-1600). -/
def pushArrayLoop (last : Nat) : List (Option (Row S)) → Cr S Nat
  | [] => ret last
  | none :: _ => fail .userPanic
  | some r :: rs => do
    let i ← pushOnly r
    pushArrayLoop i rs

/-- `push_array` (macros/output.rs:1587-1605). -/
def pushArray : List (Option (Row S)) → Cr S (Nat × Nat)
  | [] => ret (S.max, S.max)
  | none :: _ => fail .userPanic
  | some r :: rs => do
    let start ← pushOnly r
    let last ← pushArrayLoop start rs
    let e ← lift (nextId S.max last)
    ret (start, e)

/-- `table.col[row_id] = v` (src/columns.rs:86-94). -/
def setCell (j : Fin (S.n + 1)) (i : Nat) (v : S.E j) : Cr S Unit := fun t =>
  match t.setCell j i v with
  | .ok t' => (t', .ok ())
  | .error p => (t, .error p)

/-- The loop over selected rows in `flush` (macros/output.rs:959-967), `live_flush` (1002-1010) and consistent
`remove_rows` (357-364). -/
def deleteLoop (len : Nat) : List Nat → Cr S Unit
  | [] => ret ()
  | row :: rows =>
    if row < len then do
      deleteRaw row
      deleteLoop len rows
    else fail .assertRow

/-- The removal step of `flush` (macros/output.rs:956-968) and `live_flush` (999-1011). -/
def removeSel : Select (List Nat) → Cr S Unit
  | .all => clearRaw
  | .these rows => do
    let len ← look fun t => .ok t.len
    deleteLoop len rows

/-- Bag `delete` (macros/output.rs:855-859). -/
def bagDelete (i : Nat) : Cr S Unit := do
  let i ← look (Tbl.check · i)
  deleteRaw i

/-- Dropping a `BagIter` (src/index.rs:667-674) that yielded `last` and is marked or not. -/
def bagDrop (last : Option Nat) (delete : Bool) : Cr S Unit :=
  match last, delete with
  | some l, true => do
    let l ← lift (fromUsize S.max l)
    bagDelete l
  | _, _ => ret ()

/-- The step of `BagIter::next` (src/index.rs:646-655): delete the row yielded last if it is marked, else go on to the
next one. -/
def bagStep (delete : Bool) (last : Option Nat) (i : Nat) : Cr S (Nat × Option Nat) :=
  if delete then
    match last with
    | none => fail .unwrapNone
    | some l => do
      let l ← lift (fromUsize S.max l)
      bagDelete l
      ret (i, some l)
  else ret (i + 1, some i)

/-- `for (table, row) in bag.iter_mut() { body }`, left after `k` rows if it has not ended by then (as
`BagIter.run`, Model/Bag): `next` is src/index.rs:640-665. The body says whether it marks the row, and whether it then
panics; a panic drops the iterator too (if that panics as well the process ends; the model goes on). -/
def bagLoop {σ : Type} (f : Nat → Row S → σ → (Bool × Bool) × σ) : Nat → Nat → Option Nat → Bool → σ → Cr S Unit
  | 0, _, last, delete, _ => bagDrop last delete
  | k + 1, i, last, delete, s => do
    let len ← look fun t => .ok t.len
    if i ≥ len then bagDrop last delete
    else do
      let (i, last) ← bagStep delete last i
      match last with
      | none => fail .unwrapNone
      | some l => do
        let l ← lift (fromUsize S.max l)
        let r ← look (Tbl.getRow · l)
        let ((mark, panics), s) := f l r s
        if panics then do
          bagDrop last mark
          fail .userPanic
        else bagLoop f k i last mark s

/-- What the rug of `merge0` holds (macros/output.rs:1360): rows, and iterators that may panic. -/
abbrev CrRug (S : Schema) := List (Row S ⊕ List (Option (Row S)))

/-- `pull_rug` (macros/output.rs:1363-1376); the iterator's `next` may panic. -/
def pullRug : CrRug S → R (Option (Row S × CrRug S))
  | [] => .ok none
  | .inl r :: q => .ok (some (r, q))
  | .inr (some x :: xs) :: q => .ok (some (x, .inr xs :: q))
  | .inr (none :: _) :: _ => .error .userPanic
  | .inr [] :: q => pullRug q

/-- The inner loop `while rug_front < rug_back` (macros/output.rs:1402-1409). -/
def fillGap (rug : CrRug S) (front : Nat) : Nat → Cr S (CrRug S × Nat)
  | 0 => ret (rug, front)
  | k + 1 => do
    match ← lift (pullRug rug) with
    | none => ret ([], front)
    | some (row, rug) => do
      let _ ← swapOutRow front row
      let front ← lift (nextId S.max front)
      fillGap rug front k

/-- `if stopped { Action::Break } else { f(self, rug_back) }` (macros/output.rs:1382). The closure, which is given the
table as it is at that moment, answers or panics (`none`). -/
def ask {σ : Type} (f : Tbl S → Nat → σ → Option (Action (Option (Row S)) × σ)) (stopped : Bool) (back : Nat) (s : σ) :
    Cr S (Action (Option (Row S)) × σ) :=
  if stopped then ret (.brk, s)
  else look fun t =>
    match f t back s with
    | some a => .ok a
    | none => .error .userPanic

/-- `if !remove { rug.push_back(Row(self.get_row(rug_back))) }` (macros/output.rs:1385-1388). -/
def keepRow (remove : Bool) (back : Nat) (rug : CrRug S) : Cr S (CrRug S) :=
  if remove then ret rug
  else do
    let r ← look (Tbl.getRow · back)
    ret (rug ++ [.inl r])

/-- The outer loop (macros/output.rs:1381-1410); `none` means it has returned early (line 1394). -/
def scanLoop {σ : Type} (f : Tbl S → Nat → σ → Option (Action (Option (Row S)) × σ)) (rug : CrRug S) (front back : Nat)
    (stopped : Bool) (s : σ) : Nat → Cr S (Option (CrRug S × Nat))
  | 0 => ret (some (rug, front))
  | k + 1 => do
    let (action, s) ← ask f stopped back s
    match action with
    | .cont remove add => do
      let rug ← keepRow remove back rug
      let back ← lift (nextId S.max back)
      let rug := rug ++ [.inr add]
      let (rug, front) ← fillGap rug front (back - front)
      scanLoop f rug front back stopped s k
    | .brk =>
      if front = back ∧ rug = [] then ret none
      else do
        let r ← look (Tbl.getRow · back)
        let rug := rug ++ [.inl r]
        let back ← lift (nextId S.max back)
        let (rug, front) ← fillGap rug front (back - front)
        scanLoop f rug front back true s k

/-- The number of times the rug can be pulled. -/
def rugSize : CrRug S → Nat
  | [] => 0
  | .inl _ :: q => 1 + rugSize q
  | .inr xs :: q => xs.length + rugSize q

/-- The final loop (macros/output.rs:1412-1414), with a step budget. -/
def unrollRug (rug : CrRug S) : Nat → Cr S Unit
  | 0 => fail .stackOverflow
  | k + 1 => do
    match ← lift (pullRug rug) with
    | none => ret ()
    | some (row, rug) => do
      let _ ← pushOnly row
      unrollRug rug k

/-- `merge0` (macros/output.rs:1354-1415). -/
def merge0 {σ : Type} (f : Tbl S → Nat → σ → Option (Action (Option (Row S)) × σ)) (s : σ) : Cr S Unit := do
  let len ← look fun t => .ok t.len
  match ← scanLoop f [] 0 0 false s len with
  | none => ret ()
  | some (rug, front) => do
    truncate front
    unrollRug rug (rugSize rug + 1)

/-- `visit` (macros/output.rs:1420-1426). -/
def visit {σ : Type} (f : Tbl S → Nat → σ → Option (Action (Option (Row S)) × σ)) (s : σ) : Cr S Unit := merge0 f s

/-- `retain` (macros/output.rs:1337-1345). -/
def retain {σ : Type} (f : Tbl S → Nat → σ → Option (Bool × σ)) (s : σ) : Cr S Unit :=
  merge0 (fun t i s => (f t i s).map fun (b, s) => (.cont (!b) [], s)) s

variable {K : Type} [LinearOrder K]

/-- `Peekable::peek` on an iterator that may panic. -/
def peek : List (Option (Row S)) → R (Option (Row S))
  | [] => .ok none
  | some r :: _ => .ok (some r)
  | none :: _ => .error .userPanic

/-- `choose` (macros/output.rs:1492-1503): always peeks. -/
def chooseSide (key : Row S → K) (rug : List (Row S)) (iter : List (Option (Row S))) : R (Option Side) := do
  let i ← peek iter
  match rug, i with
  | [], none => .ok none
  | [], some _ => .ok (some .iter)
  | _ :: _, none => .ok (some .rug)
  | r :: _, some i => .ok (some (if key r ≤ key i then .rug else .iter))

/-- What `merge_logged` carries along: the rug, the iterator, the state of the `log` closure. -/
structure MSt (S : Schema) (τ : Type) where
  rug : List (Row S)
  iter : List (Option (Row S))
  log : τ

/-- A call of `log` (macros/output.rs:1519, 1534), which may panic (`none`). -/
def callLog {τ : Type} (log : Tbl S → Nat → τ → Option τ) (i : Nat) (l : τ) : Cr S τ := look fun t =>
  match log t i l with
  | some l => .ok l
  | none => .error .userPanic

/-- One iteration of stage 2 (macros/output.rs:1507-1522). -/
def mergeBump {τ : Type} (key : Row S → K) (log : Tbl S → Nat → τ → Option τ) (st : MSt S τ) (cursor : Nat) :
    Cr S (MSt S τ) := do
  match ← lift (chooseSide key st.rug st.iter) with
  | none => fail .unwrapNone
  | some .rug =>
    match st.rug with
    | [] => fail .unwrapNone
    | v :: rug => do
      let old ← swapOutRow cursor v
      ret { st with rug := rug ++ [old] }
  | some .iter =>
    match st.iter with
    | some v :: iter => do
      let old ← swapOutRow cursor v
      let l ← callLog log cursor st.log
      ret { rug := st.rug ++ [old], iter := iter, log := l }
    | _ => fail .unwrapNone

/-- The loop of stage 2. -/
def mergeBumps {τ : Type} (key : Row S → K) (log : Tbl S → Nat → τ → Option τ) : List Nat → MSt S τ → Cr S (MSt S τ)
  | [], st => ret st
  | c :: cs, st => do
    let st ← mergeBump key log st c
    mergeBumps key log cs st

/-- Stage 3 (macros/output.rs:1523-1537), with a step budget. -/
def mergeFlush {τ : Type} (key : Row S → K) (log : Tbl S → Nat → τ → Option τ) : Nat → MSt S τ → Cr S τ
  | 0, _ => fail .stackOverflow
  | k + 1, st => do
    match ← lift (chooseSide key st.rug st.iter) with
    | none => ret st.log
    | some .rug =>
      match st.rug with
      | [] => fail .unwrapNone
      | v :: rug => do
        let _ ← pushOnly v
        mergeFlush key log k { st with rug := rug }
    | some .iter =>
      match st.iter with
      | some v :: iter => do
        let cursor ← pushOnly v
        let l ← callLog log cursor st.log
        mergeFlush key log k { st with iter := iter, log := l }
      | _ => fail .unwrapNone

/-- `merge_logged` (macros/output.rs:1462-1538) on an iterator in `AssertSorted`. -/
def mergeLogged {τ : Type} (key : Row S → K) (log : Tbl S → Nat → τ → Option τ) (rows : List (Option (Row S))) (l : τ) :
    Cr S τ := do
  match ← lift (peek rows) with
  | none => ret l
  | some first => do
    let cursor ← look fun t => findCursor key t first 0 t.len
    let e ← look fun t => fromUsize S.max t.len
    let ids ← lift (drain (RowRange.next S.max) (e - cursor + 1) ⟨cursor, e⟩)
    let st ← mergeBumps key log ids { rug := [], iter := rows, log := l }
    mergeFlush key log (st.rug.length + st.iter.length + 1) st

/-- The per-column loop of sorted `remove_rows` (macros/output.rs:428-438). -/
def removeLoop {E : Type} (C : TCol E) (s : C.σ) (toRemove : List Nat) (bad ugly : Nat) : Nat → C.σ × R Nat
  | 0 => (s, .ok bad)
  | k + 1 =>
    if toRemove.head? = some ugly then removeLoop C s toRemove.tail bad (ugly + 1) k
    else
      match if bad ≠ ugly then C.swap s bad ugly else .ok s with
      | .ok s => removeLoop C s toRemove (bad + 1) (ugly + 1) k
      | .error p => (s, .error p)

/-- Sorted `Write::remove_rows` (macros/output.rs:399-441). -/
def removeRows (toRemove : List Nat) : Cr S Unit :=
  match toRemove with
  | [] => ret ()
  | r :: rs => do
    lift (removeCheck 0 (if r = 0 then rs else r :: rs))
    let len ← look fun t => .ok t.len
    if (toRemove.getLast?).getD 0 < len then
      cols fun j s =>
        match removeLoop (S.C j) s toRemove 0 0 len with
        | (s, .ok bad) => colStep ((S.C j).truncate s bad) (Leaves.truncate s bad)
        | (s, .error p) => (s, .error p)
    else fail .removeOob

end Cr

/-- One public call under a write lock, with what the caller hands it. A closure that is called once per id, in order,
is given by its results; the body of a bag loop also knows the rows it saw before, a `log` closure the ids. -/
inductive COp (S : Schema) where
  | push (row : Row S)
  | pushAll (rows : List (Option (Row S)))
  | pushArray (rows : List (Option (Row S)))
  | set (j : Fin (S.n + 1)) (i : Nat) (v : S.E j)
  | remove (sel : Select (List Nat))
  | bagDelete (i : Nat)
  | bagLoop (f : List (Nat × Row S) → Nat → Row S → Bool × Bool) (k : Nat)
  | clearRaw
  | retain (f : Tbl S → Nat → Option Bool)
  | visit (f : Tbl S → Nat → Option (Action (Option (Row S))))
  | merge (rows : List (Option (Row S))) (log : Tbl S → Nat → List Nat → Bool)
  | removeRows (ids : List Nat)

namespace COp
variable {S : Schema} [LeavesSchema S] {K : Type} [LinearOrder K]

/-- For which kinds `table!` generates the method (as `TOp.Allowed`). -/
def Allowed (S : Schema) : COp S → Prop
  | .push _ | .pushAll _ | .pushArray _ => S.kind ≠ .sorted
  | .set .. | .remove _ | .clearRaw => True
  | .bagDelete _ | .bagLoop .. => S.kind = .bag
  | .retain _ => S.kind ≠ .consistent
  | .visit _ => S.kind ≠ .consistent ∧ S.kind ≠ .sorted
  | .merge .. | .removeRows _ => S.kind = .sorted

/-- The body of a bag loop remembers what it has seen. -/
def seeing (f : List (Nat × Row S) → Nat → Row S → Bool × Bool) (i : Nat) (r : Row S) (seen : List (Nat × Row S)) :
    (Bool × Bool) × List (Nat × Row S) := (f seen i r, seen ++ [(i, r)])

/-- A `log` closure collects the ids, or panics where it answers `true`. -/
def logging (log : Tbl S → Nat → List Nat → Bool) (t : Tbl S) (i : Nat) (ids : List Nat) : Option (List Nat) :=
  if log t i ids then none else some (ids ++ [i])

/-- What the call leaves, and whether it panics. -/
def run (key : Row S → K) : COp S → Cr S Unit
  | .push row => do let _ ← Cr.push row; Cr.ret ()
  | .pushAll rows => Cr.pushAll rows
  | .pushArray rows => do let _ ← Cr.pushArray rows; Cr.ret ()
  | .set j i v => Cr.setCell j i v
  | .remove sel => Cr.removeSel sel
  | .bagDelete i => Cr.bagDelete i
  | .bagLoop f k => Cr.bagLoop (seeing f) k 0 none false []
  | .clearRaw => Cr.clearRaw
  | .retain f => Cr.retain (fun t i (_ : Unit) => (f t i).map fun b => (b, ())) ()
  | .visit f => Cr.visit (fun t i (_ : Unit) => (f t i).map fun a => (a, ())) ()
  | .merge rows log => do let _ ← Cr.mergeLogged key (logging log) rows []; Cr.ret ()
  | .removeRows ids => Cr.removeRows ids

end COp

/-- The tables that can exist when every panic is caught and the table is used further as it was left. -/
inductive Salvaged {S : Schema} [LeavesSchema S] {K : Type} [LinearOrder K] (key : Row S → K) : Tbl S → Prop
  | new : Salvaged key Tbl.new
  | step {t : Tbl S} {op : COp S} : Salvaged key t → op.Allowed S → Salvaged key (op.run key t).1

/-- Those among them for which no call so far panicked because a row id overflowed. -/
inductive Survived {S : Schema} [LeavesSchema S] {K : Type} [LinearOrder K] (key : Row S → K) : Tbl S → Prop
  | new : Survived key Tbl.new
  | step {t : Tbl S} {op : COp S} : Survived key t → op.Allowed S → (op.run key t).2 ≠ .error .idxOverflow →
      Survived key (op.run key t).1

section
variable {S : Schema}

/-- An action without panics. -/
def liftAction : Action (Row S) → Action (Option (Row S))
  | .cont remove add => .cont remove (add.map some)
  | .brk => .brk

/-- A call in which the caller's code does not panic, as a call that may. -/
def TOp.toC : TOp S → COp S
  | .push row => .push row
  | .pushArray rows => .pushArray (rows.map some)
  | .set j i v => .set j i v
  | .remove sel => .remove sel
  | .bagDelete i => .bagDelete i
  | .clearRaw => .clearRaw
  | .retain f => .retain fun t i => some (f t i)
  | .visit f => .visit fun t i => some (liftAction (f t i))
  | .merge rows => .merge (rows.map some) fun _ _ _ => false
  | .removeRows ids => .removeRows ids

end

end V11
