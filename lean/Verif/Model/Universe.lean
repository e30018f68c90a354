import Verif.Model.Ops
import Mathlib.Logic.Equiv.Defs
import Mathlib.Logic.Function.Basic

/-!
# A universe of tables: locks, trackers, event handlers and `flush`

A single thread is modelled (see `Model/Threads.lean` for any number of them and `Model/Race.lean` for the window in a flush). `T` is the set of tables, `S` gives each its
schema.
-/

namespace V11
variable {T : Type} {S : T → Schema}

/-- A `#[foreign_auto]` column (macros/output.rs:1112-1141) of the table `child`. `key` reads a stored
`GenericRowId<Parent>` as a number (src/index.rs:35-64: a newtype, ordered by it). `bySort`: the column is
the table's sort key, so rows are selected by a merge join, else by the column's index. -/
structure FK (S : T → Schema) where
  child : T
  col : Fin ((S child).n + 1)
  key : (S child).E col ≃ Nat
  bySort : Bool

namespace FK

/-- The parent row a row refers to. -/
def ref (fk : FK S) (r : Row (S fk.child)) : Nat := fk.key (r fk.col)

/-- `select_$col` (macros/output.rs:1067-1083): look every key up in the index. A column without an index
is rejected when the macro runs (macros/output.rs:1119-1121). -/
def selectIndexed (fk : FK S) (t : Tbl (S fk.child)) (rows : List Nat) : R (List Nat) :=
  match ((S fk.child).C fk.col).find with
  | none => .error .badConfig
  | some find => rows.foldlM (fun out k => do
      let found ← find (t.cols fk.col) (fk.key.symm k)
      .ok (out ++ found)) []

/-- The loop of `select_sorted_$col` (macros/output.rs:1093-1101) over the ids of the table. -/
def joinLoop (fk : FK S) (t : Tbl (S fk.child)) : List Nat → List Nat → R (List Nat)
  | [], _ => .ok []
  | i :: is, right => do
    let e ← t.cellChecked fk.col i
    match joinStep (fk.key e) right with
    | (.hit _, right) => do
      let out ← joinLoop fk t is right
      .ok (i :: out)
    | (.next, right) => joinLoop fk t is right
    | (.stop, _) => .ok []

/-- `select_sorted_$col` (macros/output.rs:1086-1103). The iterator is drained up front, which has no
effect of its own. -/
def selectSorted (fk : FK S) (t : Tbl (S fk.child)) (rows : List Nat) : R (List Nat) := do
  let ids ← t.iterIds
  fk.joinLoop t ids rows

/-- The selection of dependent rows (macros/output.rs:1115-1122 chooses; 1070, 1090: `All` stays `All`). -/
def select (fk : FK S) (t : Tbl (S fk.child)) (sel : Select (List Nat)) : R (Select (List Nat)) :=
  match sel with
  | .all => .ok .all
  | .these rows => do
    let out ← if fk.bySort then fk.selectSorted t rows else fk.selectIndexed t rows
    .ok (.these out)

end FK

/-- A user-written `Tracker` (src/tracking.rs:167-220) that only observes. -/
structure Observer where
  name : Nat
  considers : Event → Bool
  sort : Bool

/-- A registered tracker: derived by `#[foreign_auto]`, or written by the user. -/
inductive Tracker (S : T → Schema) where
  | auto (fk : FK S)
  | observer (o : Observer)

namespace Tracker

/-- `consider` (default `true`, src/tracking.rs:173; `foreign_auto` does not override it). -/
def considers : Tracker S → Event → Bool
  | .auto _, _ => true
  | .observer o, ev => o.considers ev

/-- `sort` (macros/output.rs:1129: `GUARANTEES.sorted` of the dependent table). -/
def sort : Tracker S → Bool
  | .auto fk => (S fk.child).kind = .sorted
  | .observer o => o.sort

end Tracker

/-- The provided `Function`s (src/event.rs:123-153). -/
inductive Handler where
  | null | delete | panicking
deriving DecidableEq, Repr

/-- The fixed part of a universe: `Flush::trackers` of each table (src/tracking.rs:226) and
`Universe::event_handlers` (src/event.rs:157-159). -/
structure Cfg (S : T → Schema) where
  trackers : T → List (Tracker S)
  handlers : List Handler

/-- `EventHandlers::get` (src/event.rs:192-194). -/
def Cfg.handler (cfg : Cfg S) (ev : Event) : R Handler :=
  match cfg.handlers[ev.id]? with
  | some h => .ok h
  | none => .error .vecOob

/-- `Universe::register_tracker` and `Flush::register_tracker` (src/tracking.rs:315-321, 332-339), with no
lock held. -/
def Cfg.register [DecidableEq T] (cfg : Cfg S) (t : T) (tr : Tracker S) : R (Cfg S) :=
  if (S t).kind = .consistent then
    .ok { cfg with trackers := Function.update cfg.trackers t (cfg.trackers t ++ [tr]) }
  else .error .trackerOnInconsistent

/-- One call of an observer: on which table's tracker list, with what, and what the universe contained. -/
structure Call (S : T → Schema) where
  table : T
  name : Nat
  event : Event
  sel : Select (List Nat)
  seen : (t : T) → Tbl (S t)

/-- The mutable part of a universe as one thread sees it: table contents, the locks this thread holds
(`RwLock<GenericTable>`, src/tables.rs:60), and the calls observers received. -/
structure Env (S : T → Schema) where
  tbl : (t : T) → Tbl (S t)
  reads : T → Nat
  writer : T → Bool
  log : List (Call S)

namespace Env
variable [DecidableEq T]

/-- Replaces the contents of one table. -/
def put (env : Env S) (t : T) (x : Tbl (S t)) : Env S := { env with tbl := Function.update env.tbl t x }

/-- `write(universe)` (macros/output.rs:1609-1640): waits for all other guards, so a thread holding one
itself waits forever. -/
def lock (env : Env S) (t : T) : R (W (S t) × Env S) :=
  if env.reads t ≠ 0 ∨ env.writer t = true then .error .deadlock
  else .ok (W.lock (env.tbl t), { env with writer := Function.update env.writer t true })

/-- Gives the table back and releases the write lock. -/
def unlock (env : Env S) (t : T) (x : Tbl (S t)) : Env S :=
  { env.put t x with writer := Function.update env.writer t false }

/-- `read(universe)` / `gt.read()`: waits for a writer. -/
def acquireRead (env : Env S) (t : T) : R (Env S) :=
  if env.writer t = true then .error .deadlock
  else .ok { env with reads := Function.update env.reads t (env.reads t + 1) }

/-- Drops a read guard. -/
def releaseRead (env : Env S) (t : T) : Env S :=
  { env with reads := Function.update env.reads t (env.reads t - 1) }

/-- A read guard that lives for one statement: only the possibility of waiting matters. -/
def peek (env : Env S) (t : T) : R (Tbl (S t)) :=
  if env.writer t = true then .error .deadlock else .ok (env.tbl t)

end Env

/-- The signature of `do_flush`, for use by the functions it calls back into: table, event, `pushed`,
`delete`, selection, universe. -/
abbrev FlushFn (S : T → Schema) := T → Event → Bool → Bool → Select (List Nat) → Env S → R (Select (List Nat) × Env S)

section
variable [DecidableEq T]

/-- `Write::flush` (macros/output.rs:932-976) of a lock on `t` (which holds `w`); `doFlush` is the body of
`do_flush`. The lock is released during `do_flush` (line 947) and taken again only to remove rows
(line 957); the new lock has no changes, so the check at 971-975 passes. -/
def flushWith (doFlush : FlushFn S) (t : T) (w : W (S t)) (ev : Event) (env : Env S) : R (Env S) :=
  if w.changes.isEmpty then .ok (env.unlock t w.tbl)
  else do
    let env := env.unlock t w.tbl
    let (changes, env) ← doFlush t ev w.pushed w.delete w.changes env
    if ev.isRemoval && !changes.isEmpty then do
      let (w, env) ← env.lock t
      let x ← w.tbl.removeSel changes
      .ok (env.unlock t x)
    else .ok env

/-- `Table::remove_rows` (consistent macros/output.rs:347-375, sorted 379-397, other 446-450). A
consistent table that is told to remove everything is cleared, then marked as cleared and flushed. -/
def tableRemoveRows (doFlush : FlushFn S) (t : T) (ev : Event) (rows : Select (List Nat)) (env : Env S) : R (Env S) :=
  match (S t).kind with
  | .consistent => do
    let (w, env) ← env.lock t
    match rows with
    | .these rows => do
      let x ← w.tbl.deleteLoop w.tbl.len rows
      flushWith doFlush t { w with tbl := x } ev env
    | .all => do
      let x ← w.tbl.clearRaw
      let w ← ({ w with tbl := x } : W (S t)).clear
      flushWith doFlush t w ev env
  | .sorted => do
    let (w, env) ← env.lock t
    match rows with
    | .these rows => do
      let x ← w.tbl.removeRows rows
      flushWith doFlush t { w with tbl := x } ev env
    | .all => do
      let x ← w.tbl.clearRaw
      let w ← ({ w with tbl := x } : W (S t)).clear
      flushWith doFlush t w ev env
  | _ => .error .notRemovable

/-- `Function::handle` of the provided handlers (src/event.rs:126-153). `DeleteHandler` first reads the
generic table to find the remover. -/
def handlerHandle (doFlush : FlushFn S) (h : Handler) (t : T) (ev : Event) (rows : Select (List Nat)) (env : Env S) :
    R (Env S) :=
  match h with
  | .null => .ok env
  | .delete => do
    let _ ← env.peek t
    tableRemoveRows doFlush t ev rows env
  | .panicking => .error .noHandler

/-- `needs_sort` (src/event.rs:125, 131-134, 145). -/
def handlerNeedsSort (h : Handler) (t : T) (env : Env S) : R Bool :=
  match h with
  | .delete => do
    let _ ← env.peek t
    .ok ((S t).kind = .sorted)
  | _ => .ok false

/-- `Function::run` (src/event.rs:100-119): handle the rows, then, holding a read lock on the table, tell
that table's own trackers. -/
def handlerRun (doFlush : FlushFn S) (h : Handler) (t : T) (ev : Event) (rows : Select (List Nat)) (env : Env S) :
    R (Env S) := do
  let s ← handlerNeedsSort h t env
  let rows := if s then rows.sort else rows
  let env ← handlerHandle doFlush h t ev rows env
  let env ← env.acquireRead t
  let (_, env) ← doFlush t ev ev.isCreation ev.isRemoval rows env
  .ok (env.releaseRead t)

/-- `Tracker::handle`: a `foreign_auto` tracker selects dependent rows and runs the handler on them
(macros/output.rs:1131-1140); an observer is called. -/
def trackerHandle (doFlush : FlushFn S) (p : T) (tr : Tracker S) (ev : Event) (rows : Select (List Nat)) (h : Handler)
    (env : Env S) : R (Env S) :=
  match tr with
  | .auto fk => do
    let x ← env.peek fk.child
    let sel ← fk.select x rows
    handlerRun doFlush h fk.child ev sel env
  | .observer o => .ok { env with log := env.log ++ [⟨p, o.name, ev, rows, env.tbl⟩] }

/-- The loop state of `do_flush`: the selection, whether it is sorted, the universe. -/
structure FlushSt (S : T → Schema) where
  sel : Select (List Nat)
  sorted : Bool
  env : Env S

/-- One iteration of the loop over the trackers (src/tracking.rs:263-275). -/
def flushStep (doFlush : FlushFn S) (p : T) (ev : Event) (h : Handler) (st : FlushSt S) (tr : Tracker S) :
    R (FlushSt S) :=
  if tr.considers ev = false then .ok st
  else do
    let st : FlushSt S := if !st.sorted && tr.sort then { st with sel := st.sel.sort, sorted := true } else st
    let env ← trackerHandle doFlush p tr ev st.sel h st.env
    .ok { st with env := env }

/-- `Flush::do_flush` (src/tracking.rs:248-288) with a recursion budget. Every caller passes
`include_self = false`, so lines 277-285 never run. -/
def doFlush (cfg : Cfg S) : Nat → FlushFn S
  | 0, _, _, _, _, _, _ => .error .stackOverflow
  | n + 1, t, ev, pushed, delete, sel, env =>
    if (pushed && delete) || (ev.isRemoval && ev.isCreation) then .error .interleaved
    else do
      let h ← cfg.handler ev
      let st ← (cfg.trackers t).foldlM (flushStep (doFlush cfg n) t ev h) ⟨sel, sel.isAll, env⟩
      .ok (st.sel, st.env)

/-- `table.flush(universe, event)` on a lock holding `w`, with recursion budget `n`. -/
def flush (cfg : Cfg S) (n : Nat) (t : T) (w : W (S t)) (ev : Event) (env : Env S) : R (Env S) :=
  flushWith (doFlush cfg n) t w ev env

/-- `Write::live_flush` (macros/output.rs:980-1023), as `flush` but the lock is kept and stays usable.
Remappings are in `Model/Serial.lean`. -/
def liveFlush (cfg : Cfg S) (n : Nat) (t : T) (w : W (S t)) (ev : Event) (env : Env S) : R (W (S t) × Env S) :=
  if w.changes.isEmpty then .ok (w, env)
  else do
    let (changes, env) ← doFlush cfg n t ev w.pushed w.delete w.changes (env.put t w.tbl)
    let x ← if ev.isRemoval && !changes.isEmpty then w.tbl.removeSel changes else .ok w.tbl
    .ok (W.lock x, env.put t x)

/-- `Read::select_rows` and `Read::select_all` (macros/output.rs:886-929): release the read lock and tell
the trackers. -/
def readSelect (cfg : Cfg S) (n : Nat) (t : T) (ev : Event) (sel : Select (List Nat)) (env : Env S) : R (Env S) := do
  let _ ← env.peek t
  let (_, env) ← doFlush cfg n t ev false false sel env
  .ok env

/-- One method call on a write lock. `other` stands for the structural operations of `Model/Ops.lean` that
do not touch the change list. -/
inductive LOp (S : Schema) where
  | push (row : Row S)
  | pushArray (rows : List (Row S))
  | delete (i : Nat)
  | clear
  | select (i : Nat)
  | selectAll
  | set (j : Fin (S.n + 1)) (i : Nat) (v : S.E j)
  | retain (f : Tbl S → Nat → Bool)
  | visit (f : Tbl S → Nat → Action (Row S))
  | merge (rows : List (Row S))
  | removeRows (ids : List Nat)

/-- Which methods exist on which kind of table (see `TOp.Allowed`). -/
def LOp.Allowed {S : Schema} (k : Kind) : LOp S → Prop
  | .push _ | .pushArray _ => k ≠ .sorted
  | .retain _ => k ≠ .consistent
  | .visit _ => k ≠ .consistent ∧ k ≠ .sorted
  | .merge _ | .removeRows _ => k = .sorted
  | _ => True

/-- Runs one method call. -/
def W.step {S : Schema} {K : Type} [LinearOrder K] (key : Row S → K) (w : W S) (op : LOp S) : R (W S) :=
  match op with
  | .push row => do let (w, _) ← w.push row; .ok w
  | .pushArray rows => do let (w, _) ← w.pushArray rows; .ok w
  | .delete i => w.deleteRow i
  | .clear => w.clear
  | .select i => .ok (w.select i)
  | .selectAll => .ok w.selectAll
  | .set j i v => w.setCell j i v
  | .retain f => do let x ← (TOp.retain f).run key w.tbl; .ok { w with tbl := x }
  | .visit f => do let x ← (TOp.visit f).run key w.tbl; .ok { w with tbl := x }
  | .merge rows => do let x ← (TOp.merge rows).run key w.tbl; .ok { w with tbl := x }
  | .removeRows ids => do let x ← (TOp.removeRows ids).run key w.tbl; .ok { w with tbl := x }

/-- Runs method calls in order. -/
def W.steps {S : Schema} {K : Type} [LinearOrder K] (key : Row S → K) (w : W S) (ops : List (LOp S)) : R (W S) :=
  ops.foldlM (W.step key) w

/-- `let mut x = t::write(universe); …ops…; x.flush(universe, ev);` -/
def session {K : Type} [LinearOrder K] (cfg : Cfg S) (n : Nat) (key : (t : T) → Row (S t) → K) (t : T) (ops : List (LOp (S t)))
    (ev : Event) (env : Env S) : R (Env S) := do
  let (w, env) ← env.lock t
  let w ← w.steps (key t) ops
  flush cfg n t w ev env

end
end V11
