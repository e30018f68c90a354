import Verif.Model.Universe
import Verif.Model.Crash

/-!
# Flushing with trackers and handlers of any kind

`Model/Universe` knows the derived trackers, observers and the provided handlers. Here a tracker or handler is any code:
it may change the universe in any way, and may panic half way. `Props/Custom` shows that `Model/Universe` is an instance.
-/

namespace V11
variable {T : Type} [DecidableEq T] {S : T → Schema}

/-- Code that runs in a universe: what it makes of the universe, and its result or panic. -/
def Xr (S : T → Schema) (α : Type) := Env S → Env S × R α

namespace Xr
variable {α β : Type}

/-- Returns. -/
def ret (a : α) : Xr S α := fun env => (env, .ok a)

/-- One after the other; a panic is the end. -/
def andThen (x : Xr S α) (f : α → Xr S β) : Xr S β := fun env =>
  match x env with
  | (env, .ok a) => f a env
  | (env, .error p) => (env, .error p)

instance : Monad (Xr S) where
  pure := ret
  bind := andThen

/-- Panics. -/
def fail (p : Panic) : Xr S α := fun env => (env, .error p)

/-- A step of `Model/Universe`, which either succeeds or is taken to leave the universe alone. -/
def step (f : Env S → R (Env S)) : Xr S Unit := fun env =>
  match f env with
  | .ok env' => (env', .ok ())
  | .error p => (env, .error p)

end Xr

/-- A `Function` (src/event.rs:80-97). `needs_sort` is taken to change nothing. -/
structure XHandler (S : T → Schema) where
  needsSort : T → Env S → R Bool
  handle : T → Event → Select (List Nat) → Xr S Unit

/-- A `Tracker` (src/tracking.rs:167-220). `consider` and `sort` are taken to be functions of the tracker. -/
structure XTracker (S : T → Schema) where
  considers : Event → Bool
  sort : Bool
  handle : Event → Select (List Nat) → XHandler S → Xr S Unit

/-- The trackers of each table and the handlers (src/tracking.rs:226, src/event.rs:157-159). -/
structure XCfg (S : T → Schema) where
  trackers : T → List (XTracker S)
  handlers : List (XHandler S)

/-- `EventHandlers::get` (src/event.rs:192-194). -/
def XCfg.handler (cfg : XCfg S) (ev : Event) : R (XHandler S) :=
  match cfg.handlers[ev.id]? with
  | some h => .ok h
  | none => .error .vecOob

/-- One iteration of the loop over the trackers (src/tracking.rs:263-275). -/
def xFlushStep (ev : Event) (h : XHandler S) (st : Select (List Nat) × Bool) (tr : XTracker S) : Xr S (Select (List Nat) × Bool) :=
  if tr.considers ev = false then Xr.ret st
  else
    let st : Select (List Nat) × Bool := if !st.2 && tr.sort then (st.1.sort, true) else st
    (tr.handle ev st.1 h).andThen fun _ => Xr.ret st

/-- The loop over the trackers. -/
def xFlushLoop (ev : Event) (h : XHandler S) : List (XTracker S) → Select (List Nat) × Bool → Xr S (Select (List Nat) × Bool)
  | [], st => Xr.ret st
  | tr :: trs, st => (xFlushStep ev h st tr).andThen fun st => xFlushLoop ev h trs st

/-- The `include_self` part of `do_flush` (src/tracking.rs:277-285). -/
def xFlushSelf (t : T) (ev : Event) (h : XHandler S) (st : Select (List Nat) × Bool) : Xr S (Select (List Nat)) := fun env =>
  match (if st.2 then .ok false else h.needsSort t env) with
  | .error p => (env, .error p)
  | .ok s =>
    let sel := if s then st.1.sort else st.1
    (h.handle t ev sel).andThen (fun _ => Xr.ret sel) env

/-- `Flush::do_flush` (src/tracking.rs:248-288). -/
def xDoFlush (cfg : XCfg S) (t : T) (ev : Event) (pushed delete : Bool) (sel : Select (List Nat)) (includeSelf : Bool) :
    Xr S (Select (List Nat)) :=
  if (pushed && delete) || (ev.isRemoval && ev.isCreation) then Xr.fail .interleaved
  else
    match cfg.handler ev with
    | .error p => Xr.fail p
    | .ok h =>
      (xFlushLoop ev h (cfg.trackers t) (sel, sel.isAll)).andThen fun st =>
        if includeSelf then xFlushSelf t ev h st else Xr.ret st.1

/-- The removal at the end of `flush` (macros/output.rs:955-969): the lock is taken, the rows go, the lock is released —
also by a panic in the middle, which leaves the rows removed so far (that the lock is then poisoned is not shown). -/
def xRemove (t : T) [LeavesSchema (S t)] (sel : Select (List Nat)) : Xr S Unit := fun env =>
  match env.lock t with
  | .error p => (env, .error p)
  | .ok (w, env) =>
    match Cr.removeSel sel w.tbl with
    | (x, r) => (env.unlock t x, r)

/-- `Write::flush` (macros/output.rs:932-976) of a lock on `t` that holds `w`. -/
def xFlush (cfg : XCfg S) (t : T) [LeavesSchema (S t)] (w : W (S t)) (ev : Event) : Xr S Unit := fun env =>
  let env := env.unlock t w.tbl
  if w.changes.isEmpty then (env, .ok ())
  else
    (xDoFlush cfg t ev w.pushed w.delete w.changes false).andThen
      (fun changes => if ev.isRemoval && !changes.isEmpty then xRemove t changes else Xr.ret ()) env

/-- `Write::live_flush` (macros/output.rs:980-1023; for the remapping see `Model/Serial`). The lock is kept, so this says
what `w` it holds afterwards. The change list was taken out before (986), so a panic leaves it empty, but `_pushed` and
`_delete` as they were (1019-1020 are not reached). -/
def xLiveFlush (cfg : XCfg S) (t : T) [LeavesSchema (S t)] (w : W (S t)) (ev : Event) (env : Env S) : Env S × W (S t) × R Unit :=
  if w.changes.isEmpty then (env, w, .ok ())
  else
    match xDoFlush cfg t ev w.pushed w.delete w.changes false (env.put t w.tbl) with
    | (env, .error p) => (env, { w with changes := .these [] }, .error p)
    | (env, .ok changes) =>
      match (if ev.isRemoval && !changes.isEmpty then Cr.removeSel changes w.tbl else (w.tbl, .ok ())) with
      | (x, .error p) => (env.put t x, { w with tbl := x, changes := .these [] }, .error p)
      | (x, .ok _) => (env.put t x, W.lock x, .ok ())

/-- `Function::run` (src/event.rs:100-119), which trackers call to pass rows on: the handler treats the rows, then the
table's own trackers are told, under a read lock. -/
def xRun (cfg : XCfg S) (h : XHandler S) (t : T) (ev : Event) (rows : Select (List Nat)) : Xr S Unit := fun env =>
  match h.needsSort t env with
  | .error p => (env, .error p)
  | .ok s =>
    let rows := if s then rows.sort else rows
    match h.handle t ev rows env with
    | (env, .error p) => (env, .error p)
    | (env, .ok _) =>
      match env.acquireRead t with
      | .error p => (env, .error p)
      | .ok env =>
        match xDoFlush cfg t ev ev.isCreation ev.isRemoval rows false env with
        | (env, .error p) => (env.releaseRead t, .error p)
        | (env, .ok _) => (env.releaseRead t, .ok ())

/-- The handlers of `Model/Universe` as code (src/event.rs:123-153), with recursion budget `n`. -/
def Handler.code (cfg : Cfg S) (n : Nat) (h : Handler) : XHandler S where
  needsSort := handlerNeedsSort h
  handle t ev rows := Xr.step (handlerHandle (doFlush cfg n) h t ev rows)

/-- The trackers of `Model/Universe` as code (macros/output.rs:1131-1140): they get the handler that belongs to the event. -/
def Tracker.code (cfg : Cfg S) (n : Nat) (p : T) (tr : Tracker S) : XTracker S where
  considers := tr.considers
  sort := tr.sort
  handle ev rows _ := Xr.step fun env =>
    match cfg.handler ev with
    | .ok h => trackerHandle (doFlush cfg n) p tr ev rows h env
    | .error p => .error p

/-- A universe of `Model/Universe` as a universe of arbitrary code. -/
def Cfg.code (cfg : Cfg S) (n : Nat) : XCfg S where
  trackers p := (cfg.trackers p).map (Tracker.code cfg n p)
  handlers := cfg.handlers.map (Handler.code cfg n)

end V11
