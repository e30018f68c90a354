import Verif.Model.FlushPanic

/-!
# A flush that panics by itself

The functions of `Model/FlushPanic` again, with what the library's own panics leave: the table as the removal steps left it
(`Model/Crash`), and the locks that were poisoned (std: by dropping a write guard while panicking). A poisoned lock panics
when it is taken. What `ub`, `deadlock` and `stackOverflow` leave means nothing, as nothing comes after them.
-/

namespace V11
variable {T : Type} [DecidableEq T] {S : T → Schema}

/-- A universe and its poisoned locks. -/
structure PEnv (S : T → Schema) where
  env : Env S
  bad : T → Bool

/-- Code that runs in it. -/
def Pr (S : T → Schema) (α : Type) := PEnv S → PEnv S × R α

namespace Pr
variable {α β : Type}

/-- Returns. -/
def ret (a : α) : Pr S α := fun e => (e, .ok a)

/-- Panics. -/
def fail (p : Panic) : Pr S α := fun e => (e, .error p)

/-- One after the other; a panic is the end. -/
def andThen (x : Pr S α) (f : α → Pr S β) : Pr S β := fun e =>
  match x e with
  | (e, .ok a) => f a e
  | (e, .error p) => (e, .error p)

end Pr

/-- `gt.read().unwrap()`, dropped at once (e.g. src/event.rs:132, 137; macros/output.rs:1649-1651). -/
def gPeek (t : T) : Pr S (Tbl (S t)) := fun e =>
  if e.env.writer t = true then (e, .error .deadlock)
  else if e.bad t = true then (e, .error .poisoned)
  else (e, .ok (e.env.tbl t))

/-- `write(universe)` (macros/output.rs:1692-1695), work on the table, and the drop of the guard, by the end of the work or by
its panic, which poisons the lock. (The guard has no changes when the work panics: its destructor does not panic.) -/
def gWork [∀ t, LeavesSchema (S t)] (t : T) (work : Cr (S t) Unit) : Pr S Unit := fun e =>
  if e.env.reads t ≠ 0 ∨ e.env.writer t = true then (e, .error .deadlock)
  else if e.bad t = true then (e, .error .poisoned)
  else
    match work (e.env.tbl t) with
    | (x, .ok _) => ({ e with env := e.env.put t x }, .ok ())
    | (x, .error p) => ({ env := e.env.put t x, bad := Function.update e.bad t true }, .error p)

/-- `do_flush`, as code that may panic. -/
abbrev GFlushFn (S : T → Schema) := T → Event → Bool → Bool → Select (List Nat) → Pr S (Select (List Nat))

variable [∀ t, LeavesSchema (S t)]

/-- `Write::flush` from where its lock has been released (macros/output.rs:946-970). -/
def gTell (doFlush : GFlushFn S) (t : T) (pushed delete : Bool) (changes : Select (List Nat)) (ev : Event) : Pr S Unit :=
  (doFlush t ev pushed delete changes).andThen fun changes =>
    if ev.isRemoval && !changes.isEmpty then gWork t (Cr.removeSel changes) else Pr.ret ()

/-- What `Table::remove_rows` does to the table before it flushes (consistent macros/output.rs:347-375, sorted 379-397). -/
def gRemovePart (t : T) (rows : Select (List Nat)) : Cr (S t) Unit :=
  match (S t).kind, rows with
  | .consistent, .these rows => Cr.removeSel (.these rows)
  | .sorted, .these rows => Cr.removeRows rows
  | _, .all => Cr.clearRaw
  | _, _ => Cr.fail .notRemovable

/-- `Table::remove_rows` (consistent macros/output.rs:347-375, sorted 379-397, other 446-450). Nothing is left to flush, except
that a consistent table that has been emptied is marked as cleared (370, 1179-1182). -/
def gTableRemoveRows (doFlush : GFlushFn S) (t : T) (ev : Event) (rows : Select (List Nat)) : Pr S Unit :=
  if (S t).kind = .consistent ∨ (S t).kind = .sorted then
    (gWork t (gRemovePart t rows)).andThen fun _ =>
      if (S t).kind = .consistent ∧ rows.isAll = true then gTell doFlush t false true .all ev else Pr.ret ()
  else Pr.fail .notRemovable

/-- `needs_sort` (src/event.rs:125, 131-134, 145). -/
def gNeedsSort (h : Handler) (t : T) : Pr S Bool :=
  match h with
  | .delete => (gPeek t).andThen fun _ => Pr.ret (decide ((S t).kind = .sorted))
  | _ => Pr.ret false

/-- `Function::handle` of the provided handlers (src/event.rs:126-153). -/
def gHandlerHandle (doFlush : GFlushFn S) (h : Handler) (t : T) (ev : Event) (rows : Select (List Nat)) : Pr S Unit :=
  match h with
  | .null => Pr.ret ()
  | .delete => (gPeek t).andThen fun _ => gTableRemoveRows doFlush t ev rows
  | .panicking => Pr.fail .noHandler

/-- Under a read guard of `t` (src/event.rs:107-117), which is dropped also by a panic and then poisons nothing. -/
def gUnderRead {α : Type} (t : T) (x : Pr S α) : Pr S Unit := fun e =>
  if e.env.writer t = true then (e, .error .deadlock)
  else if e.bad t = true then (e, .error .poisoned)
  else
    match x { e with env := { e.env with reads := Function.update e.env.reads t (e.env.reads t + 1) } } with
    | (e, .ok _) => ({ e with env := e.env.releaseRead t }, .ok ())
    | (e, .error p) => ({ e with env := e.env.releaseRead t }, .error p)

/-- `Function::run` (src/event.rs:100-119). -/
def gHandlerRun (doFlush : GFlushFn S) (h : Handler) (t : T) (ev : Event) (rows : Select (List Nat)) : Pr S Unit :=
  (gNeedsSort h t).andThen fun s =>
    (gHandlerHandle doFlush h t ev (if s then rows.sort else rows)).andThen fun _ =>
      gUnderRead t (doFlush t ev ev.isCreation ev.isRemoval (if s then rows.sort else rows))

/-- The selection of a `foreign_auto` tracker (macros/output.rs:1131-1139), under a read guard. -/
def gSelect (fk : FK S) (rows : Select (List Nat)) : Pr S (Select (List Nat)) :=
  (gPeek fk.child).andThen fun x =>
    match fk.select x rows with
    | .ok sel => Pr.ret sel
    | .error p => Pr.fail p

/-- `Tracker::handle` (macros/output.rs:1131-1140); an observer is called, and may panic. -/
def gTrackerHandle (boom : Boom S) (doFlush : GFlushFn S) (p : T) (tr : Tracker S) (ev : Event) (rows : Select (List Nat)) (h : Handler) :
    Pr S Unit :=
  match tr with
  | .auto fk => (gSelect fk rows).andThen fun sel => gHandlerRun doFlush h fk.child ev sel
  | .observer o => fun e =>
    let env : Env S := { e.env with log := e.env.log ++ [⟨p, o.name, ev, rows, e.env.tbl⟩] }
    match boom env.log with
    | none => ({ e with env := env }, .ok ())
    | some p => ({ e with env := env }, .error p)

/-- One iteration of the loop over the trackers (src/tracking.rs:263-275). -/
def gFlushStep (boom : Boom S) (doFlush : GFlushFn S) (p : T) (ev : Event) (h : Handler) (st : Select (List Nat) × Bool) (tr : Tracker S) :
    Pr S (Select (List Nat) × Bool) :=
  if tr.considers ev = false then Pr.ret st
  else
    let st : Select (List Nat) × Bool := if !st.2 && tr.sort then (st.1.sort, true) else st
    (gTrackerHandle boom doFlush p tr ev st.1 h).andThen fun _ => Pr.ret st

/-- The loop. -/
def gFlushLoop (boom : Boom S) (doFlush : GFlushFn S) (p : T) (ev : Event) (h : Handler) :
    List (Tracker S) → Select (List Nat) × Bool → Pr S (Select (List Nat) × Bool)
  | [], st => Pr.ret st
  | tr :: trs, st => (gFlushStep boom doFlush p ev h st tr).andThen fun st => gFlushLoop boom doFlush p ev h trs st

/-- `Flush::do_flush` (src/tracking.rs:248-288) with a recursion budget. -/
def gDoFlush (cfg : Cfg S) (boom : Boom S) : Nat → GFlushFn S
  | 0, _, _, _, _, _ => Pr.fail .stackOverflow
  | n + 1, t, ev, pushed, delete, sel =>
    if (pushed && delete) || (ev.isRemoval && ev.isCreation) then Pr.fail .interleaved
    else
      match cfg.handler ev with
      | .error p => Pr.fail p
      | .ok h => (gFlushLoop boom (gDoFlush cfg boom n) t ev h (cfg.trackers t) (sel, sel.isAll)).andThen fun st => Pr.ret st.1

/-- `table.flush(universe, event)` (macros/output.rs:932-976) of a lock holding `w`: the lock is released before anything can panic. -/
def gFlush (cfg : Cfg S) (boom : Boom S) (n : Nat) (t : T) (w : W (S t)) (ev : Event) : Pr S Unit := fun e =>
  if w.changes.isEmpty then ({ e with env := e.env.unlock t w.tbl }, .ok ())
  else gTell (gDoFlush cfg boom n) t w.pushed w.delete w.changes ev { e with env := e.env.unlock t w.tbl }

/-- `table.live_flush(universe, event)` (macros/output.rs:980-1023) of a lock holding `w`, which is kept; a panic goes on to drop it, and so
poisons it (the change list was taken out before, at 986, so the destructor does not panic). Remappings are in `Model/Serial.lean`. -/
def gLiveFlush (cfg : Cfg S) (boom : Boom S) (n : Nat) (t : T) (w : W (S t)) (ev : Event) : Pr S (W (S t)) := fun e =>
  if w.changes.isEmpty then (e, .ok w)
  else
    match gDoFlush cfg boom n t ev w.pushed w.delete w.changes { e with env := e.env.put t w.tbl } with
    | (e, .error p) => ({ env := e.env.unlock t w.tbl, bad := Function.update e.bad t true }, .error p)
    | (e, .ok changes) =>
      if ev.isRemoval && !changes.isEmpty then
        match Cr.removeSel changes w.tbl with
        | (x, .ok _) => ({ e with env := e.env.put t x }, .ok (W.lock x))
        | (x, .error p) => ({ env := e.env.unlock t x, bad := Function.update e.bad t true }, .error p)
      else ({ e with env := e.env.put t w.tbl }, .ok (W.lock w.tbl))

end V11
