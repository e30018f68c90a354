import Verif.Model.Custom

/-!
# A tracker that panics in the middle of a flush

The functions of `Model/Universe` again, for universes whose observers may panic: what is left of the universe when the
panic reaches the caller. Guards are dropped on the way: read guards and the guards on `Flush` do not poison (std), and no
write guard is out while trackers run, except in `live_flush`. A panic of the removal steps themselves cannot happen here
without happening in `Model/Universe` too; it is taken to leave the table as it was (C70, C75 say more).
-/

namespace V11
variable {T : Type} [DecidableEq T] {S : T → Schema}

/-- When observers panic: given all the calls so far, the last being the one under way. -/
abbrev Boom (S : T → Schema) := List (Call S) → Option Panic

/-- `do_flush`, as code that may panic. -/
abbrev KFlushFn (S : T → Schema) := T → Event → Bool → Bool → Select (List Nat) → Xr S (Select (List Nat))

/-- The removal at the end of `flush` (macros/output.rs:957-969). -/
def kRemove (t : T) (sel : Select (List Nat)) : Xr S Unit := fun env =>
  match env.lock t with
  | .error p => (env, .error p)
  | .ok (w, env) =>
    match w.tbl.removeSel sel with
    | .error p => (env.unlock t w.tbl, .error p)
    | .ok x => (env.unlock t x, .ok ())

/-- `Write::flush` (macros/output.rs:932-976), on a lock holding `w`, which is released first. -/
def kFlushWith (doFlush : KFlushFn S) (t : T) (w : W (S t)) (ev : Event) : Xr S Unit := fun env =>
  if w.changes.isEmpty then (env.unlock t w.tbl, .ok ())
  else
    (doFlush t ev w.pushed w.delete w.changes).andThen
      (fun changes => if ev.isRemoval && !changes.isEmpty then kRemove t changes else Xr.ret ()) (env.unlock t w.tbl)

/-- What `Table::remove_rows` does to the table before it flushes (consistent macros/output.rs:347-375, sorted 379-397, other
446-450), as in `tableRemoveRows`. -/
def removePart (t : T) (rows : Select (List Nat)) (w : W (S t)) : R (W (S t)) :=
  match (S t).kind, rows with
  | .consistent, .these rows => do
    let x ← w.tbl.deleteLoop w.tbl.len rows
    .ok { w with tbl := x }
  | .sorted, .these rows => do
    let x ← w.tbl.removeRows rows
    .ok { w with tbl := x }
  | _, .all => do
    let x ← w.tbl.clearRaw
    ({ w with tbl := x } : W (S t)).clear
  | _, _ => .error .notRemovable

/-- `Table::remove_rows`. -/
def kTableRemoveRows (doFlush : KFlushFn S) (t : T) (ev : Event) (rows : Select (List Nat)) : Xr S Unit := fun env =>
  if (S t).kind = .consistent ∨ (S t).kind = .sorted then
    match env.lock t with
    | .error p => (env, .error p)
    | .ok (w, env) =>
      match removePart t rows w with
      | .error p => (env.unlock t w.tbl, .error p)
      | .ok w => kFlushWith doFlush t w ev env
  else (env, .error .notRemovable)

/-- `Function::handle` of the provided handlers (src/event.rs:126-153). -/
def kHandlerHandle (doFlush : KFlushFn S) (h : Handler) (t : T) (ev : Event) (rows : Select (List Nat)) : Xr S Unit :=
  match h with
  | .null => Xr.ret ()
  | .delete => fun env =>
    match env.peek t with
    | .error p => (env, .error p)
    | .ok _ => kTableRemoveRows doFlush t ev rows env
  | .panicking => Xr.fail .noHandler

/-- `Function::run` (src/event.rs:100-119): the read guard is dropped also by a panic. -/
def kHandlerRun (doFlush : KFlushFn S) (h : Handler) (t : T) (ev : Event) (rows : Select (List Nat)) : Xr S Unit := fun env =>
  match handlerNeedsSort h t env with
  | .error p => (env, .error p)
  | .ok s =>
    match kHandlerHandle doFlush h t ev (if s then rows.sort else rows) env with
    | (env, .error p) => (env, .error p)
    | (env, .ok _) =>
      match env.acquireRead t with
      | .error p => (env, .error p)
      | .ok env =>
        match doFlush t ev ev.isCreation ev.isRemoval (if s then rows.sort else rows) env with
        | (env, .error p) => (env.releaseRead t, .error p)
        | (env, .ok _) => (env.releaseRead t, .ok ())

/-- `Tracker::handle` (macros/output.rs:1131-1140); an observer is called, and may panic. -/
def kTrackerHandle (boom : Boom S) (doFlush : KFlushFn S) (p : T) (tr : Tracker S) (ev : Event) (rows : Select (List Nat)) (h : Handler) :
    Xr S Unit := fun env =>
  match tr with
  | .auto fk =>
    match env.peek fk.child with
    | .error p => (env, .error p)
    | .ok x =>
      match fk.select x rows with
      | .error p => (env, .error p)
      | .ok sel => kHandlerRun doFlush h fk.child ev sel env
  | .observer o =>
    let env : Env S := { env with log := env.log ++ [⟨p, o.name, ev, rows, env.tbl⟩] }
    match boom env.log with
    | none => (env, .ok ())
    | some p => (env, .error p)

/-- One iteration of the loop over the trackers (src/tracking.rs:263-275). -/
def kFlushStep (boom : Boom S) (doFlush : KFlushFn S) (p : T) (ev : Event) (h : Handler) (st : Select (List Nat) × Bool) (tr : Tracker S) :
    Xr S (Select (List Nat) × Bool) :=
  if tr.considers ev = false then Xr.ret st
  else
    let st : Select (List Nat) × Bool := if !st.2 && tr.sort then (st.1.sort, true) else st
    (kTrackerHandle boom doFlush p tr ev st.1 h).andThen fun _ => Xr.ret st

/-- The loop. -/
def kFlushLoop (boom : Boom S) (doFlush : KFlushFn S) (p : T) (ev : Event) (h : Handler) :
    List (Tracker S) → Select (List Nat) × Bool → Xr S (Select (List Nat) × Bool)
  | [], st => Xr.ret st
  | tr :: trs, st => (kFlushStep boom doFlush p ev h st tr).andThen fun st => kFlushLoop boom doFlush p ev h trs st

/-- `Flush::do_flush` (src/tracking.rs:248-288) with a recursion budget. -/
def kDoFlush (cfg : Cfg S) (boom : Boom S) : Nat → KFlushFn S
  | 0, _, _, _, _, _ => Xr.fail .stackOverflow
  | n + 1, t, ev, pushed, delete, sel =>
    if (pushed && delete) || (ev.isRemoval && ev.isCreation) then Xr.fail .interleaved
    else
      match cfg.handler ev with
      | .error p => Xr.fail p
      | .ok h => (kFlushLoop boom (kDoFlush cfg boom n) t ev h (cfg.trackers t) (sel, sel.isAll)).andThen fun st => Xr.ret st.1

/-- `table.flush(universe, event)` (macros/output.rs:932-976). -/
def kFlush (cfg : Cfg S) (boom : Boom S) (n : Nat) (t : T) (w : W (S t)) (ev : Event) : Xr S Unit :=
  kFlushWith (kDoFlush cfg boom n) t w ev

/-- `Write::live_flush` (macros/output.rs:980-1023): the lock is kept, and this says what it holds. The change list was taken
out before the trackers are called (986). -/
def kLiveFlush (cfg : Cfg S) (boom : Boom S) (n : Nat) (t : T) (w : W (S t)) (ev : Event) (env : Env S) : Env S × W (S t) × R Unit :=
  if w.changes.isEmpty then (env, w, .ok ())
  else
    match kDoFlush cfg boom n t ev w.pushed w.delete w.changes (env.put t w.tbl) with
    | (env, .error p) => (env, { w with changes := .these [] }, .error p)
    | (env, .ok changes) =>
      match (if ev.isRemoval && !changes.isEmpty then w.tbl.removeSel changes else .ok w.tbl) with
      | .error p => (env, { w with changes := .these [] }, .error p)
      | .ok x => (env.put t x, W.lock x, .ok ())

/-- `Read::select_rows`, `Read::select_all` (macros/output.rs:886-929). -/
def kReadSelect (cfg : Cfg S) (boom : Boom S) (n : Nat) (t : T) (ev : Event) (sel : Select (List Nat)) : Xr S Unit := fun env =>
  match env.peek t with
  | .error p => (env, .error p)
  | .ok _ => (kDoFlush cfg boom n t ev false false sel).andThen (fun _ => Xr.ret ()) env

/-- `let mut x = t::write(universe); …ops…; x.flush(universe, ev);`. If the operations panic the lock is dropped: what that
leaves is not shown here (C79). -/
def kSession {K : Type} [LinearOrder K] (cfg : Cfg S) (boom : Boom S) (n : Nat) (key : (t : T) → Row (S t) → K) (t : T)
    (ops : List (LOp (S t))) (ev : Event) : Xr S Unit := fun env =>
  match env.lock t with
  | .error p => (env, .error p)
  | .ok (w, env1) =>
    match w.steps (key t) ops with
    | .error p => (env, .error p)
    | .ok w => kFlush cfg boom n t w ev env1

end V11
