import Verif.Model.ViewFail
import Verif.Model.Unwind

/-!
# A program that catches its panics

One thread uses a universe and catches every panic (or its threads, one after the other, end by it). A panic under a write lock poisons it, and ends the process if
there is something to flush (`Model/Unwind`); a panic in a flush leaves what `Model/FlushFail` says.
-/

namespace V11
variable {T : Type} [DecidableEq T] {S : T → Schema}

/-- Calls on a write lock of `t`, and then a `live_flush`, or `as_read().select_rows` of the rows `view`, with the trackers as `boom` says. -/
structure Part (S : T → Schema) (t : T) where
  ops : List (UOp (S t))
  view : Option (Select (List Nat))
  ev : Event
  boom : Boom S

/-- What the program does next. -/
inductive Deed (S : T → Schema) where
  /-- `let mut x = t::write(universe);`, then for each part its calls and `x.live_flush(universe, ev)` or `x.as_read().select_rows(universe, ev, …)`, then
  `…ops…; x.flush(universe, ev);` -/
  | write (t : T) (parts : List (Part S t)) (ops : List (UOp (S t))) (ev : Event) (boom : Boom S)
  /-- `t::read(universe).select_rows(universe, ev, sel)` -/
  | tell (t : T) (sel : Select (List Nat)) (ev : Event) (boom : Boom S)

variable [∀ t, LeavesSchema (S t)] {K : Type} [LinearOrder K]

/-- What a part does after its calls; `none` if the process ends. -/
def Part.act (cfg : Cfg S) (n : Nat) (t : T) (p : Part S t) (w : W (S t)) (e : PEnv S) : Option (PEnv S × R (W (S t))) :=
  match p.view with
  | none => some (gLiveFlush cfg p.boom n t w p.ev e)
  | some sel => gViewSelect cfg p.boom n t w p.ev sel e

/-- The parts of a session; `none` if the process ends. -/
def Part.runs (key : (t : T) → Row (S t) → K) (cfg : Cfg S) (n : Nat) (t : T) :
    List (Part S t) → W (S t) → PEnv S → Option (PEnv S × R (W (S t)))
  | [], w, e => some (e, .ok w)
  | p :: ps, w, e =>
    match w.use (key t) p.ops with
    | .aborted _ => none
    | .unwound q x => some (e.dropped t x, .error q)
    | .held w =>
      match p.act cfg n t w e with
      | none => none
      | some (e, .error q) => some (e, .error q)
      | some (e, .ok w) => Part.runs key cfg n t ps w e

/-- Does it; `none` if the process ends. -/
def Deed.run (key : (t : T) → Row (S t) → K) (cfg : Cfg S) (n : Nat) : Deed S → PEnv S → Option (PEnv S × R Unit)
  | .write t parts ops ev boom, e =>
    -- macros/output.rs:1692-1695, 1666-1689
    if e.env.reads t ≠ 0 ∨ e.env.writer t = true then some (e, .error .deadlock)
    else if e.bad t = true then some (e, .error .poisoned)
    else
      match Part.runs key cfg n t parts (W.lock (e.env.tbl t)) { e with env := { e.env with writer := Function.update e.env.writer t true } } with
      | none => none
      | some (e, .error p) => some (e, .error p)
      | some (e, .ok w) =>
        match w.use (key t) ops with
        | .held w => some (gFlush cfg boom n t w ev e)
        | .unwound p x => some (e.dropped t x, .error p)
        | .aborted _ => none
  | .tell t sel ev boom, e =>
    -- macros/output.rs:904-929
    some (((gPeek t).andThen fun _ => (gDoFlush cfg boom n t ev false false sel).andThen fun _ => Pr.ret ()) e)

/-- One after the other, catching the panics, with what each came to; `none` if the process ends. -/
def Deed.runs (key : (t : T) → Row (S t) → K) (cfg : Cfg S) (n : Nat) : List (Deed S) → PEnv S → Option (PEnv S × List (R Unit))
  | [], e => some (e, [])
  | d :: ds, e =>
    match d.run key cfg n e with
    | none => none
    | some (e, .ok a) => (Deed.runs key cfg n ds e).map fun x => (x.1, .ok a :: x.2)
    | some (e, .error p) => if p.isEnd then none else (Deed.runs key cfg n ds e).map fun x => (x.1, .error p :: x.2)

end V11
