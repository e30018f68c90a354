import Verif.Model.Universe

/-!
# A flush that is told another universe

`flush`, `live_flush`, `select_rows` and `select_all` are methods of a lock on a table of one universe and take
a `&Universe` that nothing ties to it (macros/output.rs:904-929, 932, 980). Here the lock belongs to the universe
`mine` and the universe passed is `other`. The trackers are those stored with the locked table
(`self._table.flush`, macros/output.rs:908, 923, 941, 987), here `own`; the event handlers and all tables that the
trackers reach are those of the universe passed (`cfg`). Both universes have the same tables. Calls of observers
are logged with the universe they were given, `other`. Not modelled: an `other` that lacks the table's domain, or
the remapping of a deserialised table (`live_flush`, macros/output.rs:1014-1019).
-/

namespace V11
variable {T : Type} [DecidableEq T] {S : T → Schema}

/-- `Flush::do_flush` (src/tracking.rs:248-288) of a table whose tracker list is `own`, told a universe with
configuration `cfg`. What the trackers call in turn uses that universe's own lists. -/
def doFlushOf (own : List (Tracker S)) (cfg : Cfg S) : Nat → FlushFn S
  | 0, _, _, _, _, _, _ => .error .stackOverflow
  | n + 1, t, ev, pushed, delete, sel, env =>
    if (pushed && delete) || (ev.isRemoval && ev.isCreation) then .error .interleaved
    else do
      let h ← cfg.handler ev
      let st ← own.foldlM (flushStep (doFlush cfg n) t ev h) ⟨sel, sel.isAll, env⟩
      .ok (st.sel, st.env)

/-- `Write::flush` (macros/output.rs:932-976) of a lock on table `t` of `mine`, told `other`. The lock is
released first (line 947); to remove rows the table is locked again by `write(universe)` (line 957): `other`'s. -/
def flushTo (own : List (Tracker S)) (cfg : Cfg S) (n : Nat) (t : T) (w : W (S t)) (ev : Event)
    (mine other : Env S) : R (Env S × Env S) :=
  let mine := mine.unlock t w.tbl
  if w.changes.isEmpty then .ok (mine, other)
  else do
    let (changes, other) ← doFlushOf own cfg n t ev w.pushed w.delete w.changes other
    if ev.isRemoval && !changes.isEmpty then do
      let (w, other) ← other.lock t
      let x ← w.tbl.removeSel changes
      .ok (mine, other.unlock t x)
    else .ok (mine, other)

/-- `Write::live_flush` (macros/output.rs:980-1023) of a lock on table `t` of `mine`, told `other`: rows are
removed through the lock itself. -/
def liveFlushTo (own : List (Tracker S)) (cfg : Cfg S) (n : Nat) (t : T) (w : W (S t)) (ev : Event)
    (mine other : Env S) : R (W (S t) × Env S × Env S) :=
  if w.changes.isEmpty then .ok (w, mine, other)
  else do
    let (changes, other) ← doFlushOf own cfg n t ev w.pushed w.delete w.changes other
    let x ← if ev.isRemoval && !changes.isEmpty then w.tbl.removeSel changes else .ok w.tbl
    .ok (W.lock x, mine.put t x, other)

/-- `Read::select_rows` and `Read::select_all` (macros/output.rs:886-929) of a lock on table `t` of `mine`, told
`other`. -/
def readSelectTo (own : List (Tracker S)) (cfg : Cfg S) (n : Nat) (t : T) (ev : Event) (sel : Select (List Nat))
    (mine other : Env S) : R (Env S × Env S) := do
  let _ ← mine.peek t
  let (_, other) ← doFlushOf own cfg n t ev false false sel other
  .ok (mine, other)

/-- `let mut x = t::write(mine); …ops…; x.flush(other, ev);` -/
def sessionTo {K : Type} [LinearOrder K] (own : List (Tracker S)) (cfg : Cfg S) (n : Nat) (key : (t : T) → Row (S t) → K)
    (t : T) (ops : List (LOp (S t))) (ev : Event) (mine other : Env S) : R (Env S × Env S) := do
  let (w, mine) ← mine.lock t
  let w ← w.steps (key t) ops
  flushTo own cfg n t w ev mine other

/-- `let mut x = t::write(mine); …ops…; x.live_flush(other, ev); drop(x);` -/
def liveSessionTo {K : Type} [LinearOrder K] (own : List (Tracker S)) (cfg : Cfg S) (n : Nat) (key : (t : T) → Row (S t) → K)
    (t : T) (ops : List (LOp (S t))) (ev : Event) (mine other : Env S) : R (Env S × Env S) := do
  let (w, mine) ← mine.lock t
  let w ← w.steps (key t) ops
  let (w, mine, other) ← liveFlushTo own cfg n t w ev mine other
  let x ← w.drop
  .ok (mine.unlock t x, other)

end V11
