import Verif.Model.Serial

/-!
# Threads

The functions of `Model/Universe.lean` and `Model/Serial.lean` again, as programs whose every lock request, lock release
and table access is a step of its own, and the interleaving of any number of such programs. Run alone, the programs are
the functions of those modules (theorems `C64_…` in `Props/Threads.lean`).

There are two `RwLock`s per table: the one around `GenericTable` (src/tables.rs:60) and the one around its `Flush`
(`GuardedFlush`, src/tracking.rs:222). Trackers and event handlers are fixed (`Cfg`).
-/

namespace V11
variable {T : Type} {S : T → Schema}

/-- A lock: of a table, or of a table's `Flush`. -/
inductive Lk (T : Type) where
  | tbl (t : T)
  | fl (t : T)
deriving DecidableEq

/-- How it is taken. -/
inductive Mode where
  | rd | wr
deriving DecidableEq

/-- Why `try_read` or `try_write` gave no guard (std `TryLockError`). -/
inductive TryErr where
  | wouldBlock | poisoned
deriving DecidableEq

/-- What a thread still has to do. -/
inductive Prog (S : T → Schema) (α : Type) where
  /-- finished -/
  | ret (a : α)
  /-- panics -/
  | fail (p : Panic)
  /-- `.read().unwrap()` or `.write().unwrap()` -/
  | acq (l : Lk T) (m : Mode) (k : Prog S α)
  /-- `try_read` or `try_write` of a table (macros/output.rs:1659-1662, 1702-1705); the guard inside a poison error is
  dropped -/
  | att (t : T) (m : Mode) (yes : Prog S α) (no : TryErr → Prog S α)
  /-- a guard is dropped -/
  | rel (l : Lk T) (m : Mode) (k : Prog S α)
  /-- the rows are looked at through a guard -/
  | get (t : T) (k : Tbl (S t) → Prog S α)
  /-- the rows are changed through a write guard -/
  | put (t : T) (x : Tbl (S t)) (k : Prog S α)
  /-- the remapping is looked at through a guard -/
  | getF (t : T) (k : FlushLock → Prog S α)
  /-- the remapping is changed through a write guard -/
  | putF (t : T) (f : FlushLock) (k : Prog S α)
  /-- `mem::forget` of a read guard on a `Flush` (macros/output.rs:1014) -/
  | forget (t : T) (k : Prog S α)
  /-- an observer is called -/
  | see (p : T) (name : Nat) (ev : Event) (rows : Select (List Nat)) (k : Prog S α)

namespace Prog
variable {α β : Type}

/-- `let x = p; f(x)`. -/
def bind : Prog S α → (α → Prog S β) → Prog S β
  | .ret a, f => f a
  | .fail p, _ => .fail p
  | .acq l m k, f => .acq l m (k.bind f)
  | .att t m yes no, f => .att t m (yes.bind f) (fun e => (no e).bind f)
  | .rel l m k, f => .rel l m (k.bind f)
  | .get t k, f => .get t (fun x => (k x).bind f)
  | .put t x k, f => .put t x (k.bind f)
  | .getF t k, f => .getF t (fun x => (k x).bind f)
  | .putF t x k, f => .putF t x (k.bind f)
  | .forget t k, f => .forget t (k.bind f)
  | .see p o ev rows k, f => .see p o ev rows (k.bind f)

instance : Monad (Prog S) where
  pure := .ret
  bind := .bind

/-- A computation that touches only what this thread owns. -/
def ofR : R α → Prog S α
  | .ok a => .ret a
  | .error p => .fail p

/-- Takes a lock. -/
def lock (l : Lk T) (m : Mode) : Prog S Unit := .acq l m (.ret ())

/-- Drops a guard. -/
def unlock (l : Lk T) (m : Mode) : Prog S Unit := .rel l m (.ret ())

end Prog

section
open Prog
variable [DecidableEq T]

/-- `write(universe)` (macros/output.rs:1692-1694). -/
def lockP (t : T) : Prog S (W (S t)) := .acq (.tbl t) .wr (.get t (fun x => .ret (W.lock x)))

/-- Drop of a write guard: what was done through it stays. -/
def unlockP (t : T) (x : Tbl (S t)) : Prog S Unit := .put t x (.rel (.tbl t) .wr (.ret ()))

/-- A read guard that lives for one statement. -/
def peekP (t : T) : Prog S (Tbl (S t)) := .acq (.tbl t) .rd (.get t (fun x => .rel (.tbl t) .rd (.ret x)))

/-- The signature of `do_flush` (src/tracking.rs:248-256). -/
abbrev FlushProg (S : T → Schema) := T → Event → Bool → Bool → Select (List Nat) → Prog S (Select (List Nat))

/-- `Write::flush` (macros/output.rs:932-976): the guard on the table is dropped (947), the guard on the `Flush` is a
temporary of the statement 949-956, and the table is locked again to remove rows (959). -/
def flushWithP (doFlush : FlushProg S) (t : T) (w : W (S t)) (ev : Event) : Prog S Unit :=
  if w.changes.isEmpty then unlockP t w.tbl
  else do
    unlockP t w.tbl
    lock (.fl t) .rd
    let changes ← doFlush t ev w.pushed w.delete w.changes
    unlock (.fl t) .rd
    if ev.isRemoval && !changes.isEmpty then do
      let w ← lockP t
      let x ← ofR (w.tbl.removeSel changes)
      unlockP t x
    else .ret ()

/-- `Table::remove_rows` (consistent macros/output.rs:347-375, sorted 379-397, other 446-450). -/
def tableRemoveRowsP (doFlush : FlushProg S) (t : T) (ev : Event) (rows : Select (List Nat)) : Prog S Unit :=
  match (S t).kind with
  | .consistent => do
    let w ← lockP t
    match rows with
    | .these rows => do
      let x ← ofR (w.tbl.deleteLoop w.tbl.len rows)
      flushWithP doFlush t { w with tbl := x } ev
    | .all => do
      let x ← ofR w.tbl.clearRaw
      let w ← ofR ({ w with tbl := x } : W (S t)).clear
      flushWithP doFlush t w ev
  | .sorted => do
    let w ← lockP t
    match rows with
    | .these rows => do
      let x ← ofR (w.tbl.removeRows rows)
      flushWithP doFlush t { w with tbl := x } ev
    | .all => do
      let x ← ofR w.tbl.clearRaw
      let w ← ofR ({ w with tbl := x } : W (S t)).clear
      flushWithP doFlush t w ev
  | _ => .fail .notRemovable

/-- `Function::handle` of the provided handlers (src/event.rs:126-153). -/
def handlerHandleP (doFlush : FlushProg S) (h : Handler) (t : T) (ev : Event) (rows : Select (List Nat)) : Prog S Unit :=
  match h with
  | .null => .ret ()
  | .delete => do
    let _ ← peekP t
    tableRemoveRowsP doFlush t ev rows
  | .panicking => .fail .noHandler

/-- `needs_sort` (src/event.rs:125, 131-134, 145). -/
def handlerNeedsSortP (h : Handler) (t : T) : Prog S Bool :=
  match h with
  | .delete => do
    let _ ← peekP t
    .ret ((S t).kind = .sorted)
  | _ => .ret false

/-- `Function::run` (src/event.rs:100-119): the guards on the table and on its `Flush` live to the end. -/
def handlerRunP (doFlush : FlushProg S) (h : Handler) (t : T) (ev : Event) (rows : Select (List Nat)) : Prog S Unit := do
  let s ← handlerNeedsSortP h t
  let rows := if s then rows.sort else rows
  handlerHandleP doFlush h t ev rows
  lock (.tbl t) .rd
  lock (.fl t) .rd
  let _ ← doFlush t ev ev.isCreation ev.isRemoval rows
  unlock (.fl t) .rd
  unlock (.tbl t) .rd

/-- `Tracker::handle` (macros/output.rs:1131-1140; observers: any). -/
def trackerHandleP (doFlush : FlushProg S) (p : T) (tr : Tracker S) (ev : Event) (rows : Select (List Nat)) (h : Handler) :
    Prog S Unit :=
  match tr with
  | .auto fk => do
    let x ← peekP fk.child
    let sel ← ofR (fk.select x rows)
    handlerRunP doFlush h fk.child ev sel
  | .observer o => .see p o.name ev rows (.ret ())

/-- One iteration of the loop over the trackers (src/tracking.rs:263-275). -/
def flushStepP (doFlush : FlushProg S) (p : T) (ev : Event) (h : Handler) (st : Select (List Nat) × Bool) (tr : Tracker S) :
    Prog S (Select (List Nat) × Bool) :=
  if tr.considers ev = false then .ret st
  else do
    let st : Select (List Nat) × Bool := if !st.2 && tr.sort then (st.1.sort, true) else st
    trackerHandleP doFlush p tr ev st.1 h
    .ret st

/-- `Flush::do_flush` (src/tracking.rs:248-288) with a recursion budget. -/
def doFlushP (cfg : Cfg S) : Nat → FlushProg S
  | 0, _, _, _, _, _ => .fail .stackOverflow
  | n + 1, t, ev, pushed, delete, sel =>
    if (pushed && delete) || (ev.isRemoval && ev.isCreation) then .fail .interleaved
    else do
      let h ← ofR (cfg.handler ev)
      let st ← (cfg.trackers t).foldlM (flushStepP (doFlushP cfg n) t ev h) (sel, sel.isAll)
      .ret st.1

/-- `Write::flush` (macros/output.rs:932-976). -/
def flushP (cfg : Cfg S) (n : Nat) (t : T) (w : W (S t)) (ev : Event) : Prog S Unit := flushWithP (doFlushP cfg n) t w ev

/-- `Write::live_flush` (macros/output.rs:980-1023). Trackers run while the write lock is held; if a remapping is set the
guard on the `Flush` is forgotten (1014) and `try_write` (1015) cannot succeed. -/
def liveFlushP (cfg : Cfg S) (n : Nat) (t : T) (w : W (S t)) (ev : Event) : Prog S (W (S t)) :=
  if w.changes.isEmpty then .ret w
  else .put t w.tbl (do
    lock (.fl t) .rd
    let changes ← doFlushP cfg n t ev w.pushed w.delete w.changes
    let x ← ofR (if ev.isRemoval && !changes.isEmpty then w.tbl.removeSel changes else .ok w.tbl)
    .put t x (.getF t fun f =>
      if f.hasRemapping then .forget t (.ret (W.lock x))
      else .rel (.fl t) .rd (.ret (W.lock x))))

/-- `Read::select_rows` and `Read::select_all` (macros/output.rs:886-929) after `{self}` dropped the read guard. -/
def readSelectP (cfg : Cfg S) (n : Nat) (t : T) (ev : Event) (sel : Select (List Nat)) : Prog S Unit := do
  unlock (.tbl t) .rd
  lock (.fl t) .rd
  let _ ← doFlushP cfg n t ev false false sel
  unlock (.fl t) .rd

/-- Locks the parents of the foreign columns and their `Flush`es and keeps them (macros/output.rs:1871-1893); gives the
remappings. -/
def lockParents {t : T} : List (Own S t) → (T → FlushLock) → Prog S (T → FlushLock)
  | [], fl => .ret fl
  | o :: own, fl =>
    .acq (.tbl o.parent) .rd (.acq (.fl o.parent) .rd (.getF o.parent fun f => lockParents own (Function.update fl o.parent f)))

/-- Drops them again (macros/output.rs:1899: end of the block, in reverse order). -/
def unlockParents {t : T} : List (Own S t) → Prog S Unit
  | [] => .ret ()
  | o :: own => do
    unlockParents own
    .rel (.fl o.parent) .rd (.rel (.tbl o.parent) .rd (.ret ()))

/-- `restore_extract` (macros/output.rs:1860-1908) on a write guard of `t` holding `w`. -/
def restoreP {K : Type} [LinearOrder K] (key : (t : T) → Row (S t) → K) (cfg : Cfg S) (n : Nat) (t : T)
    (sig : Sig) (own : List (Own S t)) (x : Extraction (S t)) (ev : Event) (w : W (S t)) : Prog S (Option String) := do
  match ← ofR (x.validate sig) with
  | some e => do
    let tb ← ofR w.drop
    unlockP t tb
    .ret (some e)
  | none => do
    let fl ← lockParents own (fun _ => .new)
    lock (.fl t) .rd
    unlock (.fl t) .rd
    let (w, rm) ← ofR (mergeExtract (key t) fl own x (cfg.trackers t).isEmpty w)
    unlockParents own
    if w.changes.isEmpty then do
      let tb ← ofR w.drop
      unlockP t tb
      .ret none
    else do
      lock (.fl t) .wr
      .getF t fun f => do
        let f ← ofR (f.setRemapping rm)
        .putF t f (do
          unlock (.fl t) .wr
          flushP cfg n t w ev
          .ret none)

/-! ## Client code -/

/-- What a thread of the client does, step by step; what it looks at decides how it goes on. -/
inductive Script (S : T → Schema) where
  | done
  /-- `let mut x = t::write(universe);` -/
  | write (t : T) (k : Script S)
  /-- `x.method(…);` -/
  | call (t : T) (op : LOp (S t)) (k : Script S)
  /-- the rows are read through a guard -/
  | look (t : T) (k : Tbl (S t) → Script S)
  /-- `x.flush(universe, ev);` -/
  | flush (t : T) (ev : Event) (k : Script S)
  /-- `x.live_flush(universe, ev);` -/
  | liveFlush (t : T) (ev : Event) (k : Script S)
  /-- `x.restore_extract(universe, data, ev);` -/
  | restore (t : T) (sig : Sig) (own : List (Own S t)) (data : Extraction (S t)) (ev : Event) (k : Script S)
  /-- `drop(x);` -/
  | close (t : T) (k : Script S)
  /-- `let x = t::read(universe);` -/
  | read (t : T) (k : Script S)
  /-- `drop(x);` of a read guard -/
  | unread (t : T) (k : Script S)
  /-- `x.select_rows(universe, ev, _, rows);` or `x.select_all(universe, ev);` -/
  | select (t : T) (ev : Event) (sel : Select (List Nat)) (k : Script S)
  /-- `match t::try_write(universe) { Ok(mut x) => …, Err(e) => … }` -/
  | tryWrite (t : T) (yes : Script S) (no : TryErr → Script S)
  /-- `match t::try_read(universe) { Ok(x) => …, Err(e) => … }` -/
  | tryRead (t : T) (yes : Script S) (no : TryErr → Script S)

/-- The write guards a thread has. -/
abbrev Open (S : T → Schema) := (t : T) → Option (W (S t))

/-- The thread's program. `open_` are its write guards; using one it does not have is not Rust. -/
def Script.prog {K : Type} [LinearOrder K] (key : (t : T) → Row (S t) → K) (cfg : Cfg S) (n : Nat) : Script S → Open S → Prog S Unit
  | .done, _ => .ret ()
  | .write t k, o => do
    let w ← lockP t
    k.prog key cfg n (Function.update o t (some w))
  | .call t op k, o =>
    match o t with
    | none => .fail .badConfig
    | some w => do
      let w ← ofR (w.step (key t) op)
      k.prog key cfg n (Function.update o t (some w))
  | .look t k, o =>
    match o t with
    | some w => (k w.tbl).prog key cfg n o
    | none => .get t (fun x => (k x).prog key cfg n o)
  | .flush t ev k, o =>
    match o t with
    | none => .fail .badConfig
    | some w => do
      flushP cfg n t w ev
      k.prog key cfg n (Function.update o t none)
  | .liveFlush t ev k, o =>
    match o t with
    | none => .fail .badConfig
    | some w => do
      let w ← liveFlushP cfg n t w ev
      k.prog key cfg n (Function.update o t (some w))
  | .restore t sig own x ev k, o =>
    match o t with
    | none => .fail .badConfig
    | some w => do
      let _ ← restoreP key cfg n t sig own x ev w
      k.prog key cfg n (Function.update o t none)
  | .close t k, o =>
    match o t with
    | none => .fail .badConfig
    | some w => do
      let x ← ofR w.drop
      unlockP t x
      k.prog key cfg n (Function.update o t none)
  | .read t k, o => do
    lock (.tbl t) .rd
    k.prog key cfg n o
  | .unread t k, o => do
    unlock (.tbl t) .rd
    k.prog key cfg n o
  | .select t ev sel k, o => do
    readSelectP cfg n t ev sel
    k.prog key cfg n o
  | .tryWrite t yes no, o =>
    .att t .wr (.get t fun x => yes.prog key cfg n (Function.update o t (some (W.lock x)))) (fun e => (no e).prog key cfg n o)
  | .tryRead t yes no, o => .att t .rd (yes.prog key cfg n o) (fun e => (no e).prog key cfg n o)

/-! ## One thread alone -/

/-- Runs a program with nobody else around; a thread that waits for a guard it holds itself waits forever. Nothing here asks
for a `Flush` while holding it for writing, or for writing while holding it (it would break the lock order of `C63`), so
only forgotten guards can block it. -/
def Prog.run {α : Type} : Prog S α → Uni S → R (α × Uni S)
  | .ret a, u => .ok (a, u)
  | .fail p, _ => .error p
  | .acq (.tbl t) .wr k, u =>
    if u.env.reads t ≠ 0 ∨ u.env.writer t = true then .error .deadlock
    else k.run { u with env := { u.env with writer := Function.update u.env.writer t true } }
  | .acq (.tbl t) .rd k, u =>
    if u.env.writer t = true then .error .deadlock
    else k.run { u with env := { u.env with reads := Function.update u.env.reads t (u.env.reads t + 1) } }
  | .acq (.fl t) .wr k, u => if (u.fl t).leaked ≠ 0 then .error .deadlock else k.run u
  | .acq (.fl _) .rd k, u => k.run u
  | .att t .wr yes no, u =>
    if u.env.reads t ≠ 0 ∨ u.env.writer t = true then (no .wouldBlock).run u
    else yes.run { u with env := { u.env with writer := Function.update u.env.writer t true } }
  | .att t .rd yes no, u =>
    if u.env.writer t = true then (no .wouldBlock).run u
    else yes.run { u with env := { u.env with reads := Function.update u.env.reads t (u.env.reads t + 1) } }
  | .rel (.tbl t) .wr k, u => k.run { u with env := { u.env with writer := Function.update u.env.writer t false } }
  | .rel (.tbl t) .rd k, u => k.run { u with env := u.env.releaseRead t }
  | .rel (.fl _) _ k, u => k.run u
  | .get t k, u => (k (u.env.tbl t)).run u
  | .put t x k, u => k.run { u with env := u.env.put t x }
  | .getF t k, u => (k (u.fl t)).run u
  | .putF t f k, u => k.run { u with fl := Function.update u.fl t f }
  | .forget t k, u => k.run { u with fl := Function.update u.fl t { u.fl t with leaked := (u.fl t).leaked + 1 } }
  | .see p o ev rows k, u => k.run { u with env := { u.env with log := u.env.log ++ [⟨p, o, ev, rows, u.env.tbl⟩] } }

/-! ## Many threads -/

/-- A thread: what it still has to do, and the guards it has. -/
structure Thread (S : T → Schema) where
  prog : Prog S Unit
  held : List (Lk T × Mode)

/-- The process: rows and remappings, poisoned locks, threads. -/
structure Sys (S : T → Schema) (ι : Type) where
  tbl : (t : T) → Tbl (S t)
  fl : T → FlushLock
  poisoned : Lk T → Bool
  th : ι → Thread S

namespace Sys
variable {ι : Type} [DecidableEq ι]

/-- `RwLock`: any number of readers or one writer. A forgotten guard counts for ever. -/
def Free (s : Sys S ι) : Lk T → Mode → Prop
  | l, .rd => ∀ j, (l, .wr) ∉ (s.th j).held
  | .tbl t, .wr => ∀ j m, (.tbl t, m) ∉ (s.th j).held
  | .fl t, .wr => (∀ j m, (.fl t, m) ∉ (s.th j).held) ∧ (s.fl t).leaked = 0

/-- Thread `i` goes on with `p`, having the guards `h`. -/
def go (s : Sys S ι) (i : ι) (p : Prog S Unit) (h : List (Lk T × Mode)) : Sys S ι :=
  { s with th := Function.update s.th i ⟨p, h⟩ }

/-- `try_read` and `try_write` may fail. std's `RwLock` refuses a reader also while a writer waits. -/
def Busy (s : Sys S ι) (i : ι) (l : Lk T) (m : Mode) : Prop :=
  ¬ s.Free l m ∨ m = .rd ∧ ∃ j k, j ≠ i ∧ (s.th j).prog = .acq l .wr k

/-- What thread `i` can do next. Taking a poisoned lock panics (`unwrap`), and a panicking thread drops its guards; those
for writing poison their locks (std). (That dropping a `Write` with unflushed changes then aborts the process is in
`Model/Poison.lean`; here the other threads go on. What such a thread did to the rows stays behind the poisoned lock.) -/
inductive Step (s : Sys S ι) (i : ι) : Sys S ι → Prop
  | acq {l m k} : (s.th i).prog = .acq l m k → s.Free l m → s.poisoned l = false → Step s i (s.go i k ((l, m) :: (s.th i).held))
  | acqPoisoned {l m k} : (s.th i).prog = .acq l m k → s.Free l m → s.poisoned l = true →
      Step s i (s.go i (.fail .poisoned) (s.th i).held)
  | att {t m yes no} : (s.th i).prog = .att t m yes no → s.Free (.tbl t) m → s.poisoned (.tbl t) = false →
      Step s i (s.go i yes ((.tbl t, m) :: (s.th i).held))
  | attPoisoned {t m yes no} : (s.th i).prog = .att t m yes no → s.Free (.tbl t) m → s.poisoned (.tbl t) = true →
      Step s i (s.go i (no .poisoned) (s.th i).held)
  | attBusy {t m yes no} : (s.th i).prog = .att t m yes no → s.Busy i (.tbl t) m → Step s i (s.go i (no .wouldBlock) (s.th i).held)
  | rel {l m k} : (s.th i).prog = .rel l m k → Step s i (s.go i k ((s.th i).held.erase (l, m)))
  | get {t k} : (s.th i).prog = .get t k → Step s i (s.go i (k (s.tbl t)) (s.th i).held)
  | put {t x k} : (s.th i).prog = .put t x k → Step s i { s.go i k (s.th i).held with tbl := Function.update s.tbl t x }
  | getF {t k} : (s.th i).prog = .getF t k → Step s i (s.go i (k (s.fl t)) (s.th i).held)
  | putF {t f k} : (s.th i).prog = .putF t f k → Step s i { s.go i k (s.th i).held with fl := Function.update s.fl t f }
  | forget {t k} : (s.th i).prog = .forget t k → Step s i { s.go i k ((s.th i).held.erase (.fl t, .rd)) with
      fl := Function.update s.fl t { s.fl t with leaked := (s.fl t).leaked + 1 } }
  | see {p o ev rows k} : (s.th i).prog = .see p o ev rows k → Step s i (s.go i k (s.th i).held)
  | unwind {p} : (s.th i).prog = .fail p → (s.th i).held ≠ [] → Step s i { s.go i (.fail p) [] with
      poisoned := fun l => s.poisoned l || decide ((l, Mode.wr) ∈ (s.th i).held) }

/-- The thread has returned, or has panicked and is gone. -/
def Finished (s : Sys S ι) (i : ι) : Prop :=
  (s.th i).prog = .ret () ∨ (∃ p, (s.th i).prog = .fail p) ∧ (s.th i).held = []

/-- std does not say whether a reader must wait when a writer is waiting: `waits s i` is the choice of the implementation to
let thread `i` wait although the lock is free. -/
def MayWait (waits : Sys S ι → ι → Prop) : Prop :=
  ∀ s i, waits s i → ∃ l k, (s.th i).prog = .acq l .rd k ∧ ∃ j k', j ≠ i ∧ (s.th j).prog = .acq l .wr k'

/-- Steps of any threads in any order. -/
inductive Run (waits : Sys S ι → ι → Prop) (s : Sys S ι) : Sys S ι → Prop
  | start : Run waits s s
  | step {s' s'' : Sys S ι} {i : ι} : Run waits s s' → Step s' i s'' → ¬ waits s' i → Run waits s s''

end Sys

/-- Threads about to run these scripts; no lock is held or poisoned. -/
def startSys {K : Type} [LinearOrder K] {ι : Type} (key : (t : T) → Row (S t) → K) (cfg : Cfg S) (n : Nat)
    (tbl : (t : T) → Tbl (S t)) (fl : T → FlushLock) (scripts : ι → Script S) : Sys S ι :=
  { tbl := tbl, fl := fl, poisoned := fun _ => false, th := fun i => ⟨(scripts i).prog key cfg n (fun _ => none), []⟩ }

end
end V11
