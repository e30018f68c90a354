import Verif.Model.Threads

/-!
# Trackers registered while threads run

In `Model/Threads` the trackers are fixed and derived. Here they are any code, and `register_tracker` may be called at any
time by any thread, also by a tracker. Of the tables only the locks are kept; what the code computes is left open: a
tracker that is told of a flush may do any of the lists of operations `Code` gives it.

Simplified: nothing panics (registering on a table that is not consistent does, C67), there is no remapping (so `live_flush` leaks no
guard, C38), and a tracker that is not interested in the event (`consider`) is one that does nothing.
-/

namespace V11
variable {T X : Type}

/-- What client code, and the code of trackers, does. -/
inductive TkOp (T X : Type) where
  /-- `t::write(universe)`, `t::read(universe)` (macros/output.rs:1649-1705) -/
  | lock (t : T) (m : Mode)
  /-- the guard is dropped; also `flush` of a guard without changes (macros/output.rs:937) -/
  | unlock (t : T) (m : Mode)
  /-- `universe.register_tracker(x)` where `X::Foreign` is `t` (src/tracking.rs:332-339) -/
  | register (t : T) (x : X)
  /-- `flush` of a write guard with changes; `rm` if rows are to be removed (macros/output.rs:932-976) -/
  | flush (t : T) (rm : Bool)
  /-- `live_flush` of a write guard with changes (macros/output.rs:980-1023) -/
  | liveFlush (t : T)
  /-- `select_rows`, `select_all` of a read guard (macros/output.rs:904-929) -/
  | select (t : T)
  /-- what `Function::run` does after it has called the handler (src/event.rs:107-118) -/
  | run (t : T)

/-- One step of a thread. -/
inductive TkAct (T X : Type) where
  /-- takes a table's lock -/
  | acq (t : T) (m : Mode)
  /-- drops it -/
  | rel (t : T) (m : Mode)
  /-- takes the lock of a `Flush` for writing -/
  | acqF (t : T)
  /-- `self.trackers.push(Box::new(tracker))` -/
  | push (t : T) (x : X)
  /-- drops it -/
  | relF (t : T)
  /-- takes the lock of a `Flush` for reading, and calls `do_flush` -/
  | enter (t : T)
  /-- `do_flush` number `n` is at tracker `k` of the loop (src/tracking.rs:263-275); at its end the guard is dropped -/
  | iter (n : Nat) (t : T) (k : Nat)

/-- What an operation does. -/
def TkOp.acts : TkOp T X → List (TkAct T X)
  | .lock t m => [.acq t m]
  | .unlock t m => [.rel t m]
  | .register t x => [.acq t .wr, .acqF t, .push t x, .relF t, .rel t .wr]
  | .flush t false => [.rel t .wr, .enter t]
  | .flush t true => [.rel t .wr, .enter t, .acq t .wr, .rel t .wr]
  | .liveFlush t => [.enter t]
  | .select t => [.rel t .rd, .enter t]
  | .run t => [.acq t .rd, .enter t, .rel t .rd]

/-- What operations do, one after another. -/
def tkActs (ops : List (TkOp T X)) : List (TkAct T X) := ops.flatMap TkOp.acts

/-- A `foreign_auto` tracker of table `c`, told of a change (macros/output.rs:1131-1140, src/event.rs:100-153, removal of rows:
macros/output.rs:347-397). `all` is `none` if some rows are selected, else the table is cleared and flushed, and then cleared again if
rows are to be removed (`some true`). What the code of `Model/Threads` does is one of these (`C85_flush_locks`). -/
def autoOps (h : Handler) (c : T) (all : Option Bool) : List (TkOp T X) :=
  [.lock c .rd, .unlock c .rd] ++
  (match h with
    | .delete => [.lock c .rd, .unlock c .rd, .lock c .rd, .unlock c .rd, .lock c .wr] ++
        (match all with | some rm => [.flush c rm] | none => [.unlock c .wr])
    | _ => []) ++
  [.run c]

/-- What happened. -/
inductive TkEv (T X ι : Type) where
  /-- thread `i` registered `x` on `t` -/
  | reg (i : ι) (t : T) (x : X)
  /-- thread `i` began flush `n`, of `t` -/
  | began (n : Nat) (i : ι) (t : T)
  /-- flush `n` told tracker `x` -/
  | told (n : Nat) (x : X)
  /-- flush `n` has told all -/
  | ended (n : Nat)
deriving DecidableEq

/-- A thread: what it still has to do, the guards of tables it has, the guards of `Flush`es it has. -/
structure TkThread (T X : Type) where
  todo : List (TkAct T X)
  tb : List (T × Mode)
  fl : List (T × Mode)

/-- The process. -/
structure TkSys (T X ι : Type) where
  th : ι → TkThread T X
  trackers : T → List X
  log : List (TkEv T X ι)

namespace TkSys
variable {ι : Type} [DecidableEq ι] [DecidableEq T]

/-- `RwLock`: any number of readers or one writer. -/
def FreeT (s : TkSys T X ι) (t : T) : Mode → Prop
  | .rd => ∀ j, (t, .wr) ∉ (s.th j).tb
  | .wr => ∀ j m, (t, m) ∉ (s.th j).tb

/-- The same for a `Flush`. -/
def FreeF (s : TkSys T X ι) (t : T) : Mode → Prop
  | .rd => ∀ j, (t, .wr) ∉ (s.th j).fl
  | .wr => ∀ j m, (t, m) ∉ (s.th j).fl

/-- Thread `i` becomes `x`. -/
def go (s : TkSys T X ι) (i : ι) (x : TkThread T X) : TkSys T X ι := { s with th := Function.update s.th i x }

/-- What thread `i` can do next. -/
inductive Step (Code : T → X → List (TkOp T X) → Prop) (s : TkSys T X ι) (i : ι) : TkSys T X ι → Prop
  | acq {t m k} : (s.th i).todo = .acq t m :: k → s.FreeT t m →
      Step Code s i (s.go i ⟨k, (t, m) :: (s.th i).tb, (s.th i).fl⟩)
  | rel {t m k} : (s.th i).todo = .rel t m :: k →
      Step Code s i (s.go i ⟨k, (s.th i).tb.erase (t, m), (s.th i).fl⟩)
  | acqF {t k} : (s.th i).todo = .acqF t :: k → s.FreeF t .wr →
      Step Code s i (s.go i ⟨k, (s.th i).tb, (t, .wr) :: (s.th i).fl⟩)
  | push {t x k} : (s.th i).todo = .push t x :: k →
      Step Code s i { s.go i ⟨k, (s.th i).tb, (s.th i).fl⟩ with
        trackers := Function.update s.trackers t (s.trackers t ++ [x])
        log := s.log ++ [.reg i t x] }
  | relF {t k} : (s.th i).todo = .relF t :: k →
      Step Code s i (s.go i ⟨k, (s.th i).tb, (s.th i).fl.erase (t, .wr)⟩)
  | enter {t k} : (s.th i).todo = .enter t :: k → s.FreeF t .rd →
      Step Code s i { s.go i ⟨.iter s.log.length t 0 :: k, (s.th i).tb, (t, .rd) :: (s.th i).fl⟩ with
        log := s.log ++ [.began s.log.length i t] }
  | tell {n t j k x ops} : (s.th i).todo = .iter n t j :: k → (s.trackers t)[j]? = some x → Code t x ops →
      Step Code s i { s.go i ⟨tkActs ops ++ .iter n t (j + 1) :: k, (s.th i).tb, (s.th i).fl⟩ with
        log := s.log ++ [.told n x] }
  | leave {n t j k} : (s.th i).todo = .iter n t j :: k → (s.trackers t)[j]? = none →
      Step Code s i { s.go i ⟨k, (s.th i).tb, (s.th i).fl.erase (t, .rd)⟩ with
        log := s.log ++ [.ended n] }

/-- std does not say whether a reader must wait when a writer is waiting: `waits s i` is the choice of the implementation to
let thread `i` wait although the lock is free. -/
def MayWait (waits : TkSys T X ι → ι → Prop) : Prop :=
  ∀ s i, waits s i →
    (∃ t k, (s.th i).todo = .acq t .rd :: k ∧ ∃ j k', j ≠ i ∧ (s.th j).todo = .acq t .wr :: k') ∨
    (∃ t k, (s.th i).todo = .enter t :: k ∧ ∃ j k', j ≠ i ∧ (s.th j).todo = .acqF t :: k')

/-- Steps of any threads in any order. -/
inductive Run (Code : T → X → List (TkOp T X) → Prop) (waits : TkSys T X ι → ι → Prop) (s : TkSys T X ι) : TkSys T X ι → Prop
  | start : Run Code waits s s
  | step {s' s'' : TkSys T X ι} {i : ι} : Run Code waits s s' → Step Code s' i s'' → ¬ waits s' i → Run Code waits s s''

/-- Threads about to run these programs, with these trackers registered so far. -/
def start (trk : T → List X) (progs : ι → List (TkOp T X)) : TkSys T X ι :=
  { th := fun i => ⟨tkActs (progs i), [], []⟩, trackers := trk, log := [] }

/-- The thread has done everything. -/
def Done (s : TkSys T X ι) (i : ι) : Prop := (s.th i).todo = []

end TkSys
end V11
