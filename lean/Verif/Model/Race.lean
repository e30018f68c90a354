import Verif.Model.Universe

/-!
# What other threads can do during `flush`

`flush` gives the write lock back before it calls the trackers and takes it again to remove the rows
(macros/output.rs:941-957). In between other threads can run whole sessions. Windows inside the cascade (between a
dependant's selection and its removal) are of the same kind and are not modelled separately.
-/

namespace V11
variable {T : Type} [DecidableEq T] {S : T → Schema}

/-- Something another thread does: any effect on the universe, or it stops this thread (poison, deadlock). -/
abbrev Interference (S : T → Schema) := Env S → R (Env S)

/-- `do_flush` (src/tracking.rs:248-288) with other threads running between the release of the lock
(macros/output.rs:947) and the first tracker (`before`), and between the last tracker and the moment the lock is taken
again (`after`, macros/output.rs:948-957). -/
def racedFlush (cfg : Cfg S) (n : Nat) (before after : Interference S) : FlushFn S := fun t ev pushed delete sel env => do
  let env ← before env
  let (sel, env) ← doFlush cfg n t ev pushed delete sel env
  let env ← after env
  .ok (sel, env)

/-- A session of another thread (macros/output.rs:1691-1694, then calls, then 932-976), as seen by this one. -/
def otherSession {K : Type} [LinearOrder K] (cfg : Cfg S) (n : Nat) (key : (t : T) → Row (S t) → K) (t : T) (ops : List (LOp (S t)))
    (ev : Event) : Interference S := session cfg n key t ops ev

/-- A session on `p` that marks rows and flushes (macros/output.rs:932-976), with other threads in the window. -/
def racedSession {K : Type} [LinearOrder K] (cfg : Cfg S) (n : Nat) (key : (t : T) → Row (S t) → K) (before after : Interference S)
    (p : T) (ops : List (LOp (S p))) (ev : Event) (env : Env S) : R (Env S) := do
  let (w, env) ← env.lock p
  let w ← w.steps (key p) ops
  flushWith (racedFlush cfg n before after) p w ev env

end V11
