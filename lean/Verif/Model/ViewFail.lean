import Verif.Model.View
import Verif.Model.FlushFail

/-!
# Selecting rows through a borrowed read lock, with what a panic leaves
-/

namespace V11
variable {T : Type} [DecidableEq T] {S : T → Schema} [∀ t, LeavesSchema (S t)]

/-- Nothing comes after these. -/
def Panic.isEnd : Panic → Bool
  | .ub | .deadlock | .stackOverflow => true
  | _ => false

/-- A panic drops a write guard of `t` that holds `x`. -/
def PEnv.dropped (e : PEnv S) (t : T) (x : Tbl (S t)) : PEnv S := { env := e.env.unlock t x, bad := Function.update e.bad t true }

/-- `viewSelect` (macros/output.rs:886-929, 1735-1754) again, with panicking trackers and poisoned locks. A panic goes on to drop the
`Write`: the destructor of a consistent table's panics if there is anything to flush (macros/output.rs:844-850), which ends the process
(`none`); otherwise the lock is released, and poisoned as its guard is dropped by a panic. (Unlike `live_flush`, nothing has taken the
change list out of the `Write` before the trackers are told.) What is left by a panic that ends everything means nothing. -/
def gViewSelect (cfg : Cfg S) (boom : Boom S) (n : Nat) (t : T) (w : W (S t)) (ev : Event) (sel : Select (List Nat)) (e : PEnv S) :
    Option (PEnv S × R (W (S t))) :=
  match gDoFlush cfg boom n t ev false false sel { e with env := e.env.put t w.tbl } with
  | (e, .ok _) => some (e, .ok w)
  | (e, .error p) =>
    match w.drop with
    | .ok x => some (e.dropped t x, .error p)
    | .error _ => if p.isEnd then some (e.dropped t w.tbl, .error p) else none

end V11
