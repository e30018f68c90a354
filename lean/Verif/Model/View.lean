import Verif.Model.Universe

/-!
# Selecting rows through a read lock borrowed from a write lock
-/

namespace V11
variable {T : Type} [DecidableEq T] {S : T → Schema}

/-- `w.as_read().select_rows(universe, ev, …, rows)` and `w.as_read().select_all(universe, ev)`. `as_read`
(macros/output.rs:1735-1754) borrows: the `Read` it gives has `BiRef::Right`, so dropping it (`{self};`, macros/output.rs:912, 926)
releases nothing, and the trackers are told (886-903) while the table is locked for writing. The `Write` itself is only borrowed
immutably; its change list is not looked at. What `do_flush` returns is dropped. -/
def viewSelect (cfg : Cfg S) (n : Nat) (t : T) (w : W (S t)) (ev : Event) (sel : Select (List Nat)) (env : Env S) :
    R (W (S t) × Env S) := do
  let (_, env) ← doFlush cfg n t ev false false sel (env.put t w.tbl)
  .ok (w, env)

end V11
