import Verif.Model.Threads

/-!
# Contexts that are worked with and flushed

`context!` (src/context.rs) over the tables of a universe, as client code of `Model/Threads`. A field is a table and how it
is locked. Locks of properties are left out, and so is having one field type twice (`Model/Context` has both).
-/

namespace V11
variable {T : Type} {S : T → Schema}

/-- What a thread does that has all its guards in contexts. Everything it has is handed to `from`, as a context or a tuple
of contexts and guards. -/
inductive CtxScript (S : T → Schema) where
  /-- the end: everything is dropped -/
  | done
  /-- `let ctx = Ctx::new(universe);` (src/context.rs:88-93) -/
  | new (fields : List (T × Mode)) (k : CtxScript S)
  /-- `let ctx = Ctx::from(universe, old);` (src/context.rs:140-185, 205-256) -/
  | from (fields : List (T × Mode)) (k : CtxScript S)
  /-- `ctx.t.method(…);` -/
  | call (t : T) (op : LOp (S t)) (k : CtxScript S)
  /-- rows are read through `ctx.t` -/
  | look (t : T) (k : Tbl (S t) → CtxScript S)
  /-- `ctx.t.flush(universe, ev);`, which moves the field out of the context (macros/output.rs:932: `self`) -/
  | flush (t : T) (ev : Event) (k : CtxScript S)
  /-- `ctx.t.live_flush(universe, ev);` -/
  | liveFlush (t : T) (ev : Event) (k : CtxScript S)

variable [DecidableEq T]

/-- Fields that are dropped, in order. -/
def closing : List (T × Mode) → Script S → Script S
  | [], k => k
  | (t, .wr) :: h, k => .close t (closing h k)
  | (t, .rd) :: h, k => .unread t (closing h k)

/-- Fields that are locked, in order. -/
def opening : List (T × Mode) → Script S → Script S
  | [], k => k
  | (t, .wr) :: h, k => .write t (opening h k)
  | (t, .rd) :: h, k => .read t (opening h k)

/-- The locks it takes and drops and what it does with them; `h` are the fields it has. `from` first drops the fields that
have no place in the new context (src/context.rs:101-135), then locks those that are missing (172-177); `C86_from_agrees`
compares this with `Model/Context`. -/
def CtxScript.script : CtxScript S → List (T × Mode) → Script S
  | .done, h => closing h .done
  | .new fields k, h => opening fields (k.script (h ++ fields))
  | .from fields k, h => closing (h.filter (· ∉ fields)) (opening (fields.filter (· ∉ h)) (k.script fields))
  | .call t op k, h => .call t op (k.script h)
  | .look t k, h => .look t fun x => (k x).script h
  | .flush t ev k, h => .flush t ev (k.script (h.erase (t, .wr)))
  | .liveFlush t ev k, h => .liveFlush t ev (k.script h)

end V11
