import Verif.Model.Threads

/-!
# Client code that takes its locks in order
-/

namespace V11
variable {T : Type} [DecidableEq T] {S : T → Schema}

/-- A script that takes its locks from higher to lower rank: whenever it asks for a table (by `write`, `read`, a flush or a
selection, which lock that table and those that depend on it), every other table it has a guard on has a higher
rank. A `try_write` or `try_read` may ask for any table. It uses only guards it has, methods that exist, and drops every
guard in the end. Tables in `live` are flushed with
`live_flush` and never restored; tables restored have no foreign_auto columns. `h` are the guards it has. -/
def Orderly (rank : T → Nat) (live : T → Bool) : List (T × Mode) → Script S → Prop
  | h, .done => h = []
  | h, .write t k => (∀ x ∈ h, rank t < rank x.1) ∧ Orderly rank live ((t, .wr) :: h) k
  | h, .call t op k => (t, .wr) ∈ h ∧ op.Allowed (S t).kind ∧ Orderly rank live h k
  | h, .look t k => (∃ m, (t, m) ∈ h) ∧ ∀ x, Orderly rank live h (k x)
  | h, .flush t _ k => (t, .wr) ∈ h ∧ (∀ x ∈ h.erase (t, .wr), rank t < rank x.1) ∧ Orderly rank live (h.erase (t, .wr)) k
  | h, .liveFlush t _ k => (t, .wr) ∈ h ∧ live t = true ∧ (∀ x ∈ h.erase (t, .wr), rank t < rank x.1) ∧ Orderly rank live h k
  | h, .restore t _ own _ _ k => (t, .wr) ∈ h ∧ own = [] ∧ live t = false ∧ (∀ x ∈ h.erase (t, .wr), rank t < rank x.1) ∧
      Orderly rank live (h.erase (t, .wr)) k
  | h, .close t k => (t, .wr) ∈ h ∧ Orderly rank live (h.erase (t, .wr)) k
  | h, .read t k => (∀ x ∈ h, rank t < rank x.1) ∧ Orderly rank live ((t, .rd) :: h) k
  | h, .unread t k => (t, .rd) ∈ h ∧ Orderly rank live (h.erase (t, .rd)) k
  | h, .select t _ _ k => (t, .rd) ∈ h ∧ (∀ x ∈ h.erase (t, .rd), rank t < rank x.1) ∧ Orderly rank live (h.erase (t, .rd)) k
  | h, .tryWrite t yes no => Orderly rank live ((t, .wr) :: h) yes ∧ ∀ e, Orderly rank live h (no e)
  | h, .tryRead t yes no => Orderly rank live ((t, .rd) :: h) yes ∧ ∀ e, Orderly rank live h (no e)

/-- A script that a Rust compiler lets through: it uses only guards it has (`h`), and methods that exist. It may ask for guards in
any order, also for one it has. The guards it has in the end satisfy `E`. -/
def GuardedTo (E : List (T × Mode) → Prop) : List (T × Mode) → Script S → Prop
  | h, .done => E h
  | h, .write t k => GuardedTo E ((t, .wr) :: h) k
  | h, .call t op k => (t, .wr) ∈ h ∧ op.Allowed (S t).kind ∧ GuardedTo E h k
  | h, .look t k => (∃ m, (t, m) ∈ h) ∧ ∀ x, GuardedTo E h (k x)
  | h, .flush t _ k => (t, .wr) ∈ h ∧ GuardedTo E (h.erase (t, .wr)) k
  | h, .liveFlush t _ k => (t, .wr) ∈ h ∧ GuardedTo E h k
  | h, .restore t _ _ _ _ k => (t, .wr) ∈ h ∧ GuardedTo E (h.erase (t, .wr)) k
  | h, .close t k => (t, .wr) ∈ h ∧ GuardedTo E (h.erase (t, .wr)) k
  | h, .read t k => GuardedTo E ((t, .rd) :: h) k
  | h, .unread t k => (t, .rd) ∈ h ∧ GuardedTo E (h.erase (t, .rd)) k
  | h, .select t _ _ k => (t, .rd) ∈ h ∧ GuardedTo E (h.erase (t, .rd)) k
  | h, .tryWrite t yes no => GuardedTo E ((t, .wr) :: h) yes ∧ ∀ e, GuardedTo E h (no e)
  | h, .tryRead t yes no => GuardedTo E ((t, .rd) :: h) yes ∧ ∀ e, GuardedTo E h (no e)

/-- The script may end without dropping its guards. -/
abbrev Guarded (h : List (T × Mode)) (sc : Script S) : Prop := GuardedTo (fun _ => True) h sc

/-- `write; calls; flush`: the shape of `session`, as a script. -/
def Script.session (t : T) (ev : Event) (k : Script S) : List (LOp (S t)) → Script S
  | [] => .flush t ev k
  | op :: ops => .call t op (Script.session t ev k ops)

/-- A unit of work on one table: lock it for writing, look at its rows, call methods depending on what was seen, flush. -/
structure Sess (S : T → Schema) where
  t : T
  ops : Tbl (S t) → List (LOp (S t))
  ev : Event

/-- A thread that does these, one after another. -/
def Script.sessions : List (Sess S) → Script S
  | [] => .done
  | s :: rest => .write s.t (.look s.t fun x => Script.session s.t s.ev (Script.sessions rest) (s.ops x))

/-- What one of them does to the rows when nobody else is around. -/
def Sess.Effect {K : Type} [LinearOrder K] (key : (t : T) → Row (S t) → K) (s : Sess S) (a b : (t : T) → Tbl (S t)) : Prop :=
  ∃ w, (W.lock (a s.t)).steps (key s.t) (s.ops (a s.t)) = .ok w ∧ b = Function.update a s.t w.tbl

/-- What a list of them does, one after another. -/
inductive Effects {K : Type} [LinearOrder K] (key : (t : T) → Row (S t) → K) (a : (t : T) → Tbl (S t)) :
    List (Sess S) → ((t : T) → Tbl (S t)) → Prop
  | nil : Effects key a [] a
  | snoc {l : List (Sess S)} {s : Sess S} {b c : (t : T) → Tbl (S t)} : Effects key a l b → s.Effect key b c → Effects key a (l ++ [s]) c

end V11
