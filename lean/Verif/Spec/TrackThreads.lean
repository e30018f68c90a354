import Verif.Model.TrackThreads

/-!
# What trackers are told, and a lock order
-/

namespace V11
variable {T X ι : Type} [DecidableEq T]

/-- What was registered on `t`, in order. -/
def TkEv.regOn (t : T) : TkEv T X ι → Option X
  | .reg _ t' x => if t' = t then some x else none
  | _ => none

/-- The trackers registered on `t`, oldest first. -/
def registeredOn (t : T) (log : List (TkEv T X ι)) : List X := log.filterMap (TkEv.regOn t)

/-- Whom flush `n` told. -/
def TkEv.toldBy (n : Nat) : TkEv T X ι → Option X
  | .told n' x => if n' = n then some x else none
  | _ => none

/-- The trackers flush `n` told, in order. -/
def toldBy (n : Nat) (log : List (TkEv T X ι)) : List X := log.filterMap (TkEv.toldBy n)

/-- What thread `i` registered, and where. -/
def TkEv.regBy [DecidableEq ι] (i : ι) : TkEv T X ι → Option (T × X)
  | .reg i' t x => if i' = i then some (t, x) else none
  | _ => none

/-- The registrations thread `i` made, in order. -/
def registeredBy [DecidableEq ι] (i : ι) (log : List (TkEv T X ι)) : List (T × X) := log.filterMap (TkEv.regBy i)

/-- The registrations a program asks for. -/
def TkOp.registers : TkOp T X → Option (T × X)
  | .register t x => some (t, x)
  | _ => none

/-- The locks an operation itself asks for. -/
def TkOp.asks : TkOp T X → List (Lk T)
  | .lock t _ => [.tbl t]
  | .unlock _ _ => []
  | .register t _ => [.tbl t, .fl t]
  | .flush t false => [.fl t]
  | .flush t true => [.fl t, .tbl t]
  | .liveFlush t => [.fl t]
  | .select t => [.fl t]
  | .run t => [.tbl t, .fl t]

/-- A program that asks for locks from higher to lower levels only, where each table's lock and the lock of its list of
trackers have a level. It drops only guards it has, flushes only guards it has, and drops all in the end. `h` are the guards it
has. -/
def TkOrder (lev : Lk T → Nat) : List (T × Mode) → List (TkOp T X) → Prop
  | h, [] => h = []
  | h, .lock t m :: k => (∀ g ∈ h, lev (.tbl t) < lev (.tbl g.1)) ∧ TkOrder lev ((t, m) :: h) k
  | h, .unlock t m :: k => (t, m) ∈ h ∧ TkOrder lev (h.erase (t, m)) k
  | h, .register t _ :: k => (∀ g ∈ h, lev (.tbl t) < lev (.tbl g.1)) ∧ lev (.fl t) < lev (.tbl t) ∧ TkOrder lev h k
  | h, .flush t rm :: k => (t, .wr) ∈ h ∧ (∀ g ∈ h.erase (t, .wr), lev (.fl t) < lev (.tbl g.1)) ∧
      (rm = true → ∀ g ∈ h.erase (t, .wr), lev (.tbl t) < lev (.tbl g.1)) ∧ TkOrder lev (h.erase (t, .wr)) k
  | h, .liveFlush t :: k => (t, .wr) ∈ h ∧ (∀ g ∈ h, lev (.fl t) < lev (.tbl g.1)) ∧ TkOrder lev h k
  | h, .select t :: k => (t, .rd) ∈ h ∧ (∀ g ∈ h.erase (t, .rd), lev (.fl t) < lev (.tbl g.1)) ∧ TkOrder lev (h.erase (t, .rd)) k
  | h, .run t :: k => (∀ g ∈ h, lev (.tbl t) < lev (.tbl g.1)) ∧ lev (.fl t) < lev (.tbl t) ∧ TkOrder lev h k

/-- The trackers keep the order too: what a tracker of `t` asks for is below the lock of the list of trackers of `t`, which the flush
holds while it calls the tracker. -/
def CodeInOrder (lev : Lk T → Nat) (Code : T → X → List (TkOp T X) → Prop) : Prop :=
  ∀ t x ops, Code t x ops → TkOrder lev [] ops ∧ ∀ op ∈ ops, ∀ l ∈ op.asks, lev l < lev (.fl t)

/-- `foreign_auto` trackers of the tables `deps t`, whatever handler they run. -/
def AutoCode (deps : T → T → Prop) (t : T) (ops : List (TkOp T X)) : Prop :=
  ∃ h c all, deps t c ∧ ops = autoOps h c all

/-- The tables in the order of their ranks, and every list of trackers between its table and the tables below. -/
def byRank (rank : T → Nat) : Lk T → Nat
  | .tbl t => 2 * rank t + 1
  | .fl t => 2 * rank t

/-- The same, but the lists of trackers of the tables in `own` come before their tables: those trackers may lock their own
table. -/
def byRankOwn (own : T → Bool) (rank : T → Nat) : Lk T → Nat
  | .tbl t => 2 * rank t + 1
  | .fl t => if own t then 2 * rank t + 2 else 2 * rank t

end V11
