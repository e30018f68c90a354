import Verif.Model.FlushPanic
import Verif.Spec.Cascade

/-!
# Where a flush panics
-/

namespace V11
variable {T : Type} [DecidableEq T] {S : T → Schema}

/-- None of these calls, made after those of `log`, panics. -/
def Calm (boom : Boom S) (log new : List (Call S)) : Prop := ∀ k < new.length, boom (log ++ new.take (k + 1)) = none

/-- The first of these calls to panic is `c`, which is the `k`-th. -/
structure Bursts (boom : Boom S) (log new : List (Call S)) (k : Nat) (c : Call S) (p : Panic) : Prop where
  before : ∀ j < k, boom (log ++ new.take (j + 1)) = none
  at_ : new[k]? = some c
  panic : boom (log ++ new.take (k + 1)) = some p

/-- The universe as the call `c` saw it: with the same locks held by this thread. -/
def Env.asSeen (env : Env S) (c : Call S) (log : List (Call S)) : Env S := { env with tbl := c.seen, log := log }

/-- `u'` is `u` after part of the work of removing `rows` of `p`: of consistent tables only rows are gone that had to go, of sorted tables
only rows that reference such rows, and table `p` itself has not been touched. -/
structure PartlyCascaded (cfg : Cfg S) (u u' : (t : T) → Tbl (S t)) (p : T) (rows : List Nat) : Prop where
  consistent : ∀ t, (S t).kind = .consistent → ∀ i, (u' t).view i = (u t).view i ∨ ((u' t).view i = none ∧ Doomed cfg u p rows t i)
  sorted : ∀ t, (S t).kind = .sorted → ∃ keep : Row (S t) → Bool,
    (∀ r, keep r = false → ∃ q fk k, IsFK cfg q fk ∧ Refers fk r k ∧ Doomed cfg u p rows q k) ∧
    ∀ L, Holds (u t) L → Holds (u' t) (L.filter keep)
  other : ∀ t, (S t).kind ≠ .consistent → (S t).kind ≠ .sorted → u' t = u t
  itself : u' p = u p

/-- The tables that depend on `p` have no dependants of their own. -/
def Shallow (cfg : Cfg S) (p : T) : Prop := ∀ fk, IsFK cfg p fk → ∀ fk', ¬ IsFK cfg fk.child fk'

end V11
