import Verif.Model.FlushFail
import Verif.Spec.FlushPanic

/-!
# What a flush that panics by itself may leave
-/

namespace V11
variable {T : Type} [DecidableEq T] {S : T → Schema}

/-- Only consistent tables have trackers (src/tracking.rs:316-319). -/
def ParentsConsistent (cfg : Cfg S) : Prop := ∀ p, cfg.trackers p ≠ [] → (S p).kind = .consistent

/-- `u'` is `u` after part of the work of removing `rows` of `p`: of consistent tables only rows are gone that had to go, of sorted tables
only rows that reference such rows, and nothing else has changed. -/
structure PartlyRemoved (cfg : Cfg S) (u u' : (t : T) → Tbl (S t)) (p : T) (rows : List Nat) : Prop where
  consistent : ∀ t, (S t).kind = .consistent → ∀ i, (u' t).view i = (u t).view i ∨ ((u' t).view i = none ∧ Doomed cfg u p rows t i)
  sorted : ∀ t, (S t).kind = .sorted → ∃ keep : Row (S t) → Bool,
    (∀ r, keep r = false → ∃ q fk k, IsFK cfg q fk ∧ Refers fk r k ∧ Doomed cfg u p rows q k) ∧
    ∀ L, Holds (u t) L → Holds (u' t) (L.filter keep)
  other : ∀ t, (S t).kind ≠ .consistent → (S t).kind ≠ .sorted → u' t = u t

/-- `u'` is `u` after everything that references `rows` of `p`, directly or not, has gone, and nothing else has changed in a table
other than `p`. -/
structure DependantsGone (cfg : Cfg S) (u u' : (t : T) → Tbl (S t)) (p : T) (rows : List Nat) : Prop where
  gone : ∀ t, t ≠ p → (S t).kind = .consistent → ∀ i, Doomed cfg u p rows t i → (u' t).view i = none
  kept : ∀ t, t ≠ p → (S t).kind = .consistent → ∀ i, ¬ Doomed cfg u p rows t i → (u' t).view i = (u t).view i
  sorted : ∀ t, (S t).kind = .sorted → ∃ keep : Row (S t) → Bool,
    (∀ r, keep r = false ↔ ∃ q fk k, IsFK cfg q fk ∧ Refers fk r k ∧ Doomed cfg u p rows q k) ∧
    ∀ L, Holds (u t) L → Holds (u' t) (L.filter keep)
  other : ∀ t, (S t).kind ≠ .consistent → (S t).kind ≠ .sorted → u' t = u t

/-- The universe once the lock of `t` has been given back with the table `x`. -/
def PEnv.released (e : PEnv S) (t : T) (x : Tbl (S t)) : PEnv S := { e with env := e.env.unlock t x }

end V11
