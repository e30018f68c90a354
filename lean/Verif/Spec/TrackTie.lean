import Verif.Spec.TrackThreads
import Verif.Spec.Cascade

/-!
# Which locks a program takes and drops, in `Model/Threads` and in `Model/TrackThreads`
-/

namespace V11

/-- A lock is taken, or a guard is dropped. -/
inductive LockAct (T : Type) where
  | acq (l : Lk T) (m : Mode)
  | rel (l : Lk T) (m : Mode)

variable {T : Type} {S : T → Schema}

/-- The program, run to its end, takes and drops these locks, and returns this. Whatever it looks at may be anything, except that there
is no remapping; what other threads do is in that. -/
inductive Prog.Traces {α : Type} : Prog S α → List (LockAct T) → α → Prop
  | ret {a} : Traces (.ret a) [] a
  | acq {l m k as a} : Traces k as a → Traces (.acq l m k) (.acq l m :: as) a
  | rel {l m k as a} : Traces k as a → Traces (.rel l m k) (.rel l m :: as) a
  | attYes {t m yes no as a} : Traces yes as a → Traces (.att t m yes no) (.acq (.tbl t) m :: as) a
  | attNo {t m yes no as a e} : Traces (no e) as a → Traces (.att t m yes no) as a
  | get {t k as a x} : Traces (k x) as a → Traces (.get t k) as a
  | put {t x k as a} : Traces k as a → Traces (.put t x k) as a
  | getF {t k as a f} : f.hasRemapping = false → Traces (k f) as a → Traces (.getF t k) as a
  | putF {t f k as a} : Traces k as a → Traces (.putF t f k) as a
  | forget {t k as a} : Traces k as a → Traces (.forget t k) as a
  | see {p o ev rows k as a} : Traces k as a → Traces (.see p o ev rows k) as a

/-- A thread of `Model/TrackThreads` that has this to do, with these trackers, may take and drop these locks until it is done: the steps of
`TkSys.Step`. (Registering is left out.) -/
inductive TkLocks {X : Type} (trk : T → List X) (Code : T → X → List (TkOp T X) → Prop) : List (TkAct T X) → List (LockAct T) → Prop
  | nil : TkLocks trk Code [] []
  | acq {t m k as} : TkLocks trk Code k as → TkLocks trk Code (.acq t m :: k) (.acq (.tbl t) m :: as)
  | rel {t m k as} : TkLocks trk Code k as → TkLocks trk Code (.rel t m :: k) (.rel (.tbl t) m :: as)
  | enter {t n k as} : TkLocks trk Code (.iter n t 0 :: k) as → TkLocks trk Code (.enter t :: k) (.acq (.fl t) .rd :: as)
  | tell {n t j x ops k as} : (trk t)[j]? = some x → Code t x ops → TkLocks trk Code (tkActs ops ++ .iter n t (j + 1) :: k) as →
      TkLocks trk Code (.iter n t j :: k) as
  | leave {n t j k as} : (trk t)[j]? = none → TkLocks trk Code k as → TkLocks trk Code (.iter n t j :: k) (.rel (.fl t) .rd :: as)

/-- The code of the trackers of `Model/Universe`: an observer takes no locks, and a derived tracker is a derived tracker (what is not
registered does nothing). -/
def DerivedCode (cfg : Cfg S) (t : T) (x : Tracker S) (ops : List (TkOp T (Tracker S))) : Prop :=
  match x with
  | .observer _ => ops = []
  | .auto fk => IsFK cfg t fk ∧ (∃ h all, ops = autoOps h fk.child all) ∨ ¬ IsFK cfg t fk ∧ ops = []

end V11
