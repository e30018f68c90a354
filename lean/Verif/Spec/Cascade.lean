import Verif.Model.Universe
import Verif.Spec.Holds
import Verif.Spec.Merge

/-!
# What a cascade should do
-/

namespace V11
variable {T : Type} {S : T → Schema}

/-- Row `r` of table `t` references row `k` of the parent through `fk`. -/
def Refers (fk : FK S) {t : T} (r : Row (S t)) (k : Nat) : Prop := ∃ e : t = fk.child, fk.ref (e ▸ r) = k

/-- `fk` is a registered foreign_auto tracker of parent `p`. -/
def IsFK (cfg : Cfg S) (p : T) (fk : FK S) : Prop := Tracker.auto fk ∈ cfg.trackers p

/-- The rows that go when `rows` of `p` go: those rows, and every live row that references one that goes. -/
inductive Doomed (cfg : Cfg S) (u : (t : T) → Tbl (S t)) (p : T) (rows : List Nat) : T → Nat → Prop
  | seed {i : Nat} : i ∈ rows → Doomed cfg u p rows p i
  | step {q t : T} {k i : Nat} {fk : FK S} {r : Row (S t)} : Doomed cfg u p rows q k → IsFK cfg q fk →
      (u t).view i = some r → Refers fk r k → Doomed cfg u p rows t i

/-- `t` depends, directly or not, on `p`. -/
inductive DependsOn (cfg : Cfg S) : T → T → Prop
  | direct {p : T} {fk : FK S} : IsFK cfg p fk → DependsOn cfg fk.child p
  | step {t p : T} {fk : FK S} : IsFK cfg p fk → DependsOn cfg t fk.child → DependsOn cfg t p

/-- The foreign_auto graph has no cycle: some ranking decreases from parent to dependant. -/
def Acyclic (cfg : Cfg S) (rank : T → Nat) : Prop := ∀ p fk, IsFK cfg p fk → rank fk.child < rank p

/-- What `table!` and `register_tracker` guarantee of a tracker graph whose dependants support removal:
only consistent tables have trackers (src/tracking.rs:316-319); a foreign_auto column is either the sort key of a sorted
table or indexed (macros/output.rs:1115-1122); every dependant is consistent or sorted. -/
structure Standard (cfg : Cfg S) : Prop where
  parent : ∀ p, cfg.trackers p ≠ [] → (S p).kind = .consistent
  child : ∀ p fk, IsFK cfg p fk → (S fk.child).kind = .consistent ∨ (S fk.child).kind = .sorted
  sorted : ∀ p fk, IsFK cfg p fk → fk.bySort = true → (S fk.child).kind = .sorted
  indexed : ∀ p fk, IsFK cfg p fk → fk.bySort = false → (((S fk.child).C fk.col).find).isSome = true

/-- The states the theorems start from: every table is the result of public operations (never emptied at
once while it had deleted rows), is not completely full, and a table that is searched by its sort key is in order. -/
structure Ready {K : Type} [LinearOrder K] (key : (t : T) → Row (S t) → K) (cfg : Cfg S) (u : (t : T) → Tbl (S t)) :
    Prop where
  reach : ∀ t, Reach (key t) true (u t)
  room : ∀ t, (u t).len ≤ (S t).max
  inOrder : ∀ p fk, IsFK cfg p fk → fk.bySort = true → ∀ L, Holds (u fk.child) L → SortedBy fk.ref L

/-- No row is listed twice, unless no sorted table is searched through an index (it could not cope). -/
def Tame (cfg : Cfg S) (rows : List Nat) : Prop :=
  (∃ p fk, IsFK cfg p fk ∧ (S fk.child).kind = .sorted ∧ fk.bySort = false) → rows.Nodup

/-- `u'` is `u` after exactly the rows that go when `rows` of `p` go have gone: the rows of consistent tables
keep their ids, those of sorted tables close up, and all other tables are untouched. -/
structure Cascaded (cfg : Cfg S) (u u' : (t : T) → Tbl (S t)) (p : T) (rows : List Nat) : Prop where
  gone : ∀ t, (S t).kind = .consistent → ∀ i, Doomed cfg u p rows t i → (u' t).view i = none
  kept : ∀ t, (S t).kind = .consistent → ∀ i, ¬ Doomed cfg u p rows t i → (u' t).view i = (u t).view i
  sorted : ∀ t, (S t).kind = .sorted → ∃ keep : Row (S t) → Bool,
    (∀ r, keep r = false ↔ ∃ q fk k, IsFK cfg q fk ∧ Refers fk r k ∧ Doomed cfg u p rows q k) ∧
    ∀ L, Holds (u t) L → Holds (u' t) (L.filter keep)
  other : ∀ t, (S t).kind ≠ .consistent → (S t).kind ≠ .sorted → u' t = u t

/-- Every live row references live rows. -/
def Integrity (cfg : Cfg S) (u : (t : T) → Tbl (S t)) : Prop :=
  ∀ p fk i r, IsFK cfg p fk → (u fk.child).view i = some r → (u p).contains (fk.ref r) = true

/-- No live row references row `k` through `fk`. -/
def Unreferenced (u : (t : T) → Tbl (S t)) (fk : FK S) (k : Nat) : Prop :=
  ∀ i r, (u fk.child).view i = some r → fk.ref r ≠ k

/-- This thread holds no lock. -/
def Unlocked (env : Env S) : Prop := (∀ t, env.reads t = 0) ∧ ∀ t, env.writer t = false

/-- The observers among `ts` that are interested in `ev`. -/
def observers (ev : Event) (ts : List (Tracker S)) : List Observer :=
  ts.filterMap fun tr => match tr with
    | .observer o => if o.considers ev then some o else none
    | .auto _ => none

/-- The same selection up to order. -/
def SelPerm (a b : Select (List Nat)) : Prop :=
  match a, b with
  | .all, .all => True
  | .these x, .these y => x.Perm y
  | _, _ => False

/-- Ascending, if it lists rows. -/
def SelSorted (a : Select (List Nat)) : Prop :=
  match a with
  | .all => True
  | .these x => x.Pairwise (· ≤ ·)

/-- What a thread needs of a lock before flushing it: it holds the write lock of `p` and nothing else. -/
def Holding [DecidableEq T] (env : Env S) (p : T) : Prop :=
  (∀ t, env.reads t = 0) ∧ ∀ t, env.writer t = decide (t = p)

/-- What is required of the graph here: dependants of any kind, but each column can be searched. -/
structure Searchable (cfg : Cfg S) : Prop where
  sorted : ∀ p fk, IsFK cfg p fk → fk.bySort = true → (S fk.child).kind = .sorted
  indexed : ∀ p fk, IsFK cfg p fk → fk.bySort = false → (((S fk.child).C fk.col).find).isSome = true

end V11
