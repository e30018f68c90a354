import Verif.Model.Serial
import Verif.Spec.Cascade
import Verif.Spec.Merge

/-!
# What it means that tables were copied into another universe
-/

namespace V11
variable {T : Type} {S : T → Schema}

/-- Each table is listed once, after the tables its foreign columns reference. -/
structure ParentsFirst (own : (t : T) → List (Own S t)) (order : List T) : Prop where
  nodup : order.Nodup
  first : ∀ pre t post, order = pre ++ t :: post → ∀ o ∈ own t, o.parent ∈ pre

/-- Every foreign key in the listed tables references a live row. -/
def Whole (own : (t : T) → List (Own S t)) (u : (t : T) → Tbl (S t)) (order : List T) : Prop :=
  ∀ t ∈ order, ∀ i r, (u t).view i = some r → ∀ o ∈ own t, (u o.parent).contains (o.key (r o.col)) = true

/-- What the universe loaded into must be like: the listed tables are not sorted (C36: those do not follow their parents),
what they reference has trackers (every table with a `#[foreign_auto]` dependant has) and can have them, nobody asked for ids to
be left alone (`set_identity_remap`), and no guard was leaked (C38). -/
structure Receives (cfg : Cfg S) (own : (t : T) → List (Own S t)) (order : List T) (u : Uni S) : Prop where
  unsorted : ∀ t ∈ order, (S t).kind ≠ .sorted
  columns : ∀ t ∈ order, ((own t).map (·.col)).Nodup
  parents : ∀ t ∈ order, ∀ o ∈ own t, (S o.parent).kind = .consistent ∧ cfg.trackers o.parent ≠ []
  unleaked : ∀ t ∈ order, (u.fl t).leaked = 0
  mapped : ∀ t ∈ order, (u.fl t).identity = false

/-- `r'` is `r` with every foreign key replaced by the place where the row it references went. -/
def Moved {t : T} (own : List (Own S t)) (place : T → Nat → Nat) (r r' : Row (S t)) : Prop :=
  (∀ o ∈ own, o.key (r' o.col) = place o.parent (o.key (r o.col))) ∧ ∀ j, (∀ o ∈ own, o.col ≠ j) → r' j = r j

/-- The live rows of `t` in `src` are in `dst'` at the ids `place t` says, which were not in use in `dst`, in the same
order, their foreign keys turned into what `ref` says; all other ids of `dst'` are as in `dst`. -/
structure CopiedTo (own : (t : T) → List (Own S t)) (place ref : T → Nat → Nat) (src dst dst' : (t : T) → Tbl (S t)) (t : T) : Prop where
  fresh : ∀ i, (src t).contains i = true → (dst t).contains (place t i) = false
  order : ∀ i k, (src t).contains i = true → (src t).contains k = true → i < k → place t i < place t k
  row : ∀ i r, (src t).view i = some r → ∃ r', (dst' t).view (place t i) = some r' ∧ Moved (own t) ref r r'
  rest : ∀ k, (∀ i, (src t).contains i = true → place t i ≠ k) → (dst' t).view k = (dst t).view k
  lowest : ∀ i, (src t).contains i = true → ∀ k < place t i, (dst' t).contains k = true

/-- The same with every foreign key turned into the place where the row it references went. -/
abbrev Copied (own : (t : T) → List (Own S t)) (place : T → Nat → Nat) (src dst dst' : (t : T) → Tbl (S t)) (t : T) : Prop :=
  CopiedTo own place place src dst dst' t

/-! ## Sorted tables, and tables whose ids are to be left alone -/

/-- What a universe must be like to be loaded into if the listed tables may be sorted and ids may be left alone
(`set_identity_remap`): sorted tables have no trackers (they cannot have any, C28), and if a table that is not sorted references a table,
that has trackers, or its ids are left alone; no guard was leaked. -/
structure Accepts (cfg : Cfg S) (own : (t : T) → List (Own S t)) (order : List T) (u : Uni S) : Prop where
  untracked : ∀ t ∈ order, (S t).kind = .sorted → cfg.trackers t = []
  columns : ∀ t ∈ order, ((own t).map (·.col)).Nodup
  parents : ∀ t ∈ order, (S t).kind ≠ .sorted → ∀ o ∈ own t,
    (u.fl o.parent).identity = true ∨ ((S o.parent).kind = .consistent ∧ cfg.trackers o.parent ≠ [])
  unleaked : ∀ t ∈ order, (u.fl t).leaked = 0

/-- Where a foreign key of a table that is not sorted leads after loading: to where the row went, unless ids of that table are left alone. -/
def leads (u : Uni S) (place : T → Nat → Nat) (p : T) (k : Nat) : Nat := if (u.fl p).identity = true then k else place p k

/-- The rows of the sorted table `t` of `src` are in `dst'`, just as they were, between those of `dst`; the order is kept, and if there were none, so is that of
rows with equal keys. -/
def Joined {K : Type} [LinearOrder K] (key : (t : T) → Row (S t) → K) (src dst dst' : (t : T) → Tbl (S t)) (t : T) : Prop :=
  ∀ A B, Holds (src t) A → Holds (dst t) B → ∃ L, Holds (dst' t) L ∧ L.Perm (B ++ A) ∧ (SortedBy (key t) B → SortedBy (key t) L) ∧
    (B = [] → SortedBy (key t) A → L = A)

end V11
