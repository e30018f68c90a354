import Verif.Spec.Cascade

/-!
# Histories that respect references
-/

namespace V11
variable {T : Type} {S : T → Schema} {K : Type} [LinearOrder K]

/-- Everything the row references through a foreign_auto column is a live row of `u`. -/
def RefsLive (cfg : Cfg S) (u : (t : T) → Tbl (S t)) {t : T} (r : Row (S t)) : Prop :=
  ∀ p fk k, IsFK cfg p fk → Refers fk r k → (u p).contains k = true

/-- The call does not by itself break a reference: rows that are added reference live rows (and are sorted,
if merged), edits leave the references alone. A consistent table is not `clear`ed this way. -/
def Safe (cfg : Cfg S) (key : (t : T) → Row (S t) → K) (u : (t : T) → Tbl (S t)) (t : T) : LOp (S t) → Prop
  | .push row => RefsLive cfg u row
  | .pushArray rows => ∀ r ∈ rows, RefsLive cfg u r
  | .merge rows => (∀ r ∈ rows, RefsLive cfg u r) ∧ SortedBy (key t) rows
  | .set j _ v => ∀ p fk, IsFK cfg p fk → ∀ r k, Refers fk (Function.update r j v) k ↔ Refers fk r k
  | _ => True

/-- Sorted tables that are searched by a foreign_auto column are sorted by it (`#[sort_key]`). -/
def SortsByRef (cfg : Cfg S) (key : (t : T) → Row (S t) → K) : Prop :=
  ∀ p fk, IsFK cfg p fk → fk.bySort = true → ∀ r r', key fk.child r ≤ key fk.child r' ↔ fk.ref r ≤ fk.ref r'

/-- One step of a history: a write lock, some calls on it, a flush. `n` bounds the stack, and the calls
do not fill the table up completely (a full table cannot be iterated, C05). -/
inductive UStep [DecidableEq T] (cfg : Cfg S) (n : Nat) (key : (t : T) → Row (S t) → K) (env env' : Env S) : Prop
  /-- rows are added, edited or selected, and flushed with an event that removes nothing -/
  | grow (t : T) (ops : List (LOp (S t))) (ev : Event) (removes : ev.isRemoval = false)
      (handler : cfg.handlers[ev.id]? = some .null) (allowed : ∀ op ∈ ops, op.Allowed (S t).kind)
      (safe : ∀ op ∈ ops, Safe cfg key env.tbl t op) (room : ∀ w, (W.lock (env.tbl t)).steps (key t) ops = .ok w → w.tbl.len ≤ (S t).max)
      (run : session cfg n key t ops ev env = .ok env')
  /-- live rows of a consistent table are deleted, and flushed with a removal event -/
  | delete (t : T) (kind : (S t).kind = .consistent) (rows : List Nat) (ev : Event) (removes : ev.isRemoval = true)
      (creates : ev.isCreation = false) (handler : cfg.handlers[ev.id]? = some .delete) (tame : Tame cfg rows)
      (run : session cfg n key t (rows.map .delete) ev env = .ok env')
  /-- a consistent table is cleared, and flushed with a removal event; neither it nor a table that depends
  on it has deleted rows (they would corrupt it, C09) -/
  | clear (t : T) (kind : (S t).kind = .consistent) (ev : Event) (removes : ev.isRemoval = true)
      (creates : ev.isCreation = false) (handler : cfg.handlers[ev.id]? = some .delete)
      (full : ∀ q, q = t ∨ DependsOn cfg q t → ∀ i < (env.tbl q).len, (env.tbl q).contains i = true)
      (run : session cfg n key t [.clear] ev env = .ok env')

/-- Finitely many steps. -/
inductive History [DecidableEq T] (cfg : Cfg S) (n : Nat) (key : (t : T) → Row (S t) → K) : Env S → Env S → Prop
  | nil (env : Env S) : History cfg n key env env
  | cons {env env' env'' : Env S} : History cfg n key env env' → UStep cfg n key env' env'' → History cfg n key env env''

/-- A fresh universe: all tables empty, no lock held. -/
def Fresh (env : Env S) : Prop := (∀ t, env.tbl t = Tbl.new) ∧ Unlocked env

end V11
