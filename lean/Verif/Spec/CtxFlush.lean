import Verif.Model.CtxFlush

/-!
# Contexts used in order
-/

namespace V11
variable {T : Type} [DecidableEq T] {S : T → Schema}

/-- The fields are listed from referenced to referencing tables. -/
def Descending (rank : T → Nat) (fields : List (T × Mode)) : Prop := fields.Pairwise (fun a b => rank b.1 < rank a.1)

/-- A thread that uses contexts in order: every context lists its fields from referenced to referencing tables; new fields
are below all it keeps; and when it flushes a table, all other tables it has are above that one, so that a parent is flushed after
its dependants. It uses only fields it has and methods that exist. Tables in `live` are flushed with `live_flush`. -/
def Considerate (rank : T → Nat) (live : T → Bool) : List (T × Mode) → CtxScript S → Prop
  | _, .done => True
  | h, .new fields k => Descending rank fields ∧ (∀ f ∈ fields, ∀ g ∈ h, rank f.1 < rank g.1) ∧
      Considerate rank live (h ++ fields) k
  | h, .from fields k => Descending rank fields ∧ (∀ f ∈ fields, f ∉ h → ∀ g ∈ fields, g ∈ h → rank f.1 < rank g.1) ∧
      Considerate rank live fields k
  | h, .call t op k => (t, .wr) ∈ h ∧ op.Allowed (S t).kind ∧ Considerate rank live h k
  | h, .look t k => (∃ m, (t, m) ∈ h) ∧ ∀ x, Considerate rank live h (k x)
  | h, .flush t _ k => (t, .wr) ∈ h ∧ (∀ x ∈ h.erase (t, .wr), rank t < rank x.1) ∧ Considerate rank live (h.erase (t, .wr)) k
  | h, .liveFlush t _ k => (t, .wr) ∈ h ∧ live t = true ∧ (∀ x ∈ h.erase (t, .wr), rank t < rank x.1) ∧ Considerate rank live h k

end V11
