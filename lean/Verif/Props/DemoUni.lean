import Verif.Lemmas.Flush
import Verif.Lemmas.Columns

/-!
# A concrete universe for the examples

Table 0 (consistent) is referenced by the indexed column of table 1 (consistent), which is referenced by
the sort key of table 2 (sorted). Tables 0 and 1 also have an observer each.
-/

set_option linter.unusedSimpArgs false

namespace V11

/-- Two columns each; the first is the foreign key. -/
@[reducible] def uniCols (t : Fin 3) : Fin (1 + 1) → ColSpec
  | 0 => if t = 1 then .index Nat inferInstance else .vec Nat
  | 1 => .vec Nat

@[reducible] def uniKind (t : Fin 3) : Kind := if t = 2 then .sorted else .consistent

@[reducible] def UniS (t : Fin 3) : Schema := mkSchema (uniCols t) 255 (uniKind t)

def uniRow (t : Fin 3) (a b : Nat) : Row (UniS t) := fun j =>
  match t, j with
  | 0, 0 => a
  | 0, 1 => b
  | 1, 0 => a
  | 1, 1 => b
  | 2, 0 => a
  | 2, 1 => b

/-- The values of a row. -/
def uniVals : {t : Fin 3} → Row (UniS t) → Nat × Nat
  | 0, r => (r 0, r 1)
  | 1, r => (r 0, r 1)
  | 2, r => (r 0, r 1)

/-- The sort key. -/
def uniKey (t : Fin 3) (r : Row (UniS t)) : Nat := (uniVals r).1

/-- Column 0 of table 1 references table 0. -/
def uniFK01 : FK UniS := { child := 1, col := 0, key := Equiv.refl Nat, bySort := false }

/-- Column 0 of table 2, its sort key, references table 1. -/
def uniFK12 : FK UniS := { child := 2, col := 0, key := Equiv.refl Nat, bySort := true }

def uniObs : Observer := { name := 7, considers := fun _ => true, sort := true }

def evDelete : Event := ⟨2, true, false⟩
def evCreate : Event := ⟨1, false, true⟩

/-- Handlers: 1 creates, 2 deletes, the others panic. -/
def uniCfg : Cfg UniS where
  trackers
    | 0 => [.observer uniObs, .auto uniFK01]
    | 1 => [.auto uniFK12, .observer uniObs]
    | 2 => []
  handlers := [.panicking, .null, .delete]

def uniRank : Fin 3 → Nat
  | 0 => 2
  | 1 => 1
  | 2 => 0

theorem uniIsFK {p : Fin 3} {fk : FK UniS} : IsFK uniCfg p fk ↔ (p = 0 ∧ fk = uniFK01) ∨ (p = 1 ∧ fk = uniFK12) := by
  unfold IsFK uniCfg
  match p with
  | 0 => simp
  | 1 => simp
  | 2 => simp

theorem uniAcyclic : Acyclic uniCfg uniRank := by
  intro p fk h
  rcases uniIsFK.1 h with ⟨rfl, rfl⟩ | ⟨rfl, rfl⟩ <;> decide

theorem uniStandard : Standard uniCfg where
  parent p h := by
    match p with
    | 0 => rfl
    | 1 => rfl
    | 2 => exact absurd rfl h
  child p fk h := by
    rcases uniIsFK.1 h with ⟨rfl, rfl⟩ | ⟨rfl, rfl⟩
    · exact Or.inl rfl
    · exact Or.inr rfl
  sorted p fk h hb := by
    rcases uniIsFK.1 h with ⟨rfl, rfl⟩ | ⟨rfl, rfl⟩
    · cases hb
    · rfl
  indexed p fk h hb := by
    rcases uniIsFK.1 h with ⟨rfl, rfl⟩ | ⟨rfl, rfl⟩
    · rfl
    · cases hb

/-- How the tables were filled. Parents 0..2; children 0, 1 of parent 0, child 2 of parent 2 (child 3 was
deleted again); grandchildren of children 0, 1, 1, 2. -/
def uniOps : (t : Fin 3) → List (TOp (UniS t))
  | 0 => [.push (uniRow 0 10 0), .push (uniRow 0 11 0), .push (uniRow 0 12 0)]
  | 1 => [.push (uniRow 1 0 20), .push (uniRow 1 0 21), .push (uniRow 1 2 22), .push (uniRow 1 1 23), .remove (.these [3])]
  | 2 => [.merge [uniRow 2 0 30, uniRow 2 1 31, uniRow 2 1 32, uniRow 2 2 33]]

def uniTbl (t : Fin 3) : Tbl (UniS t) :=
  match runOps (uniKey t) Tbl.new (uniOps t) with
  | .ok x => x
  | .error _ => Tbl.new

/-- Dump of a table. -/
def uniView {t : Fin 3} (x : Tbl (UniS t)) (n : Nat) : List (Option (Nat × Nat)) :=
  (List.range n).map fun i => (x.view i).map uniVals

example : uniView (uniTbl 0) 4 = [some (10, 0), some (11, 0), some (12, 0), none] ∧
    uniView (uniTbl 1) 4 = [some (0, 20), some (0, 21), some (2, 22), none] ∧
    uniView (uniTbl 2) 5 = [some (0, 30), some (1, 31), some (1, 32), some (2, 33), none] := by decide

theorem uniTbl_reach (t : Fin 3) : Reach (uniKey t) true (uniTbl t) := by
  unfold uniTbl
  cases h : runOps (uniKey t) Tbl.new (uniOps t) with
  | error p => exact Reach.new
  | ok x =>
    refine Reach.ofOps Reach.new ?_ h
    match t with
    | 0 => simp [uniOps, TOp.Allowed, TOp.clears]
    | 1 => simp [uniOps, TOp.Allowed, TOp.clears]
    | 2 => simp [uniOps, TOp.Allowed, TOp.clears]

theorem uniVals_inj {t : Fin 3} {r s : Row (UniS t)} (h : uniVals r = uniVals s) : r = s := by
  funext j
  match t, r, s, h, j with
  | 0, r, s, h, 0 => exact congrArg Prod.fst h
  | 0, r, s, h, 1 => exact congrArg Prod.snd h
  | 1, r, s, h, 0 => exact congrArg Prod.fst h
  | 1, r, s, h, 1 => exact congrArg Prod.snd h
  | 2, r, s, h, 0 => exact congrArg Prod.fst h
  | 2, r, s, h, 1 => exact congrArg Prod.snd h

theorem uniHolds {t : Fin 3} {x : Tbl (UniS t)} {L : List (Row (UniS t))} (hl : x.len = L.length)
    (hr : ∀ i : Fin L.length, (x.getRow i).map uniVals = .ok (uniVals L[i])) : Holds x L := by
  refine ⟨hl, ?_⟩
  intro i hi
  have := hr ⟨i, hi⟩
  cases e : x.getRow i with
  | error p => rw [e] at this; simp [Except.map] at this
  | ok r =>
    simp only [e, Except.map] at this
    injection this with this
    rw [uniVals_inj this]
    rfl

theorem uniReady : Ready uniKey uniCfg uniTbl where
  reach := uniTbl_reach
  room t := by
    match t with
    | 0 => decide
    | 1 => decide
    | 2 => decide
  inOrder p fk h hb L hL := by
    rcases uniIsFK.1 h with ⟨rfl, rfl⟩ | ⟨rfl, rfl⟩
    · cases hb
    · have h2 : Holds (uniTbl 2) [uniRow 2 0 30, uniRow 2 1 31, uniRow 2 1 32, uniRow 2 2 33] := uniHolds rfl (by decide)
      have : L = _ := Holds.unique (S := UniS 2) hL h2
      rw [this]
      simp [SortedBy, FK.ref, uniFK12, uniRow]
      decide

/-- The universe, with no lock held and no call logged. -/
def uniEnv : Env UniS := { tbl := uniTbl, reads := fun _ => 0, writer := fun _ => false, log := [] }

theorem uniUnlocked : Unlocked uniEnv := ⟨fun _ => rfl, fun _ => rfl⟩

/-- All tables, after something happened. -/
def uniDump (r : R (Env UniS)) : Option (List (List (Option (Nat × Nat)))) :=
  match r with
  | .ok e => some [uniView (e.tbl 0) 4, uniView (e.tbl 1) 4, uniView (e.tbl 2) 5]
  | .error _ => none

example : uniDump (session uniCfg 3 uniKey 0 [.delete 0] evDelete uniEnv) =
    some [[none, some (11, 0), some (12, 0), none], [none, none, some (2, 22), none],
      [some (2, 33), none, none, none, none]] := by decide

end V11
