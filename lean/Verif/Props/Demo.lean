import Verif.Lemmas.Columns
import Verif.Lemmas.Holds

/-!
# A concrete schema for the examples

Three columns: an indexed `u32`-like key, a boolean and a plain value; ids up to 255 unless said otherwise.
-/

namespace V11

/-- Columns: `#[index] key`, `flag: bool`, `val`. -/
@[reducible] def demoCols : Fin (2 + 1) → ColSpec
  | 0 => .index Nat inferInstance
  | 1 => .bool
  | 2 => .vec Nat

/-- The demo table of a given kind and row-id maximum. -/
@[reducible] def Demo (kind : Kind) (max : Nat := 255) : Schema := mkSchema demoCols max kind

/-- A row. -/
def demoRow (a : Nat) (b : Bool) (c : Nat) {kind : Kind} {max : Nat} : Row (Demo kind max) := fun j =>
  match j with
  | 0 => a
  | 1 => b
  | 2 => c

/-- The values of a row. -/
def demoVals {kind : Kind} {max : Nat} (r : Row (Demo kind max)) : Nat × Bool × Nat := (r 0, r 1, r 2)

/-- The sort key. -/
def demoKey {kind : Kind} {max : Nat} (r : Row (Demo kind max)) : Nat := r 0

/-- The observable contents, as plain values, of the ids below `n`. -/
def demoView {kind : Kind} {max : Nat} (t : Tbl (Demo kind max)) (n : Nat) : List (Option (Nat × Bool × Nat)) :=
  (List.range n).map fun i => (t.view i).map demoVals

/-- Three rows, of which the middle one was deleted and flushed. -/
def demoOps {max : Nat} : List (TOp (Demo .consistent max)) :=
  [.push (demoRow 5 true 1), .push (demoRow 6 false 2), .push (demoRow 5 true 3), .remove (.these [1])]

example : (runOps demoKey Tbl.new (demoOps (max := 255))).toOption.map (fun t => demoView t 4) =
    some [some (5, true, 1), none, some (5, true, 3), none] := by decide

/-- The table this history leads to. -/
def demoTbl (max : Nat) : Tbl (Demo .consistent max) :=
  match runOps demoKey Tbl.new (demoOps (max := max)) with
  | .ok t => t
  | .error _ => Tbl.new

theorem demoTbl_run : runOps demoKey Tbl.new (demoOps (max := 255)) = .ok (demoTbl 255) := rfl

theorem demoTbl_reach : Reach demoKey true (demoTbl 255) := by
  refine Reach.ofOps Reach.new ?_ demoTbl_run
  intro op hop
  simp only [demoOps, List.mem_cons, List.not_mem_nil, or_false] at hop
  rcases hop with rfl | rfl | rfl | rfl <;> simp [TOp.Allowed, TOp.clears]

theorem demoVals_inj {kind : Kind} {max : Nat} {r s : Row (Demo kind max)} (h : demoVals r = demoVals s) : r = s := by
  have h1 : r 0 = s 0 := congrArg Prod.fst h
  have h2 : r 1 = s 1 := congrArg (fun p => p.2.1) h
  have h3 : r 2 = s 2 := congrArg (fun p => p.2.2) h
  funext j
  match j with
  | 0 => exact h1
  | 1 => exact h2
  | 2 => exact h3

/-- All rows of a table, as plain values. -/
def demoDump {kind : Kind} {max : Nat} (t : Tbl (Demo kind max)) : R (List (Nat × Bool × Nat)) :=
  (List.range t.len).mapM fun i => do
    let r ← t.getRow i
    .ok (demoVals r)

/-- Decides `Holds` for a concrete demo table. -/
theorem demoHolds {kind : Kind} {max : Nat} {t : Tbl (Demo kind max)} {L : List (Row (Demo kind max))}
    (hl : t.len = L.length)
    (hr : ∀ i : Fin L.length, (t.getRow i).map demoVals = .ok (demoVals L[i])) : Holds t L := by
  refine ⟨hl, ?_⟩
  intro i hi
  have := hr ⟨i, hi⟩
  cases e : t.getRow i with
  | error p => rw [e] at this; simp [Except.map] at this
  | ok r =>
    simp only [e, Except.map] at this
    injection this with this
    rw [demoVals_inj this]
    rfl

/-- The table a history leads to (the empty one if it panics). -/
def demoRun {kind : Kind} {max : Nat} (ops : List (TOp (Demo kind max))) : Tbl (Demo kind max) :=
  match runOps demoKey Tbl.new ops with
  | .ok t => t
  | .error _ => Tbl.new

theorem demoRun_reach {kind : Kind} {max : Nat} {c : Bool} (ops : List (TOp (Demo kind max)))
    (ha : ∀ op ∈ ops, op.Allowed kind ∧ op.clears = false) : Reach demoKey c (demoRun ops) := by
  unfold demoRun
  cases h : runOps demoKey Tbl.new ops with
  | error p => exact Reach.new
  | ok t => exact Reach.ofOps Reach.new ha h

/-- A sorted table with keys 3, 5, 5, 9, filled by one merge. -/
def sortedRows : List (Row (Demo .sorted)) :=
  [demoRow 3 true 0, demoRow 5 false 1, demoRow 5 true 2, demoRow 9 false 3]

def sortedTbl : Tbl (Demo .sorted) := demoRun [.merge sortedRows]

theorem sortedTbl_reach {c : Bool} : Reach demoKey c sortedTbl :=
  demoRun_reach _ (by simp [TOp.Allowed, TOp.clears])

theorem sortedTbl_holds : Holds sortedTbl sortedRows := demoHolds rfl (by decide)

theorem sortedRows_sorted : SortedBy demoKey sortedRows := by
  simp [SortedBy, sortedRows, demoKey, demoRow]

/-- A bag with four rows. -/
def bagRows : List (Row (Demo .bag)) :=
  [demoRow 3 true 0, demoRow 5 false 1, demoRow 5 true 2, demoRow 9 false 3]

def bagTbl : Tbl (Demo .bag) := demoRun (bagRows.map .push)

theorem bagTbl_reach {c : Bool} : Reach demoKey c bagTbl :=
  demoRun_reach _ (by simp [bagRows, TOp.Allowed, TOp.clears])

theorem bagTbl_holds : Holds bagTbl bagRows := demoHolds rfl (by decide)

end V11
