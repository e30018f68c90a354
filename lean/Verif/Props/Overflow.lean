import Verif.Props.CrashPoints
import Verif.Lemmas.Overfull

/-!
# Pushing beyond the largest row id (C72)
-/

set_option linter.unusedSimpArgs false
set_option linter.unusedSectionVars false
set_option linter.unusedVariables false

namespace V11
variable {S : Schema} [LS : LawfulSchema S] [LV : LeavesSchema S] {K : Type} [LinearOrder K] {key : Row S → K}

/-- C72: a push onto a table that holds as many rows as the row-id type has values panics; the table it leaves claims to
have one row more, every old row reads as before, indexed searches answer as before, iterating panics and so does every
further push. `clear_raw` makes it usable again: it is then empty and takes rows up to the capacity. -/
theorem C72_push_onto_full [LN : LenSchema S] [LO : OverSchema S] (t : Tbl S) (ht : Survived key t) (hk : S.kind ≠ .consistent)
    (L : List (Row S)) (hL : Holds t L) (hl : L.length = S.max + 1) (row : Row S) :
    ∃ t', Cr.push row t = (t', .error .idxOverflow) ∧ t'.len = L.length + 1 ∧
      (∀ i (h : i < L.length), t'.getRow i = .ok L[i]) ∧
      (∀ j f, (S.C j).find = some f → f (t'.cols j) = f (t.cols j)) ∧
      (∀ j f, (S.C j).range = some f → f (t'.cols j) = f (t.cols j)) ∧
      t'.iterIds = .error .idxOverflow ∧
      (∀ row, (Cr.push row t').2 = .error .idxOverflow) ∧
      ∃ t'', Cr.clearRaw t' = (t'', .ok ()) ∧ t''.len = 0 ∧
        ∀ rows : List (Row S), rows.length ≤ S.max + 1 → ∃ t3, Cr.pushAll (rows.map some) t'' = (t3, .ok ()) ∧ Holds t3 rows := by
  obtain ⟨hw, hf⟩ := ht.wf_of_holds hk hL
  obtain ⟨t', e1, e2, e3, e4⟩ := cr_push_full hw hf row hl
  have htorn : IsTorn t' := by
    have h0 : IsTorn t := by
      refine ⟨L.length, L.length, ⟨fun j _ => ?_, fun j _ => ?_, fun j _ => ?_, le_refl _⟩⟩
      · rw [hw.rep.colLen]
      · rw [hw.rep.colLen]
      · rw [hw.rep.colLen]; omega
    have := (Tri.run key (.push row)) t h0 trivial
    have h2 : ((COp.push row).run key t).1 = t' := by
      show ((Cr.push row >>= fun _ => Cr.ret ()) t).1 = t'
      rw [cr_err e1]
    rw [h2] at this
    exact this.1
  refine ⟨t', e1, e3, ?_, fun j f hj => (e4 j).find f hj, fun j f hj => (e4 j).range f hj, ?_, ?_, ?_⟩
  · intro i hi
    have hold : t.rowAt i = .ok L[i] := hw.rep.rowAt hi
    have hnew : t'.rowAt i = t.rowAt i := by
      unfold Tbl.rowAt
      congr 1
      funext j
      exact (e4 j).index i (by rw [hw.rep.abs]; simpa using hi)
    unfold Tbl.getRow Tbl.check
    rw [if_neg (by omega)]
    simp only [Tbl.isDeleted, hk, decide_false, Bool.false_and, Bool.false_eq_true, if_false, okBind]
    rw [hnew, hold]
  · unfold Tbl.iterIds Tbl.rowRange
    rw [e3, fromUsize_err (by omega), errBind, errBind]
  · intro row'
    exact cr_push_over htorn e2 (by omega) row'
  · obtain ⟨t'', c1, c2, c3⟩ := cr_clear_over e2 e4
    refine ⟨t'', c1, by simpa using c3.len, ?_⟩
    intro rows hr
    obtain ⟨t3, d1, d2, d3⟩ := cr_pushAll c3 c2 rows (by simpa using hr)
    exact ⟨t3, d1, by simpa using d3.holds' hk⟩

/-- C72 for every table `table!` can make of the columns it offers (plain, boolean, indexed). -/
theorem C72_every_table {n : Nat} (cs : Fin (n + 1) → ColSpec) (max : Nat) (kind : Kind) (hk : kind ≠ .consistent)
    (key : Row (mkSchema cs max kind) → K) (t : Tbl (mkSchema cs max kind)) (ht : Survived key t)
    (L : List (Row (mkSchema cs max kind))) (hL : Holds t L) (hl : L.length = max + 1) (row : Row (mkSchema cs max kind)) :
    ∃ t', Cr.push row t = (t', .error .idxOverflow) ∧ t'.len = max + 2 ∧
      (∀ i (h : i < L.length), t'.getRow i = .ok L[i]) ∧ ∃ t'', Cr.clearRaw t' = (t'', .ok ()) ∧ t''.len = 0 := by
  obtain ⟨t', h1, h2, h3, -, -, -, -, t'', h4, h5, -⟩ := C72_push_onto_full t ht hk L hL hl row
  exact ⟨t', h1, by rw [h2, hl], h3, t'', h4, h5⟩

/-! A full table, and what a push leaves of it. -/

/-- Two rows, which is all that ids up to 1 allow. -/
def fullRows : List (Row (Demo .append 1)) := [demoRow 5 true 1, demoRow 6 false 2]

def fullTbl : Tbl (Demo .append 1) := demoRun (fullRows.map .push)

theorem fullTbl_survived : Survived demoKey fullTbl :=
  (C70_reach (c := true) _ (demoRun_reach _ (by simp [fullRows, TOp.Allowed, TOp.clears]))).2

theorem fullTbl_holds : Holds fullTbl fullRows := demoHolds rfl (by decide)

example : ∃ t', Cr.push (demoRow 7 true 3) fullTbl = (t', .error .idxOverflow) ∧ t'.len = 3 := by
  obtain ⟨t', h1, h2, -⟩ := C72_push_onto_full fullTbl fullTbl_survived (by decide) fullRows fullTbl_holds (by decide) (demoRow 7 true 3)
  exact ⟨t', h1, h2⟩

/-- The columns are no longer equally long: the second and third have not received the row. -/
example : (fun t : Tbl (Demo .append 1) => (t.len, (vecCol Nat).len (t.cols 0).inner, boolCol.len (t.cols 1), (vecCol Nat).len (t.cols 2)))
    (Cr.push (demoRow 7 true 3) fullTbl).1 = (3, 3, 2, 2) := by decide

/-! After that, calls can tear rows apart. -/

/-- A plain column before an indexed one. -/
@[reducible] def lateCols : Fin (1 + 1) → ColSpec
  | 0 => .vec Nat
  | 1 => .index Nat inferInstance

/-- A bag with ids up to 1. -/
@[reducible] def Late : Schema := mkSchema lateCols 1 .bag

def lateRow (a b : Nat) : Row Late := fun j =>
  match j with
  | 0 => a
  | 1 => b

/-- Three pushes, of which the last panics, and a deletion of row 0, which panics too: row 0 is now made up of the rows 2
and 0. -/
example : (fun t : Tbl Late => ((t.getRow 0).toOption.map fun r => (r 0, r 1), t.len))
      ([COp.push (lateRow 1 10), .push (lateRow 2 20), .push (lateRow 3 30), .bagDelete 0].foldl
        (fun t op => (op.run (fun r => (r 0 : Nat)) t).1) Tbl.new) = (some (3, 10), 3) := by decide

end V11
