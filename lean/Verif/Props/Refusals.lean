import Verif.Props.Custom
import Verif.Props.Sorted
import Verif.Props.Crash
import Verif.Props.Flush
import Verif.Lemmas.Keep

/-!
# Calls that are refused without effect: the state after the panics of C07 and C18

`Props/Flush` and `Props/Sorted` say which calls panic; here it is said what is left behind: nothing was changed.
-/

set_option linter.unusedSectionVars false
set_option linter.unusedVariables false

namespace V11

section
variable {S : Schema} [LS : LawfulSchema S] [LV : LeavesSchema S] {K : Type} [LinearOrder K] {key : Row S → K} {c : Bool}

/-- In an ascending list the last element is the greatest. -/
theorem le_last : ∀ (l : List Nat), l.Pairwise (· < ·) → ∀ i ∈ l, i ≤ (l.getLast?).getD 0 := by
  intro l
  induction l with
  | nil => simp
  | cons x xs ih =>
    intro hp i hi
    cases xs with
    | nil => simp at hi; simp [hi]
    | cons y ys =>
      rw [List.getLast?_cons_cons]
      have hp' := List.pairwise_cons.1 hp
      rcases List.mem_cons.1 hi with rfl | hi
      · have := ih hp'.2 y (by simp)
        have hxy := hp'.1 y (by simp)
        omega
      · exact ih hp'.2 i hi

/-- C18: ids that are not strictly ascending, or not in range, are refused without effect: the panic leaves the table as it
was. -/
theorem C18_refused_without_effect (t : Tbl S) (ht : Reach key c t) (hs : S.kind = .sorted) (L : List (Row S)) (hL : Holds t L)
    (ids : List Nat) (hbad : ¬ (ids.Pairwise (· < ·) ∧ ∀ i ∈ ids, i < L.length)) :
    (COp.removeRows ids).run key t =
      (t, .error (if ids.Pairwise (· < ·) then .removeOob else .removeUnsorted)) := by
  obtain ⟨hw, hf⟩ := ht.wf_of_holds (sorted_ne hs) hL
  show Cr.removeRows ids t = _
  cases ids with
  | nil => exact absurd ⟨List.Pairwise.nil, by simp⟩ hbad
  | cons r rs =>
    unfold Cr.removeRows
    simp only []
    have hck := removeCheck_start r rs
    by_cases hpw : (r :: rs).Pairwise (· < ·)
    · rw [if_pos hpw] at hck ⊢
      have h1 : Cr.lift (S := S) (removeCheck 0 (if r = 0 then rs else r :: rs)) t = (t, .ok ()) := by
        unfold Cr.lift; rw [hck]
      have h2 : Cr.look (S := S) (fun t => .ok t.len) t = (t, .ok t.len) := rfl
      rw [cr_ok h1, cr_ok h2]
      have hlt : ¬ ((r :: rs).getLast?).getD 0 < t.len := by
        intro hlt
        exact hbad ⟨hpw, fun i hi => by have := le_last _ hpw i hi; rw [← hw.len]; omega⟩
      rw [if_neg hlt]
      rfl
    · rw [if_neg hpw] at hck ⊢
      have h1 : Cr.lift (S := S) (removeCheck 0 (if r = 0 then rs else r :: rs)) t = (t, .error .removeUnsorted) := by
        unfold Cr.lift; rw [hck]
      rw [cr_err h1]

end

/-- Ids out of order, and ids out of range, on the sorted demo table. -/
example : ((COp.removeRows [2, 1]).run demoKey sortedTbl).2 = .error .removeUnsorted ∧
    ((COp.removeRows [0, 9]).run demoKey sortedTbl).2 = .error .removeOob := by decide

section
variable {T : Type} [DecidableEq T] {S : T → Schema} [LS : ∀ t, LawfulSchema (S t)] [LV : ∀ t, LeavesSchema (S t)]
  {K : Type} [LinearOrder K] {key : (t : T) → Row (S t) → K}

/-- C07: whatever code the trackers run, a `flush` that is refused — rows were both added and deleted under the lock —
has only given the lock back: no tracker ran and the table is as the session left it, with every deleted row still in it. -/
theorem C07_refused_without_effect (cfg : XCfg S) {p : T} (hp : (S p).kind = .consistent) (t : Tbl (S p))
    (ops : List (LOp (S p))) (w : W (S p)) (hs : (W.lock t).steps (key p) ops = .ok w)
    (ha : ∃ op ∈ ops, op.adds = true) (hd : ∃ op ∈ ops, op.deletes = true) (ev : Event) (env : Env S) :
    xFlush cfg p w ev env = (env.unlock p w.tbl, .error .interleaved) := by
  have hb := steps_book hp ops hs
  have h1 : ops.any LOp.adds = true := List.any_eq_true.2 ha
  have h2 : ops.any LOp.deletes = true := List.any_eq_true.2 hd
  have h3 : ops.any LOp.touches = true := by
    obtain ⟨op, hop, h⟩ := ha
    refine List.any_eq_true.2 ⟨op, hop, ?_⟩
    cases op <;> simp_all [LOp.adds, LOp.touches]
  have hp' : w.pushed = true := by rw [hb.pushed, h1]; simp
  have hd' : w.delete = true := by rw [hb.delete, h2]; simp
  have he : w.changes.isEmpty = false := by rw [hb.empty, h3]; simp
  unfold xFlush
  simp only []
  rw [if_neg (by simp [he])]
  unfold xDoFlush
  rw [if_pos (by simp [hp', hd'])]
  rfl

/-- C07: the same for an event that claims to be both a creation and a removal. -/
theorem C07_contradiction_without_effect (cfg : XCfg S) (p : T) (w : W (S p)) (ev : Event) (env : Env S)
    (hr : ev.isRemoval = true) (hc : ev.isCreation = true) (he : w.changes.isEmpty = false) :
    xFlush cfg p w ev env = (env.unlock p w.tbl, .error .interleaved) := by
  unfold xFlush
  simp only []
  rw [if_neg (by simp [he])]
  unfold xDoFlush
  rw [if_pos (by simp [hr, hc])]
  rfl

end

/-- C07 with tracker code that would panic: it is not reached, table 1 is untouched. -/
example : ((fun r => (uniView (r.1.tbl 0) 4, uniView (r.1.tbl 1) 4, r.2))
      (xFlush (customCfg [faulty]) 0 { markedW with pushed := true } evDelete lockedUni)) =
    ([some (10, 0), some (11, 0), some (12, 0), none], [some (0, 20), some (0, 21), some (2, 22), none], .error .interleaved) := by
  decide

end V11
