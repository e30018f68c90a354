import Verif.Spec.Holds
import Verif.Lemmas.Reach
import Verif.Lemmas.Remove

/-!
# `Holds` and well-formedness
-/

set_option linter.unusedSimpArgs false
set_option linter.unusedSectionVars false

namespace V11
variable {S : Schema} [LS : LawfulSchema S] {K : Type} [LinearOrder K] {key : Row S → K}

theorem WF.holds {t : Tbl S} {L : List (Row S)} (h : WF t L) (hf : t.free = []) : Holds t L :=
  ⟨h.len, fun i hi => h.getRow hi (by simp [hf])⟩

theorem Holds.unique {t : Tbl S} {L L' : List (Row S)} (h : Holds t L) (h' : Holds t L') : L = L' := by
  apply List.ext_getElem
  · rw [← h.1, ← h'.1]
  · intro i h1 h2
    have := (h.2 i h1).symm.trans (h'.2 i h2)
    injection this

/-- Every reachable non-consistent table holds some list of rows, and is well formed with any list it
holds. -/
theorem Reach.holds {c : Bool} {t : Tbl S} (h : Reach key c t) (hk : S.kind ≠ .consistent) :
    ∃ L, Holds t L ∧ WF t L ∧ t.free = [] := by
  obtain ⟨L, d, ha⟩ := h.aligned
  have hw := ha.wf hk
  exact ⟨L, hw.holds (hw.kind hk), hw, hw.kind hk⟩

theorem Reach.wf_of_holds {c : Bool} {t : Tbl S} {L : List (Row S)} (h : Reach key c t) (hk : S.kind ≠ .consistent)
    (hL : Holds t L) : WF t L ∧ t.free = [] := by
  obtain ⟨L', h1, h2, h3⟩ := h.holds hk
  rw [hL.unique h1]
  exact ⟨h2, h3⟩

theorem WF.holds' {t : Tbl S} {L : List (Row S)} (h : WF t L) (hk : S.kind ≠ .consistent) : Holds t L :=
  h.holds (h.kind hk)

end V11
