import Verif.Spec.Usage
import Verif.Lemmas.Reach
import Verif.Lemmas.Bag
import Mathlib.Data.List.Induction
import Verif.Props.Demo

/-!
# How many ids a consistent table takes: C91

`Tbl.len` is the length of the table's columns: the number of ids that are or were in use, and the memory taken.
-/

set_option linter.unusedSimpArgs false
set_option linter.unusedSectionVars false
set_option linter.unusedVariables false

namespace V11
variable {S : Schema} [LS : LawfulSchema S] {K : Type} [LinearOrder K] {key : Row S → K}

theorem liveCount_le (t : Tbl S) : liveCount t ≤ t.len := by
  unfold liveCount
  refine (List.length_filter_le _ _).trans ?_
  simp

theorem liveCount_full {t : Tbl S} {L : List (Row S)} (h : WF t L) (hf : t.free = []) : liveCount t = t.len := by
  unfold liveCount
  rw [List.filter_eq_self.2]
  · simp
  · intro i hi
    rw [List.mem_range, h.len] at hi
    exact (h.contains_iff i).2 ⟨hi, by simp [hf]⟩

theorem single_step {op : TOp S} (ho : op.Single) (hk : S.kind = .consistent) {t t' : Tbl S} {L : List (Row S)} (h : WF t L)
    (hr : op.run key t = .ok t') : ∃ L', WF t' L' ∧ t.len ≤ t'.len ∧ (t'.len = t.len ∨ t'.free = []) := by
  cases op with
  | push row =>
    simp only [TOp.run] at hr
    rcases WF.push (w := W.lock t) h row with ⟨old, rest, t1, -, e1, -, e3⟩ | ⟨t1, -, -, e1, e2, e3⟩ | ⟨-, -, e1⟩
    · rw [e1, okBind] at hr; injection hr with hr; subst hr
      refine ⟨_, e3, ?_, Or.inl ?_⟩ <;> simp [e3.len, h.len]
    · rw [e1, okBind] at hr; injection hr with hr; subst hr
      refine ⟨_, e3, ?_, Or.inr e2⟩
      simp [e3.len, h.len]
    · rw [e1, errBind] at hr; cases hr
  | set j i v =>
    simp only [TOp.run] at hr
    by_cases hi : i < L.length
    · rcases h.setCell j v hi with e | ⟨t1, e1, -, e3⟩
      · rw [hr] at e; cases e
      · rw [hr] at e1; injection e1 with e1; subst e1
        refine ⟨_, e3, ?_, Or.inl ?_⟩ <;> simp [e3.len, h.len]
    · rw [h.rep.setCell_oob j v (by omega)] at hr; cases hr
  | remove sel =>
    simp only [TOp.run] at hr
    cases sel with
    | all => exact absurd ho (by simp [TOp.Single])
    | these rows =>
      simp only [Tbl.removeSel] at hr
      rw [h.len] at hr
      by_cases hall : ∀ i ∈ rows, i < L.length
      · obtain ⟨t1, e1, -, e3⟩ := h.deleteLoop hk rows hall
        rw [e1] at hr; injection hr with hr; subst hr
        refine ⟨_, e3, ?_, Or.inl ?_⟩ <;> simp [e3.len, h.len]
      · simp only [not_forall, not_lt] at hall
        obtain ⟨i, hi, hge⟩ := hall
        rw [(h.aligned.deleteLoop hk rows).2 ⟨i, hi, hge⟩] at hr; cases hr
  | _ => exact absurd ho (by simp [TOp.Single])

theorem single_run (hk : S.kind = .consistent) (ops : List (TOp S)) (ho : ∀ op ∈ ops, op.Single) {t t' : Tbl S} {L : List (Row S)} (h : WF t L)
    (hr : runOps key t ops = .ok t') : ∃ L', WF t' L' ∧ t.len ≤ t'.len := by
  induction ops generalizing t L with
  | nil => injection hr with hr; subst hr; exact ⟨L, h, le_refl _⟩
  | cons op ops ih =>
    unfold runOps at hr
    rw [List.foldlM_cons] at hr
    cases e : op.run key t with
    | error p => rw [e, errBind] at hr; cases hr
    | ok t1 =>
      rw [e, okBind] at hr
      obtain ⟨L1, h1, h2, -⟩ := single_step (ho op (by simp)) hk h e
      obtain ⟨L2, h3, h4⟩ := ih (fun o h => ho o (by simp [h])) h1 hr
      exact ⟨L2, h3, by omega⟩

theorem runOps_append (a b : List (TOp S)) (t : Tbl S) : runOps key t (a ++ b) = (do let t ← runOps key t a; runOps key t b) := by
  unfold runOps
  rw [List.foldlM_append]

/-- C91: in a history in which rows are pushed one at a time, edited and removed, a consistent table takes exactly as many ids
as the greatest number of rows it had at any time: some point of the history had that many, and none had more. In
particular every id `push` ever returned is below that number. -/
theorem C91_ids_are_peak (hk : S.kind = .consistent) (ops : List (TOp S)) (ho : ∀ op ∈ ops, op.Single) (t : Tbl S)
    (h : runOps key Tbl.new ops = .ok t) :
    (∃ before after t0, ops = before ++ after ∧ runOps key Tbl.new before = .ok t0 ∧ liveCount t0 = t.len) ∧
    (∀ before after t0, ops = before ++ after → runOps key Tbl.new before = .ok t0 → liveCount t0 ≤ t.len) ∧
    ∀ i, t.contains i = true → i < t.len := by
  have hwf : WF (Tbl.new : Tbl S) [] := WF.new
  refine ⟨?_, ?_, ?_⟩
  · induction ops using List.reverseRecOn generalizing t with
    | nil =>
      injection h with h; subst h
      exact ⟨[], [], Tbl.new, rfl, rfl, liveCount_full hwf rfl⟩
    | append_singleton ops op ih =>
      have h0 := h
      rw [runOps_append] at h
      cases e : runOps key Tbl.new ops with
      | error p => rw [e, errBind] at h; cases h
      | ok t1 =>
        rw [e, okBind] at h
        unfold runOps at h
        rw [List.foldlM_cons] at h
        have h' : op.run key t1 = .ok t := by
          cases e1 : op.run key t1 with
          | error p => rw [e1, errBind] at h; cases h
          | ok t2 => rw [e1, okBind] at h; exact h
        obtain ⟨L1, w1, -⟩ := single_run hk ops (fun o h => ho o (by simp [h])) hwf e
        obtain ⟨L2, w2, w3, w4⟩ := single_step (ho op (by simp)) hk w1 h'
        rcases w4 with w4 | w4
        · obtain ⟨a, b, t0, e1, e2, e3⟩ := ih (fun o h => ho o (by simp [h])) t1 e
          exact ⟨a, b ++ [op], t0, by rw [e1]; simp, e2, by omega⟩
        · exact ⟨ops ++ [op], [], t, by simp, h0, liveCount_full w2 w4⟩
  · intro a b t0 e h0
    subst e
    rw [runOps_append, h0, okBind] at h
    obtain ⟨L1, w1, -⟩ := single_run hk a (fun o h => ho o (by simp [h])) hwf h0
    obtain ⟨L2, w2, w3⟩ := single_run hk b (fun o h => ho o (by simp [h])) w1 h
    have := liveCount_le t0
    omega
  · intro i hi
    obtain ⟨L, w, -⟩ := single_run hk ops ho hwf h
    rw [w.len]
    exact ((w.contains_iff i).1 hi).1

theorem append_and_delete (hk : S.kind = .consistent) (row : Row S) (n : Nat) (hn : n ≤ S.max) :
    ∃ t L, runOps key Tbl.new (appendAndDelete row n) = .ok t ∧ WF t L ∧ L.length = n ∧ ∀ i < n, i ∈ t.free := by
  induction n with
  | zero => exact ⟨Tbl.new, [], rfl, WF.new, rfl, by simp⟩
  | succ n ih =>
    obtain ⟨t, L, h1, h2, h3, h4⟩ := ih (by omega)
    obtain ⟨t1, e1, e2, e3⟩ := (Aligned.pushArray (w := W.lock t) [row] (by simp) h2.aligned (by intro i hi; exact h2.lt i hi)).1
      (by simp; omega)
    have w1 : WF t1 (L ++ [row]) := by
      refine WF.of_aligned e3 ?_ ?_
      · intro i _; rw [e2]; simp [W.lock]
      · intro i hi; rw [e2] at hi
        have := h2.lt i (by simpa [W.lock] using hi)
        simp; omega
    obtain ⟨t2, f1, f2, f3⟩ := w1.deleteLoop hk [n] (by simp; omega)
    refine ⟨t2, L ++ [row], ?_, f3, by simp [h3], ?_⟩
    · unfold appendAndDelete at h1 ⊢
      rw [List.range_succ, List.flatMap_append, runOps_append, h1, okBind]
      simp only [List.flatMap_cons, List.flatMap_nil, List.append_nil]
      unfold runOps
      rw [List.foldlM_cons]
      have r1 : (TOp.pushArray [row] : TOp S).run key t = .ok t1 := by
        simp only [TOp.run]
        rw [e1, okBind]
      rw [r1, okBind, List.foldlM_cons]
      have r2 : (TOp.remove (.these [n]) : TOp S).run key t1 = .ok t2 := by
        simp only [TOp.run, Tbl.removeSel]
        rw [w1.len]
        exact f1
      rw [r2, okBind]
      rfl
    · intro i hi
      rw [f2]
      rcases Nat.lt_or_ge i n with hlt | hge
      · right
        rw [e2]
        exact h4 i hlt
      · left
        simp
        omega

/-- C91, the defect: `push_array` never uses free ids, so appending one row and deleting it `n` times takes `n` ids although
at most one row is ever live, and once that has been done `S.max` times the next `push_array` of a single row panics, in a
table without a single row. -/
theorem C91_push_array_leaks (hk : S.kind = .consistent) (row : Row S) :
    (∀ n, n ≤ S.max → ∃ t, runOps key Tbl.new (appendAndDelete row n) = .ok t ∧ t.len = n ∧ liveCount t = 0) ∧
    runOps key Tbl.new (appendAndDelete row S.max ++ [.pushArray [row]]) = .error .idxOverflow := by
  refine ⟨fun n hn => ?_, ?_⟩
  · obtain ⟨t, L, h1, h2, h3, h4⟩ := append_and_delete (key := key) hk row n hn
    refine ⟨t, h1, by rw [h2.len, h3], ?_⟩
    unfold liveCount
    rw [List.length_eq_zero_iff, List.filter_eq_nil_iff]
    intro i hi hc
    rw [List.mem_range, h2.len, h3] at hi
    exact ((h2.contains_iff i).1 hc).2 (h4 i hi)
  · obtain ⟨t, L, h1, h2, h3, h4⟩ := append_and_delete (key := key) hk row S.max (le_refl _)
    rw [runOps_append, h1, okBind]
    unfold runOps
    rw [List.foldlM_cons]
    have r1 : (TOp.pushArray [row] : TOp S).run key t = .error .idxOverflow := by
      simp only [TOp.run]
      rw [(Aligned.pushArray (w := W.lock t) [row] (by simp) h2.aligned (by intro i hi; exact h2.lt i hi)).2 (by simp; omega)]
      rfl
    rw [r1]
    rfl

/-! ## A concrete case: three rows, one removed, one added again: three ids, the peak -/

/-- Three rows are pushed, two removed and one pushed again. -/
def demoPeak : List (TOp (Demo .consistent)) :=
  [.push (demoRow 5 true 1), .push (demoRow 6 false 2), .push (demoRow 5 true 3), .remove (.these [1, 0]), .push (demoRow 7 true 4)]

theorem demoPeak_single : ∀ op ∈ demoPeak, op.Single := by
  intro op hop
  simp only [demoPeak, List.mem_cons, List.not_mem_nil, or_false] at hop
  rcases hop with rfl | rfl | rfl | rfl | rfl <;> simp [TOp.Single]

example : (runOps demoKey Tbl.new demoPeak).toOption.map (fun t => (t.len, liveCount t)) = some (3, 2) := by decide

example : (runOps demoKey (Tbl.new : Tbl (Demo .consistent)) (appendAndDelete (demoRow 5 true 1) 4)).toOption.map
    (fun t => (t.len, liveCount t)) = some (4, 0) := by decide

end V11
