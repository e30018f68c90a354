import Verif.Lemmas.Remove
import Verif.Lemmas.Bag

/-!
# Every reachable table is well formed; no operation has undefined behaviour
-/

set_option linter.unusedSimpArgs false
set_option linter.unusedSectionVars false

namespace V11
variable {S : Schema} [LS : LawfulSchema S] {K : Type} [LinearOrder K]

/-- The explicit panics the structural operations can end in. -/
def opPanics : List Panic :=
  [.idxOverflow, .indexOob, .deletedRow, .indexedMut, .assertRow, .badDelete, .subOverflow, .removeUnsorted, .removeOob]

/-- What an operation on a well-formed table leads to. -/
def Fine (r : R (Tbl S)) : Prop :=
  (∃ t L d, r = .ok t ∧ Aligned t L d) ∨ ∃ p, r = .error p ∧ p ∈ opPanics

theorem fine_of_wf {r : R (Tbl S)} (h : (∃ t L, r = .ok t ∧ WF t L) ∨ ∃ p, r = .error p ∧ p ∈ opPanics) : Fine r := by
  rcases h with ⟨t, L, h1, h2⟩ | h
  · exact Or.inl ⟨t, L, _, h1, h2.aligned⟩
  · exact Or.inr h

theorem bindErr_tbl {α : Type} {r : R α} {f : α → R (Tbl S)} {p : Panic} (h : r = .error p) : (r >>= f) = .error p := by
  rw [h, errBind]

/-- `retain` and `visit` keep a well-formed table well formed. -/
theorem merge0_wf {t : Tbl S} {L : List (Row S)} (h : WF t L) (hf : t.free = [])
    (f : Tbl S → Nat → Unit → Action (Row S) × Unit) :
    (∃ t' L', (do let (t, _) ← t.merge0 f (); Except.ok t : R (Tbl S)) = .ok t' ∧ WF t' L') ∨
    (do let (t, _) ← t.merge0 f (); Except.ok t : R (Tbl S)) = .error .idxOverflow := by
  rcases merge0_all h hf f () with ⟨seen, -, h1, h2⟩ | ⟨-, h1⟩
  · by_cases hc : (visitSpec (fun i s => f (seen i) i s) 0 L ()).1.length ≤ S.max + 1
    · obtain ⟨t', e1, -, e3⟩ := h1 hc
      exact Or.inl ⟨t', _, by rw [e1, okBind], e3⟩
    · exact Or.inr (by rw [h2 (by omega), errBind])
  · exact Or.inr (by rw [h1, errBind])

theorem nonconsistent_total (key : Row S → K) {op : TOp S} {t : Tbl S} {L : List (Row S)} (h : WF t L)
    (hk : S.kind ≠ .consistent) (ha : op.Allowed S.kind) :
    (∃ t' L', op.run key t = .ok t' ∧ WF t' L') ∨ ∃ p, op.run key t = .error p ∧ p ∈ opPanics := by
  have hf : t.free = [] := h.kind hk
  cases op with
  | push row =>
    simp only [TOp.run]
    rcases WF.push (w := W.lock t) h row with ⟨old, rest, t', e0, -, -, -⟩ | ⟨t', -, -, e1, -, e3⟩ | ⟨-, -, e1⟩
    · exact absurd e0 (by simp [W.lock, hf])
    · exact Or.inl ⟨t', _, by rw [e1, okBind], e3⟩
    · exact Or.inr ⟨_, by rw [e1, errBind], by simp [opPanics]⟩
  | pushArray rows =>
    simp only [TOp.run]
    by_cases hne : rows = []
    · subst hne; exact Or.inl ⟨t, L, rfl, h⟩
    · have := Aligned.pushArray (w := W.lock t) rows hne h.aligned (by intro i hi; exact h.lt i hi)
      by_cases hc : L.length + rows.length ≤ S.max
      · obtain ⟨t', e1, e2, e3⟩ := this.1 hc
        refine Or.inl ⟨t', L ++ rows, by rw [e1, okBind], WF.of_aligned e3 ?_ ?_⟩
        · intro i _; rw [e2]; simp [W.lock]
        · intro i hi; rw [e2] at hi; simp [W.lock, hf] at hi
      · exact Or.inr ⟨_, by rw [this.2 (by omega), errBind], by simp [opPanics]⟩
  | set j i v =>
    simp only [TOp.run]
    by_cases hi : i < L.length
    · rcases h.setCell j v hi with e | ⟨t', e1, -, e3⟩
      · exact Or.inr ⟨_, e, by simp [opPanics]⟩
      · exact Or.inl ⟨t', _, e1, e3⟩
    · exact Or.inr ⟨_, h.rep.setCell_oob j v (by omega), by simp [opPanics]⟩
  | remove sel =>
    simp only [TOp.run]
    cases sel with
    | all =>
      obtain ⟨t', e1, -, e3⟩ := h.clearRaw hf
      exact Or.inl ⟨t', _, e1, e3⟩
    | these rows =>
      simp only [Tbl.removeSel]
      by_cases hb : S.kind = .bag
      · rcases h.deleteLoop_bag hb t.len rows with ⟨t', e1, -, -, e4⟩ | e | e
        · exact Or.inl ⟨t', _, e1, e4⟩
        · exact Or.inr ⟨_, e, by simp [opPanics]⟩
        · exact Or.inr ⟨_, e, by simp [opPanics]⟩
      · cases rows with
        | nil => exact Or.inl ⟨t, L, rfl, h⟩
        | cons r rs =>
          rcases deleteLoop_other (t := t) hk hb t.len r rs with e | e
          · exact Or.inr ⟨_, e, by simp [opPanics]⟩
          · exact Or.inr ⟨_, e, by simp [opPanics]⟩
  | bagDelete i =>
    simp only [TOp.run]
    by_cases hi : i < L.length
    · obtain ⟨t', e1, e2⟩ := bagDelete_ok h ha hi
      exact Or.inl ⟨t', _, e1, e2⟩
    · exact Or.inr ⟨_, bagDelete_oob h (by omega), by simp [opPanics]⟩
  | clearRaw =>
    obtain ⟨t', e1, -, e3⟩ := h.clearRaw hf
    exact Or.inl ⟨t', _, e1, e3⟩
  | retain f =>
    rcases merge0_wf h hf (fun t i s => let (b, s) := (f t i, ()); (.cont (!b) [], s)) with e | e
    · exact Or.inl e
    · exact Or.inr ⟨_, e, by simp [opPanics]⟩
  | visit f =>
    rcases merge0_wf h hf (fun t i _ => (f t i, ())) with e | e
    · exact Or.inl e
    · exact Or.inr ⟨_, e, by simp [opPanics]⟩
  | merge rows =>
    simp only [TOp.run]
    cases rows with
    | nil => exact Or.inl ⟨t, L, rfl, h⟩
    | cons first rest =>
      have := mergeLogged_cons key h hf first rest
      by_cases hc : L.length ≤ S.max ∧ L.length + (rest.length + 1) ≤ S.max + 1
      · obtain ⟨t', e1, -, e3⟩ := this.1 hc.1 hc.2
        exact Or.inl ⟨t', _, by rw [e1, okBind], e3⟩
      · exact Or.inr ⟨_, by rw [this.2 (by omega), errBind], by simp [opPanics]⟩
  | removeRows ids =>
    simp only [TOp.run]
    obtain ⟨h1, h2, h3⟩ := removeRows_ok h hf ids
    by_cases hs : ids.Pairwise (· < ·)
    · by_cases hl : ∀ i ∈ ids, i < L.length
      · obtain ⟨t', e1, -, e3⟩ := h1 hs hl
        exact Or.inl ⟨t', _, e1, e3⟩
      · exact Or.inr ⟨_, h3 hs hl, by simp [opPanics]⟩
    · exact Or.inr ⟨_, h2 hs, by simp [opPanics]⟩

/-- Shrinks the dead set of an aligned table to ids in range. -/
theorem Aligned.restrict {t : Tbl S} {L : List (Row S)} {d : Nat → Prop} (h : Aligned t L d) :
    Aligned t L (fun i => d i ∧ i < L.length) :=
  ⟨h.rep.congr (fun i hi => by simp [hi]), h.ok, fun hk => ⟨(h.kind hk).1, fun i hi => (h.kind hk).2 i hi.1⟩⟩

theorem aligned_total (key : Row S → K) {op : TOp S} {t : Tbl S} {L : List (Row S)} {d : Nat → Prop} (h : Aligned t L d)
    (ha : op.Allowed S.kind) : Fine (op.run key t) := by
  by_cases hk : S.kind = .consistent
  swap
  · exact fine_of_wf (nonconsistent_total key (h.wf hk) hk ha)
  cases op with
  | push row =>
    simp only [TOp.run]
    cases hf : t.free with
    | nil =>
      rw [push_end_of_nil (w := W.lock t) row hf]
      by_cases hl : L.length ≤ S.max
      · obtain ⟨t', e1, -, e3⟩ := Aligned.pushEnd (w := W.lock t) h row hl
        exact Or.inl ⟨t', _, _, by rw [e1, okBind], e3⟩
      · exact Or.inr ⟨_, by rw [Aligned.pushEnd_full (w := W.lock t) h row (by omega), errBind], by simp [opPanics]⟩
    | cons old rest =>
      by_cases hlt : old < L.length
      · obtain ⟨t', e1, -, e3⟩ := Aligned.push_free (w := W.lock t) h row hf hlt
        exact Or.inl ⟨t', _, _, by rw [e1, okBind], e3⟩
      · exact Or.inr ⟨_, by rw [Aligned.push_stale (w := W.lock t) h row hf (by omega), errBind], by simp [opPanics]⟩
  | pushArray rows =>
    simp only [TOp.run]
    by_cases hne : rows = []
    · subst hne; exact Or.inl ⟨t, L, d, rfl, h⟩
    · have := Aligned.pushArray (w := W.lock t) rows hne h.restrict (by intro i hi; exact hi.2)
      by_cases hc : L.length + rows.length ≤ S.max
      · obtain ⟨t', e1, e2, e3⟩ := this.1 hc
        exact Or.inl ⟨t', L ++ rows, _, by rw [e1, okBind], e3⟩
      · exact Or.inr ⟨_, by rw [this.2 (by omega), errBind], by simp [opPanics]⟩
  | set j i v =>
    simp only [TOp.run]
    by_cases hi : i < L.length
    · rcases h.rep.setCell j v hi with e | ⟨t', e1, e2, e3⟩
      · exact Or.inr ⟨_, e, by simp [opPanics]⟩
      · exact Or.inl ⟨t', _, d, e1, ⟨e2, by rw [e3]; exact h.ok, fun hk' => absurd hk hk'⟩⟩
    · exact Or.inr ⟨_, h.rep.setCell_oob j v (by omega), by simp [opPanics]⟩
  | remove sel =>
    simp only [TOp.run]
    cases sel with
    | all =>
      obtain ⟨t', e1, -, e3⟩ := h.clearRaw
      exact Or.inl ⟨t', _, _, e1, e3⟩
    | these rows =>
      simp only [Tbl.removeSel]
      rw [h.rep.len]
      by_cases hall : ∀ i ∈ rows, i < L.length
      · obtain ⟨t', e1, -, e3⟩ := (h.deleteLoop hk rows).1 hall
        exact Or.inl ⟨t', _, _, e1, e3⟩
      · simp only [not_forall, not_lt] at hall
        obtain ⟨i, hi, hge⟩ := hall
        exact Or.inr ⟨_, (h.deleteLoop hk rows).2 ⟨i, hi, hge⟩, by simp [opPanics]⟩
  | bagDelete i => simp [TOp.Allowed, hk] at ha
  | clearRaw =>
    obtain ⟨t', e1, -, e3⟩ := h.clearRaw
    exact Or.inl ⟨t', _, _, e1, e3⟩
  | retain f => exact absurd hk ha
  | visit f => exact absurd hk ha.1
  | merge rows => simp [TOp.Allowed, hk] at ha
  | removeRows ids => simp [TOp.Allowed, hk] at ha

theorem op_wf (key : Row S → K) {op : TOp S} {t t' : Tbl S} {L : List (Row S)} (h : WF t L)
    (ha : op.Allowed S.kind) (hc : op.clears = true → t.free = []) (hr : op.run key t = .ok t') :
    ∃ L', WF t' L' := by
  by_cases hk : S.kind = .consistent
  swap
  · rcases nonconsistent_total key h hk ha with ⟨t1, L', e1, e2⟩ | ⟨p, e1, -⟩
    · rw [hr] at e1; cases e1; exact ⟨L', e2⟩
    · rw [hr] at e1; cases e1
  cases op with
  | push row =>
    simp only [TOp.run] at hr
    rcases WF.push (w := W.lock t) h row with ⟨old, rest, t1, -, e1, -, e3⟩ | ⟨t1, -, -, e1, -, e3⟩ | ⟨-, -, e1⟩
    · rw [e1, okBind] at hr; injection hr with hr; subst hr; exact ⟨_, e3⟩
    · rw [e1, okBind] at hr; injection hr with hr; subst hr; exact ⟨_, e3⟩
    · rw [e1, errBind] at hr; cases hr
  | pushArray rows =>
    simp only [TOp.run] at hr
    by_cases hne : rows = []
    · subst hne; injection hr with hr; subst hr; exact ⟨L, h⟩
    · have := Aligned.pushArray (w := W.lock t) rows hne h.aligned (by intro i hi; exact h.lt i hi)
      by_cases hl : L.length + rows.length ≤ S.max
      · obtain ⟨t1, e1, e2, e3⟩ := this.1 hl
        rw [e1, okBind] at hr; injection hr with hr; subst hr
        refine ⟨L ++ rows, WF.of_aligned e3 ?_ ?_⟩
        · intro i _; rw [e2]; simp [W.lock]
        · intro i hi; rw [e2] at hi
          have := h.lt i (by simpa [W.lock] using hi)
          simp; omega
      · rw [this.2 (by omega), errBind] at hr; cases hr
  | set j i v =>
    simp only [TOp.run] at hr
    by_cases hi : i < L.length
    · rcases h.setCell j v hi with e | ⟨t1, e1, -, e3⟩
      · rw [hr] at e; cases e
      · rw [hr] at e1; injection e1 with e1; subst e1; exact ⟨_, e3⟩
    · rw [h.rep.setCell_oob j v (by omega)] at hr; cases hr
  | remove sel =>
    simp only [TOp.run] at hr
    cases sel with
    | all =>
      obtain ⟨t1, e1, -, e3⟩ := h.clearRaw (hc rfl)
      simp only [Tbl.removeSel] at hr
      rw [e1] at hr; injection hr with hr; subst hr; exact ⟨_, e3⟩
    | these rows =>
      simp only [Tbl.removeSel] at hr
      rw [h.len] at hr
      by_cases hall : ∀ i ∈ rows, i < L.length
      · obtain ⟨t1, e1, -, e3⟩ := h.deleteLoop hk rows hall
        rw [e1] at hr; injection hr with hr; subst hr; exact ⟨_, e3⟩
      · simp only [not_forall, not_lt] at hall
        obtain ⟨i, hi, hge⟩ := hall
        rw [(h.aligned.deleteLoop hk rows).2 ⟨i, hi, hge⟩] at hr; cases hr
  | bagDelete i => simp [TOp.Allowed, hk] at ha
  | clearRaw =>
    obtain ⟨t1, e1, -, e3⟩ := h.clearRaw (hc rfl)
    simp only [TOp.run] at hr
    rw [e1] at hr; injection hr with hr; subst hr; exact ⟨_, e3⟩
  | retain f => exact absurd hk ha
  | visit f => exact absurd hk ha.1
  | merge rows => simp [TOp.Allowed, hk] at ha
  | removeRows ids => simp [TOp.Allowed, hk] at ha

omit LS in
/-- A history of operations that never empties the table at once is clean. -/
theorem Reach.ofOps {key : Row S → K} {c : Bool} {t t' : Tbl S} {ops : List (TOp S)} (h : Reach key c t)
    (ha : ∀ op ∈ ops, op.Allowed S.kind ∧ op.clears = false) (hr : runOps key t ops = .ok t') : Reach key c t' := by
  induction ops generalizing t with
  | nil => injection hr with hr; subst hr; exact h
  | cons op ops ih =>
    unfold runOps at hr
    rw [List.foldlM_cons] at hr
    cases e : op.run key t with
    | error p => rw [e, errBind] at hr; cases hr
    | ok t1 =>
      rw [e, okBind] at hr
      have hop := ha op (by simp)
      exact ih (h.step hop.1 (by simp [hop.2]) e) (fun o ho => ha o (by simp [ho])) hr

/-- Every table reached by a history is aligned: equal column lengths, consistent indexes. -/
theorem Reach.aligned {key : Row S → K} {c : Bool} {t : Tbl S} (h : Reach key c t) : ∃ L d, Aligned t L d := by
  induction h with
  | new => exact ⟨[], _, WF.new.aligned⟩
  | step hr ha hc hrun ih =>
    obtain ⟨L, d, hal⟩ := ih
    rcases aligned_total key hal ha with ⟨t1, L1, d1, e1, e2⟩ | ⟨p, e1, -⟩
    · rw [hrun] at e1; injection e1 with e1; subst e1; exact ⟨L1, d1, e2⟩
    · rw [hrun] at e1; cases e1

/-- Every table reached by a clean history is well formed. -/
theorem Reach.wf {key : Row S → K} {t : Tbl S} (h : Reach key true t) : ∃ L, WF t L := by
  induction h with
  | new => exact ⟨[], WF.new⟩
  | step hr ha hc hrun ih =>
    rename_i t t' op
    obtain ⟨L, hwf⟩ := ih
    refine op_wf key hwf ha ?_ hrun
    intro hcl
    have := hc rfl hcl
    cases hf : t.free with
    | nil => rfl
    | cons x xs =>
      have hx : x ∈ t.free := by rw [hf]; simp
      have h1 := this x (by rw [hwf.len]; exact hwf.lt x hx)
      exact absurd hx ((hwf.contains_iff x).1 h1).2

end V11
