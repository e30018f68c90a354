import Verif.Props.Sorted
import Verif.Props.Consistent
import Verif.Spec.History
import Verif.Lemmas.Select

/-!
# What a call does to the rows of its table
-/

set_option linter.unusedSimpArgs false
set_option linter.unusedSectionVars false
set_option linter.unusedVariables false

namespace V11
variable {S : Schema} {K : Type} [LinearOrder K] {key : Row S → K}

/-- The structural operation a call amounts to, if any. -/
def LOp.toOp (k : Kind) : LOp S → Option (TOp S)
  | .push row => some (.push row)
  | .pushArray rows => some (.pushArray rows)
  | .delete i => if k = .bag then some (.bagDelete i) else none
  | .clear => if k = .append ∨ k = .bag then some .clearRaw else none
  | .select _ | .selectAll => none
  | .set j i v => some (.set j i v)
  | .retain f => some (.retain f)
  | .visit f => some (.visit f)
  | .merge rows => some (.merge rows)
  | .removeRows ids => some (.removeRows ids)

variable [LS : LawfulSchema S]

theorem pushEnd_lock (w w' : W S) (row : Row S) (i : Nat) (h : w.pushEnd row = .ok (w', i)) (v : W S) (hv : v.tbl = w.tbl) :
    ∃ v', v.pushEnd row = .ok (v', i) ∧ v'.tbl = w'.tbl := by
  unfold W.pushEnd at h ⊢
  rw [hv]
  cases e : w.tbl.pushOnly row with
  | error p => rw [e] at h; cases h
  | ok x =>
    obtain ⟨t, k⟩ := x
    rw [e, okBind] at h
    injection h with h; injection h with h1 h2; subst h1 h2
    exact ⟨_, rfl, by simp only [eventAdd_tbl]⟩

theorem push_lock (w w' : W S) (row : Row S) (i : Nat) (h : w.push row = .ok (w', i)) :
    ∃ v', (W.lock w.tbl).push row = .ok (v', i) ∧ v'.tbl = w'.tbl := by
  unfold W.push at h ⊢
  cases hf : w.tbl.free with
  | nil =>
    rw [hf] at h
    have : (W.lock w.tbl).tbl.free = [] := hf
    rw [this]
    exact pushEnd_lock w w' row i h _ rfl
  | cons old rest =>
    rw [hf] at h
    have : (W.lock w.tbl).tbl.free = old :: rest := hf
    rw [this]
    simp only [] at h ⊢
    rw [eventAdd_tbl] at h ⊢
    have e : (W.lock w.tbl).tbl = w.tbl := rfl
    rw [e]
    cases hs : ({ w.tbl with free := BSet.erase old (old :: rest) } : Tbl S).swapOutRow old row with
    | error p => rw [hs] at h; cases h
    | ok x =>
      rw [hs, okBind] at h
      injection h with h; injection h with h1 h2; subst h1 h2
      exact ⟨_, rfl, rfl⟩

theorem pushArrayLoop_lock (rows : List (Row S)) (w w' : W S) (last i : Nat) (h : w.pushArrayLoop last rows = .ok (w', i))
    (v : W S) (hv : v.tbl = w.tbl) : ∃ v', v.pushArrayLoop last rows = .ok (v', i) ∧ v'.tbl = w'.tbl := by
  induction rows generalizing w v last with
  | nil =>
    unfold W.pushArrayLoop at h ⊢
    injection h with h; injection h with h1 h2; subst h1 h2
    exact ⟨v, rfl, hv⟩
  | cons r rs ih =>
    unfold W.pushArrayLoop at h ⊢
    cases e : w.pushEnd r with
    | error p => rw [e] at h; cases h
    | ok x =>
      obtain ⟨w1, i1⟩ := x
      rw [e, okBind] at h
      obtain ⟨v1, e1, e2⟩ := pushEnd_lock w w1 r i1 e v hv
      rw [e1, okBind]
      exact ih w1 i1 h v1 e2

theorem pushArray_lock (w w' : W S) (rows : List (Row S)) (x : Nat × Nat) (h : w.pushArray rows = .ok (w', x)) :
    ∃ v', (W.lock w.tbl).pushArray rows = .ok (v', x) ∧ v'.tbl = w'.tbl := by
  cases rows with
  | nil =>
    unfold W.pushArray at h ⊢
    injection h with h; injection h with h1 h2; subst h1 h2
    exact ⟨_, rfl, rfl⟩
  | cons r rs =>
    unfold W.pushArray at h ⊢
    simp only [] at h ⊢
    cases e : w.pushEnd r with
    | error p => rw [e] at h; cases h
    | ok y =>
      obtain ⟨w1, i1⟩ := y
      rw [e, okBind] at h
      obtain ⟨v1, e1, e2⟩ := pushEnd_lock w w1 r i1 e (W.lock w.tbl) rfl
      rw [e1, okBind]
      simp only [] at h ⊢
      cases e3 : w1.pushArrayLoop i1 rs with
      | error p => rw [e3] at h; cases h
      | ok y =>
        obtain ⟨w2, i2⟩ := y
        rw [e3, okBind] at h
        obtain ⟨v2, f1, f2⟩ := pushArrayLoop_lock rs w1 w2 i1 i2 e3 v1 e2
        rw [f1, okBind]
        simp only [] at h ⊢
        cases e4 : nextId S.max i2 with
        | error p => rw [e4] at h; cases h
        | ok z =>
          rw [e4, okBind] at h
          injection h with h; injection h with h1 h2; subst h1 h2
          exact ⟨v2, rfl, f2⟩

/-- A call on a lock does to the table what its structural operation does, or nothing. -/
theorem step_tbl {w w' : W S} {op : LOp S} (h : w.step key op = .ok w') :
    match op.toOp S.kind with
    | some o => o.run key w.tbl = .ok w'.tbl
    | none => w'.tbl = w.tbl := by
  unfold W.step at h
  cases op with
  | push row =>
    simp only [LOp.toOp, TOp.run] at h ⊢
    cases e : w.push row with
    | error p => rw [e] at h; cases h
    | ok x =>
      obtain ⟨w1, i⟩ := x
      rw [e, okBind] at h; injection h with h; subst h
      obtain ⟨v, e1, e2⟩ := push_lock w w1 row i e
      rw [e1, okBind]; simp only [e2]
  | pushArray rows =>
    simp only [LOp.toOp, TOp.run] at h ⊢
    cases e : w.pushArray rows with
    | error p => rw [e] at h; cases h
    | ok x =>
      obtain ⟨w1, i⟩ := x
      rw [e, okBind] at h; injection h with h; subst h
      obtain ⟨v, e1, e2⟩ := pushArray_lock w w1 rows i e
      rw [e1, okBind]; simp only [e2]
  | delete i =>
    simp only [LOp.toOp] at h ⊢
    unfold W.deleteRow at h
    cases hk : S.kind <;> rw [hk] at h <;> simp only [] at h <;> simp only [reduceCtorEq, if_false, if_true]
    all_goals first
      | cases h
      | skip
    · cases e : w.tbl.check i with
      | error p => rw [e] at h; cases h
      | ok k =>
        rw [e, okBind] at h; injection h with h; subst h
        unfold W.eventDel; split <;> rfl
    · show BagIter.bagDelete w.tbl i = _
      unfold BagIter.bagDelete
      cases e : w.tbl.check i with
      | error p => rw [e] at h; cases h
      | ok k =>
        rw [e, okBind] at h
        rw [okBind]
        cases e2 : w.tbl.deleteRaw k with
        | error p => rw [e2] at h; cases h
        | ok t => rw [e2, okBind] at h; injection h with h; subst h; rfl
  | clear =>
    simp only [LOp.toOp] at h ⊢
    unfold W.clear at h
    cases hk : S.kind <;> rw [hk] at h <;> simp only [] at h <;> simp
    all_goals first
      | (injection h with h; subst h; rfl)
      | (show w.tbl.clearRaw = _
         cases e : w.tbl.clearRaw with
         | error p => rw [e] at h; cases h
         | ok t => rw [e, okBind] at h; injection h with h; subst h; rfl)
  | select i => injection h with h; subst h; rfl
  | selectAll => injection h with h; subst h; rfl
  | set j i v =>
    simp only [LOp.toOp, TOp.run] at h ⊢
    unfold W.setCell at h
    cases e : w.tbl.setCell j i v with
    | error p => rw [e] at h; cases h
    | ok t => rw [e, okBind] at h; injection h with h; subst h; rfl
  | retain f =>
    simp only [LOp.toOp] at h ⊢
    cases e : (TOp.retain f).run key w.tbl with
    | error p => rw [e] at h; cases h
    | ok t => rw [e, okBind] at h; injection h with h; subst h; rfl
  | visit f =>
    simp only [LOp.toOp] at h ⊢
    cases e : (TOp.visit f).run key w.tbl with
    | error p => rw [e] at h; cases h
    | ok t => rw [e, okBind] at h; injection h with h; subst h; rfl
  | merge f =>
    simp only [LOp.toOp] at h ⊢
    cases e : (TOp.merge f).run key w.tbl with
    | error p => rw [e] at h; cases h
    | ok t => rw [e, okBind] at h; injection h with h; subst h; rfl
  | removeRows f =>
    simp only [LOp.toOp] at h ⊢
    cases e : (TOp.removeRows f).run key w.tbl with
    | error p => rw [e] at h; cases h
    | ok t => rw [e, okBind] at h; injection h with h; subst h; rfl

theorem Reach.weaken {c : Bool} {t : Tbl S} (h : Reach key true t) : Reach key c t := by
  induction h with
  | new => exact Reach.new
  | step _ ha hc hr ih => exact ih.step ha (fun _ => hc rfl) hr

/-- The rows an operation brings. -/
def TOp.newRows : TOp S → List (Row S)
  | .push row => [row]
  | .pushArray rows | .merge rows => rows
  | _ => []

/-- Where the rows of a consistent or sorted table come from. -/
theorem op_rows {t t' : Tbl S} (ht : Reach key true t) (hk : S.kind = .consistent ∨ S.kind = .sorted) {op : TOp S}
    (ha : op.Allowed S.kind) (hr : op.run key t = .ok t') (i : Nat) (r : Row S) (hv : t'.view i = some r) :
    (∃ i', t.view i' = some r) ∨ r ∈ op.newRows ∨
      ∃ j v r0, op = .set j i v ∧ t.view i = some r0 ∧ r = Function.update r0 j v := by
  obtain ⟨L, h⟩ := ht.wf
  have sub : ∀ L' : List (Row S), WF t' L' → t.free = [] → (∀ x ∈ L', x ∈ L ∨ x ∈ op.newRows) → (∃ i', t.view i' = some r) ∨ r ∈ op.newRows := by
    intro L' h' hf hsub
    obtain ⟨h1, -⟩ := (h'.view_iff i r).1 hv
    rcases hsub r (List.mem_of_getElem? h1) with hm | hm
    · obtain ⟨n, hn⟩ := List.mem_iff_getElem?.1 hm
      exact Or.inl ⟨n, (h.view_iff n r).2 ⟨hn, by simp [hf]⟩⟩
    · exact Or.inr hm
  cases op with
  | push row =>
    simp only [TOp.run] at hr
    cases hp : (W.lock t).push row with
    | error p => rw [hp] at hr; cases hr
    | ok x =>
      obtain ⟨w', n⟩ := x
      rw [hp, okBind] at hr; injection hr with hr; subst hr
      obtain ⟨e1, e2, e3, e4⟩ := C01_push_fresh (key := key) (W.lock t) w' ht row n hp
      by_cases hi : i = n
      · subst hi
        have : w'.tbl.view i = some row := by
          unfold Tbl.view; rw [if_pos e2]
          unfold Tbl.getRow at e3
          cases hc : w'.tbl.check i with
          | error p => rw [hc] at e3; cases e3
          | ok k =>
            have : k = i := by
              unfold Tbl.check at hc
              split at hc
              · cases hc
              · split at hc
                · cases hc
                · injection hc with hc; exact hc.symm
            subst this
            rw [hc, okBind] at e3; rw [e3]; rfl
        rw [this] at hv; injection hv with hv; subst hv
        exact Or.inr (Or.inl (by simp [TOp.newRows]))
      · exact Or.inl ⟨i, (e4 i hi).2.symm.trans hv⟩
  | pushArray rows =>
    simp only [TOp.run] at hr
    by_cases hne : rows = []
    · subst hne; injection hr with hr; subst hr; exact Or.inl ⟨i, hv⟩
    · have := Aligned.pushArray (w := W.lock t) rows hne h.aligned (by intro i hi; exact h.lt i hi)
      by_cases hl : L.length + rows.length ≤ S.max
      · obtain ⟨t1, e1, e2, e3⟩ := this.1 hl
        rw [e1, okBind] at hr; injection hr with hr; subst hr
        have hwf' : WF t1 (L ++ rows) := WF.of_aligned e3 (by intro i _; rw [e2]; simp [W.lock])
          (by intro i hi; rw [e2] at hi; have := h.lt i (by simpa [W.lock] using hi); simp; omega)
        have hfe : t1.free = t.free := e2
        obtain ⟨a1, a2⟩ := (hwf'.view_iff i r).1 hv
        rw [hfe] at a2
        rw [List.getElem?_append] at a1
        split at a1
        · exact Or.inl ⟨i, (h.view_iff i r).2 ⟨a1, a2⟩⟩
        · exact Or.inr (Or.inl (List.mem_of_getElem? a1))
      · rw [this.2 (by omega), errBind] at hr; cases hr
  | set j k v =>
    simp only [TOp.run] at hr
    by_cases hkl : k < L.length
    · rcases h.setCell j v hkl with e | ⟨t1, e1, e2, e3⟩
      · rw [hr] at e; cases e
      · rw [hr] at e1; injection e1 with e1; subst e1
        obtain ⟨a1, a2⟩ := (e3.view_iff i r).1 hv
        rw [e2] at a2
        rw [List.getElem?_set] at a1
        split at a1
        · rename_i e; subst e
          injection a1 with a1
          exact Or.inr (Or.inr ⟨j, v, L[k], rfl, (h.view_iff k _).2 ⟨List.getElem?_eq_getElem hkl, a2⟩, a1.symm⟩)
        · exact Or.inl ⟨i, (h.view_iff i r).2 ⟨a1, a2⟩⟩
    · rw [h.rep.setCell_oob j v (by omega)] at hr; cases hr
  | remove sel =>
    simp only [TOp.run] at hr
    cases sel with
    | all =>
      obtain ⟨b1, b2⟩ := C09_clear_empties (key := key) true t t' ht hr
      unfold Tbl.view at hv; rw [b2 i] at hv; simp at hv
    | these rows =>
      rcases hk with hk | hk
      · simp only [Tbl.removeSel] at hr
        rw [h.len] at hr
        by_cases hall : ∀ i ∈ rows, i < L.length
        · obtain ⟨t1, e1, e2, e3⟩ := h.deleteLoop hk rows hall
          rw [e1] at hr; injection hr with hr; subst hr
          obtain ⟨a1, a2⟩ := (e3.view_iff i r).1 hv
          rw [e2] at a2
          exact Or.inl ⟨i, (h.view_iff i r).2 ⟨a1, by tauto⟩⟩
        · simp only [not_forall, not_lt] at hall
          obtain ⟨k, hk', hge⟩ := hall
          rw [(h.aligned.deleteLoop hk rows).2 ⟨k, hk', hge⟩] at hr; cases hr
      · simp only [Tbl.removeSel] at hr
        cases rows with
        | nil => injection hr with hr; subst hr; exact Or.inl ⟨i, hv⟩
        | cons r rs =>
          rcases deleteLoop_other (t := t) (by simp [hk]) (by simp [hk]) t.len r rs with e | e <;> (rw [hr] at e; cases e)
  | bagDelete k => rcases hk with hk | hk <;> (simp [TOp.Allowed, hk] at ha)
  | clearRaw =>
    simp only [TOp.run] at hr
    obtain ⟨b1, b2⟩ := C09_clear_empties (key := key) true t t' ht hr
    unfold Tbl.view at hv; rw [b2 i] at hv; simp at hv
  | retain f =>
    have hk' : S.kind ≠ .consistent := ha
    have hf := h.kind hk'
    simp only [TOp.run] at hr
    rcases merge0_all h hf (fun t i (s : Unit) => (.cont (!(f t i)) [], ())) () with ⟨seen, -, h1, h2⟩ | ⟨-, h1⟩
    · have e := visitSpec_retain (A := Row S) (fun i (s : Unit) => (f (seen i) i, ())) 0 L ()
      have hsub := retainSpec_sublist (fun i (s : Unit) => (f (seen i) i, ())) 0 L ()
      rw [e] at h1 h2
      obtain ⟨t1, e1, e2, e3⟩ := h1 (by have := hsub.length_le; have := h.rep.le; omega)
      have hr' : (do let (t, _) ← t.merge0 (fun t i (s : Unit) => (.cont (!(f t i)) [], ())) (); Except.ok t : R (Tbl S)) = .ok t' := hr
      rw [e1, okBind] at hr'
      injection hr' with hr'; subst hr'
      have hs := sub _ e3 hf (fun x hx => Or.inl (hsub.subset hx))
      rcases hs with hs | hs
      · exact Or.inl hs
      · exact Or.inr (Or.inl hs)
    · have hr' : (do let (t, _) ← t.merge0 (fun t i (s : Unit) => (.cont (!(f t i)) [], ())) (); Except.ok t : R (Tbl S)) = .ok t' := hr
      rw [h1] at hr'; cases hr'
  | visit f => rcases hk with hk | hk <;> (simp [TOp.Allowed, hk] at ha)
  | merge rows =>
    have hs : S.kind = .sorted := ha
    have hf := h.kind (sorted_ne hs)
    simp only [TOp.run] at hr
    rcases merge_cases (key := key) t ht hs L rows (h.holds hf) with ⟨t1, log1, e1, e2, -⟩ | ⟨e1, -⟩
    · rw [e1, okBind] at hr
      injection hr with hr; subst hr
      have ht1 : Reach key true t1 := ht.step (op := .merge rows) ha (fun _ hc => by cases hc) (by simp only [TOp.run]; rw [e1, okBind])
      obtain ⟨w1, -⟩ := ht1.wf_of_holds (sorted_ne hs) e2
      have := sub _ w1 hf (fun x hx => by
        have := (mergeSpec_perm key L rows).mem_iff.1 hx
        simpa [TOp.newRows] using this)
      rcases this with hs | hs
      · exact Or.inl hs
      · exact Or.inr (Or.inl hs)
    · rw [e1] at hr; cases hr
  | removeRows ids =>
    have hs : S.kind = .sorted := ha
    have hf := h.kind (sorted_ne hs)
    simp only [TOp.run] at hr
    obtain ⟨h1, h2, h3⟩ := removeRows_ok h hf ids
    by_cases hp : ids.Pairwise (· < ·)
    · by_cases hall : ∀ i ∈ ids, i < L.length
      · obtain ⟨t1, e1, e2, e3⟩ := h1 hp hall
        rw [hr] at e1; injection e1 with e1; subst e1
        have := sub _ e3 hf (fun x hx => Or.inl (by
          unfold removeAt at hx
          obtain ⟨y, hy, rfl⟩ := List.mem_map.1 hx
          exact List.fst_mem_of_mem_zipIdx (List.mem_filter.1 hy).1))
        rcases this with hs | hs
        · exact Or.inl hs
        · exact Or.inr (Or.inl hs)
      · rw [h3 hp hall] at hr; cases hr
    · rw [h2 hp] at hr; cases hr

/-- Pushes and edits never take a row of a consistent table away. -/
theorem op_keeps {t t' : Tbl S} (ht : Reach key true t) (hk : S.kind = .consistent) {op : TOp S}
    (ha : op.Allowed S.kind) (hc : op.clears = false) (hd : ∀ sel, op ≠ .remove sel) (hr : op.run key t = .ok t')
    (i : Nat) (hi : t.contains i = true) : t'.contains i = true := by
  obtain ⟨L, h⟩ := ht.wf
  cases op with
  | push row => exact (spares_step (key := key) (.push row) hk ht i trivial hi hr).1
  | pushArray rows => exact (spares_step (key := key) (.pushArray rows) hk ht i trivial hi hr).1
  | set j k v =>
    simp only [TOp.run] at hr
    by_cases hkl : k < L.length
    · rcases h.setCell j v hkl with e | ⟨t1, e1, e2, e3⟩
      · rw [hr] at e; cases e
      · rw [hr] at e1; injection e1 with e1; subst e1
        rw [e3.contains_iff, e2]
        simpa using (h.contains_iff i).1 hi
    · rw [h.rep.setCell_oob j v (by omega)] at hr; cases hr
  | remove sel => exact absurd rfl (hd sel)
  | bagDelete i => simp [TOp.Allowed, hk] at ha
  | clearRaw => cases hc
  | retain f => simp [TOp.Allowed, hk] at ha
  | visit f => simp [TOp.Allowed, hk] at ha
  | merge rows => simp [TOp.Allowed, hk] at ha
  | removeRows ids => simp [TOp.Allowed, hk] at ha

end V11
