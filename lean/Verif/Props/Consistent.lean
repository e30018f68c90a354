import Verif.Props.Demo
import Verif.Lemmas.Iter

/-!
# Consistent tables: C01–C05, C09, C51; and C10, C11 for every kind

`Reach key true t`: `t` is the result of some history of public operations (`Model/Ops.lean`) in which a
table was emptied at once only while it had no deleted rows; `Reach key false t`: any history at all.
`contains`, `get_row` and `view` are what a reader can observe.
-/

set_option linter.unusedSimpArgs false
set_option linter.unusedSectionVars false

namespace V11
variable {S : Schema} [LS : LawfulSchema S] {K : Type} [LinearOrder K] {key : Row S → K}

/-! ## C01 -/

/-- What `push` did, in all cases, in terms of what a reader observes. -/
theorem push_cases (w : W S) (hw : Reach key true w.tbl) (row : Row S) :
    (∃ w' i, w.push row = .ok (w', i) ∧ w.tbl.contains i = false ∧ (∀ k < i, w.tbl.contains k = true) ∧
      w'.tbl.contains i = true ∧ w'.tbl.getRow i = .ok row ∧ i ≤ S.max ∧
      ∀ k, k ≠ i → w'.tbl.contains k = w.tbl.contains k ∧ w'.tbl.view k = w.tbl.view k) ∨
    (w.push row = .error .idxOverflow ∧ w.tbl.len = S.max + 1 ∧ ∀ k ≤ S.max, w.tbl.contains k = true) := by
  obtain ⟨L, h⟩ := hw.wf
  have hle := h.rep.le
  rcases h.push row with ⟨old, rest, t', hf, e1, e2, e3⟩ | ⟨t', hf, hl, e1, e2, e3⟩ | ⟨hf, hl, e1⟩
  · left
    have hlt : old < L.length := h.lt old (by rw [hf]; simp)
    have hmin : ∀ x ∈ rest, old < x := (List.pairwise_cons.1 (hf ▸ h.ok)).1
    refine ⟨_, old, e1, ?_, ?_, ?_, ?_, by omega, ?_⟩
    · rw [← Bool.not_eq_true, h.contains_iff]; rw [hf]; simp
    · intro k hk
      rw [h.contains_iff, hf]
      refine ⟨by omega, ?_⟩
      intro hm
      rcases List.mem_cons.1 hm with rfl | hm
      · omega
      · have := hmin k hm; omega
    · rw [e3.contains_iff, e2]
      exact ⟨by simpa using hlt, fun hm => absurd (hmin _ hm) (lt_irrefl _)⟩
    · rw [e3.getRow (i := old) (by simpa using hlt) (by rw [e2]; exact fun hm => absurd (hmin _ hm) (lt_irrefl _))]
      simp
    · intro k hk
      constructor
      · rw [Bool.eq_iff_iff, e3.contains_iff, h.contains_iff, e2, hf]
        simp [hk]
      · rw [e3.view, h.view, e2, hf]
        have : k ∈ old :: rest ↔ k ∈ rest := by simp [hk]
        simp only [this]
        rw [List.getElem?_set_ne (Ne.symm hk)]
  · left
    refine ⟨_, L.length, e1, ?_, ?_, ?_, ?_, hl, ?_⟩
    · rw [← Bool.not_eq_true, h.contains_iff]; simp
    · intro k hk; rw [h.contains_iff, hf]; exact ⟨hk, by simp⟩
    · rw [e3.contains_iff, e2]; simp
    · rw [e3.getRow (i := L.length) (by simp) (by rw [e2]; simp)]; simp
    · intro k hk
      constructor
      · rw [Bool.eq_iff_iff, e3.contains_iff, h.contains_iff, e2, hf]; simp; omega
      · rw [e3.view, h.view, e2, hf]
        simp only [List.not_mem_nil, if_false]
        rw [List.getElem?_append]
        split
        · rfl
        · rw [List.getElem?_eq_none (by simp; omega), List.getElem?_eq_none (by omega)]
  · right
    refine ⟨e1, by rw [h.len, hl], ?_⟩
    intro k hk
    rw [h.contains_iff, hf]
    exact ⟨by omega, by simp⟩

/-- C01: a successful `push` returns an id that was not live, is live now and holds the row; no other id
changes. -/
theorem C01_push_fresh (w w' : W S) (hw : Reach key true w.tbl) (row : Row S) (i : Nat)
    (h : w.push row = .ok (w', i)) :
    w.tbl.contains i = false ∧ w'.tbl.contains i = true ∧ w'.tbl.getRow i = .ok row ∧
    ∀ k, k ≠ i → w'.tbl.contains k = w.tbl.contains k ∧ w'.tbl.view k = w.tbl.view k := by
  rcases push_cases w hw row with ⟨w1, i1, e1, e2, e3, e4, e5, e6, e7⟩ | ⟨e1, -⟩
  · rw [h] at e1; injection e1 with e1; injection e1 with e1 e1'; subst e1 e1'
    exact ⟨e2, e4, e5, e7⟩
  · rw [h] at e1; cases e1

/-- C01: `push` panics only if every id of the row-id type is live. -/
theorem C01_push_panics_only_when_full (w : W S) (hw : Reach key true w.tbl) (row : Row S) (p : Panic)
    (h : w.push row = .error p) : p = .idxOverflow ∧ ∀ k ≤ S.max, w.tbl.contains k = true := by
  rcases push_cases w hw row with ⟨w1, i1, e1, -⟩ | ⟨e1, e2, e3⟩
  · rw [h] at e1; cases e1
  · rw [h] at e1; injection e1 with e1; exact ⟨e1, e3⟩

/-- C01: conversely, on such a full table `push` panics. -/
theorem C01_push_full_panics (w : W S) (hw : Reach key true w.tbl) (row : Row S)
    (h : ∀ k ≤ S.max, w.tbl.contains k = true) : w.push row = .error .idxOverflow := by
  rcases push_cases w hw row with ⟨w1, i1, e1, e2, -, -, -, e6, -⟩ | ⟨e1, e2, e3⟩
  · rw [h i1 e6] at e2; cases e2
  · exact e1

/-- C01 applies: after a deletion, `push` reuses id 1 and leaves ids 0 and 2 alone. -/
example : Reach demoKey true (W.lock (demoTbl 255)).tbl ∧
    ((W.lock (demoTbl 255)).push (demoRow 9 false 4)).toOption.map (fun p => (p.2, demoView p.1.tbl 4)) =
      some (1, [some (5, true, 1), some (9, false, 4), some (5, true, 3), none]) :=
  ⟨demoTbl_reach, by decide⟩

/-! ## C02 -/

/-- C02: `push` takes the lowest id that is not live. -/
theorem C02_push_takes_lowest (w w' : W S) (hw : Reach key true w.tbl) (row : Row S) (i : Nat)
    (h : w.push row = .ok (w', i)) : w.tbl.contains i = false ∧ ∀ k < i, w.tbl.contains k = true := by
  rcases push_cases w hw row with ⟨w1, i1, e1, e2, e3, -⟩ | ⟨e1, -⟩
  · rw [h] at e1; injection e1 with e1; injection e1 with e1 e1'; subst e1 e1'; exact ⟨e2, e3⟩
  · rw [h] at e1; cases e1

theorem nextPushed_ok {w : W S} {L : List (Row S)} (h : WF w.tbl L) (hl : L.length ≤ S.max) :
    ∃ n, w.nextPushed = .ok n ∧ w.tbl.contains n = false ∧ ∀ k < n, w.tbl.contains k = true := by
  unfold W.nextPushed
  rw [h.len, fromUsize_ok hl, okBind]
  cases hf : w.tbl.free with
  | nil =>
    refine ⟨L.length, rfl, ?_, ?_⟩
    · rw [← Bool.not_eq_true, h.contains_iff]; simp
    · intro k hk; rw [h.contains_iff, hf]; exact ⟨hk, by simp⟩
  | cons old rest =>
    have hmin : ∀ x ∈ rest, old < x := (List.pairwise_cons.1 (hf ▸ h.ok)).1
    have hlt : old < L.length := h.lt old (by rw [hf]; simp)
    refine ⟨old, rfl, ?_, ?_⟩
    · rw [← Bool.not_eq_true, h.contains_iff, hf]; simp
    · intro k hk
      rw [h.contains_iff, hf]
      refine ⟨by omega, ?_⟩
      intro hm
      rcases List.mem_cons.1 hm with rfl | hm
      · omega
      · have := hmin k hm; omega

/-- C02: when `next_pushed` returns, the very next `push` returns the same id. -/
theorem C02_next_pushed_predicts (w : W S) (hw : Reach key true w.tbl) (row : Row S) (n : Nat)
    (h : w.nextPushed = .ok n) : ∃ w', w.push row = .ok (w', n) := by
  obtain ⟨L, hwf⟩ := hw.wf
  by_cases hl : L.length ≤ S.max
  · obtain ⟨m, e1, e2, e3⟩ := nextPushed_ok hwf hl
    rw [h] at e1; injection e1 with e1; subst e1
    rcases push_cases w hw row with ⟨w1, i, f1, f2, f3, -, -, -, -⟩ | ⟨f1, f2, -⟩
    · have : n = i := by
        rcases Nat.lt_trichotomy n i with hlt | he | hlt
        · rw [f3 n hlt] at e2; cases e2
        · exact he
        · rw [e3 i hlt] at f2; cases f2
      subst this; exact ⟨w1, f1⟩
    · rw [hwf.len] at f2; omega
  · unfold W.nextPushed at h
    rw [hwf.len, fromUsize_err (by omega), errBind] at h; cases h

/-- C02: `next_pushed` panics exactly when the table occupies the whole row-id type, deleted rows
included. -/
theorem C02_next_pushed_panics_iff (w : W S) (hw : Reach key true w.tbl) :
    w.nextPushed = .error .idxOverflow ↔ w.tbl.len = S.max + 1 := by
  obtain ⟨L, hwf⟩ := hw.wf
  have hle := hwf.rep.le
  rw [hwf.len]
  by_cases hl : L.length ≤ S.max
  · obtain ⟨m, e1, -⟩ := nextPushed_ok hwf hl
    rw [e1]; simp; omega
  · unfold W.nextPushed
    rw [hwf.len, fromUsize_err (by omega), errBind]; simp; omega

/-- C02, the defect: on a full-width table with a deleted row, `next_pushed` panics although `push`
succeeds. -/
theorem C02_next_pushed_panics_where_push_succeeds (w : W S) (hw : Reach key true w.tbl) (row : Row S)
    (hfull : w.tbl.len = S.max + 1) (i : Nat) (hi : i ≤ S.max) (hdead : w.tbl.contains i = false) :
    w.nextPushed = .error .idxOverflow ∧ ∃ w' n, w.push row = .ok (w', n) := by
  refine ⟨(C02_next_pushed_panics_iff w hw).2 hfull, ?_⟩
  rcases push_cases w hw row with ⟨w1, i1, e1, -⟩ | ⟨e1, e2, e3⟩
  · exact ⟨w1, i1, e1⟩
  · rw [e3 i hi] at hdead; cases hdead

example : (W.lock (demoTbl 255)).nextPushed = .ok 1 := by decide

/-- The hypotheses of the defect are met: ids are `0..=2`, all three used, row 1 deleted. -/
example : (demoTbl 2).len = 2 + 1 ∧ (demoTbl 2).contains 1 = false ∧
    (W.lock (demoTbl 2)).nextPushed = .error .idxOverflow ∧
    ((W.lock (demoTbl 2)).push (demoRow 0 true 0)).toOption.map (·.2) = some 1 := by decide

/-! ## C03 -/

/-- The operation neither edits row `i` nor selects it for removal. -/
def TOp.Spares (i : Nat) : TOp S → Prop
  | .push _ | .pushArray _ => True
  | .set _ k _ => k ≠ i
  | .remove (.these rows) => i ∉ rows
  | _ => False

theorem spares_step (op : TOp S) {t t' : Tbl S} (hk : S.kind = .consistent) (ht : Reach key true t) (i : Nat)
    (hs : op.Spares i) (hlive : t.contains i = true) (hr : op.run key t = .ok t') :
    t'.contains i = true ∧ t'.view i = t.view i := by
  obtain ⟨L, h⟩ := ht.wf
  obtain ⟨hi, hif⟩ := (h.contains_iff i).1 hlive
  cases op with
  | push row =>
    simp only [TOp.run] at hr
    cases hp : (W.lock t).push row with
    | error p => rw [hp, errBind] at hr; cases hr
    | ok r =>
      obtain ⟨w', n⟩ := r
      rw [hp, okBind] at hr; injection hr with hr; subst hr
      obtain ⟨e1, -, -, e4⟩ := C01_push_fresh (key := key) (W.lock t) w' ht row n hp
      have hne : i ≠ n := by
        intro e; subst e
        rw [show (W.lock t).tbl.contains i = true from hlive] at e1; cases e1
      obtain ⟨f1, f2⟩ := e4 i hne
      exact ⟨by rw [f1]; exact hlive, f2⟩
  | pushArray rows =>
    simp only [TOp.run] at hr
    by_cases hne : rows = []
    · subst hne; injection hr with hr; subst hr; exact ⟨hlive, rfl⟩
    · have := Aligned.pushArray (w := W.lock t) rows hne h.aligned (by intro i hi; exact h.lt i hi)
      by_cases hl : L.length + rows.length ≤ S.max
      · obtain ⟨t1, e1, e2, e3⟩ := this.1 hl
        rw [e1, okBind] at hr; injection hr with hr; subst hr
        have hwf' : WF t1 (L ++ rows) := WF.of_aligned e3 (by intro i _; rw [e2]; simp [W.lock])
          (by intro i hi; rw [e2] at hi; have := h.lt i (by simpa [W.lock] using hi); simp; omega)
        have hfe : t1.free = t.free := e2
        refine ⟨?_, ?_⟩
        · rw [hwf'.contains_iff, hfe]; exact ⟨by simp; omega, hif⟩
        · rw [hwf'.view, h.view, hfe, if_neg hif, if_neg hif, List.getElem?_append_left hi]
      · rw [this.2 (by omega), errBind] at hr; cases hr
  | set j k v =>
    simp only [TOp.run] at hr
    have hne : k ≠ i := hs
    by_cases hkl : k < L.length
    · rcases h.setCell j v hkl with e | ⟨t1, e1, e2, e3⟩
      · rw [hr] at e; cases e
      · rw [hr] at e1; injection e1 with e1; subst e1
        refine ⟨?_, ?_⟩
        · rw [e3.contains_iff, e2]; exact ⟨by simpa using hi, hif⟩
        · rw [e3.view, h.view, e2, if_neg hif, if_neg hif, List.getElem?_set_ne hne]
    · rw [h.rep.setCell_oob j v (by omega)] at hr; cases hr
  | remove sel =>
    cases sel with
    | all => exact absurd hs (by simp [TOp.Spares])
    | these rows =>
      have hni : i ∉ rows := hs
      simp only [TOp.run, Tbl.removeSel] at hr
      rw [h.len] at hr
      by_cases hall : ∀ i ∈ rows, i < L.length
      · obtain ⟨t1, e1, e2, e3⟩ := h.deleteLoop hk rows hall
        rw [e1] at hr; injection hr with hr; subst hr
        have hni' : i ∉ t1.free := by rw [e2]; tauto
        exact ⟨(e3.contains_iff i).2 ⟨hi, hni'⟩, by rw [e3.view, h.view, if_neg hni', if_neg hif]⟩
      · simp only [not_forall, not_lt] at hall
        obtain ⟨k, hk', hge⟩ := hall
        rw [(h.aligned.deleteLoop hk rows).2 ⟨k, hk', hge⟩] at hr; cases hr
  | _ => exact absurd hs (by simp [TOp.Spares])

/-- C03: through any history of pushes, array pushes, edits of other rows and removals of other rows, a
live id keeps its row. -/
theorem C03_ids_stable (hk : S.kind = .consistent) (t t' : Tbl S) (ht : Reach key true t) (i : Nat)
    (hlive : t.contains i = true) (ops : List (TOp S)) (hs : ∀ op ∈ ops, op.Spares i)
    (hr : runOps key t ops = .ok t') : t'.contains i = true ∧ t'.view i = t.view i := by
  induction ops generalizing t with
  | nil => injection hr with hr; subst hr; exact ⟨hlive, rfl⟩
  | cons op ops ih =>
    unfold runOps at hr
    rw [List.foldlM_cons] at hr
    cases e : op.run key t with
    | error p => rw [e, errBind] at hr; cases hr
    | ok t1 =>
      rw [e, okBind] at hr
      have hop := hs op (by simp)
      obtain ⟨h1, h2⟩ := spares_step op hk ht i hop hlive e
      have hallow : op.Allowed S.kind ∧ op.clears = false := by
        cases op with
        | remove sel => cases sel <;> simp_all [TOp.Spares, TOp.Allowed, TOp.clears]
        | _ => simp_all [TOp.Spares, TOp.Allowed, TOp.clears]
      obtain ⟨h3, h4⟩ := ih t1 (ht.step hallow.1 (by simp [hallow.2]) e) h1 (fun o ho => hs o (by simp [ho])) hr
      exact ⟨h3, by rw [h4, h2]⟩

example : ∀ op ∈ [TOp.push (demoRow 1 true 1), .remove (.these [0]), .set 2 0 8, .pushArray [demoRow 2 true 2],
    .push (demoRow 3 false 3)], op.Spares (S := Demo .consistent) 2 := by
  intro op h
  simp only [List.mem_cons, List.not_mem_nil, or_false] at h
  rcases h with rfl | rfl | rfl | rfl | rfl <;> simp [TOp.Spares]

example : (runOps demoKey (demoTbl 255) [.push (demoRow 1 true 1), .remove (.these [0]), .set 2 0 8,
      .pushArray [demoRow 2 true 2], .push (demoRow 3 false 3)]).toOption.map (fun t => demoView t 4) =
    some [some (3, false, 3), some (1, true, 1), some (5, true, 3), some (2, true, 2)] := by decide

/-! ## C04 -/

/-- C04: a successful `delete` changes no row; it only adds the id to the pending changes. -/
theorem C04_delete_defers (hk : S.kind = .consistent) (w w' : W S) (i : Nat) (h : w.deleteRow i = .ok w') :
    w'.tbl = w.tbl ∧ w'.changes = w.changes.push i ∧ w'.delete = true ∧ w.tbl.contains i = true := by
  unfold W.deleteRow at h
  rw [hk] at h
  simp only [] at h
  unfold Tbl.check at h
  by_cases h1 : w.tbl.len ≤ i
  · rw [if_pos h1, errBind] at h; cases h
  · rw [if_neg h1] at h
    by_cases h2 : w.tbl.isDeleted i = true
    · rw [if_pos h2, errBind] at h; cases h
    · rw [if_neg h2, okBind] at h
      injection h with h
      unfold W.eventDel at h
      rw [if_pos hk] at h
      subst h
      refine ⟨rfl, rfl, rfl, ?_⟩
      unfold Tbl.contains
      unfold Tbl.isDeleted at h2
      simp [hk] at h2 ⊢
      exact ⟨by omega, h2⟩

/-- C04: `delete` succeeds exactly on live ids; otherwise it panics, saying whether the id is out of range
or deleted. -/
theorem C04_delete_panics_iff (hk : S.kind = .consistent) (w : W S) (i : Nat) :
    ((∃ w', w.deleteRow i = .ok w') ↔ w.tbl.contains i = true) ∧
    (w.deleteRow i = .error .indexOob ↔ w.tbl.len ≤ i) ∧
    (w.deleteRow i = .error .deletedRow ↔ i < w.tbl.len ∧ w.tbl.contains i = false) := by
  have hc : w.tbl.contains i = (decide (i < w.tbl.len) && !w.tbl.isDeleted i) := by
    unfold Tbl.contains Tbl.isDeleted; simp [hk]
  have hd : w.deleteRow i = if w.tbl.len ≤ i then .error .indexOob else if w.tbl.isDeleted i then .error .deletedRow
      else .ok (w.eventDel i) := by
    unfold W.deleteRow Tbl.check
    rw [hk]
    simp only []
    split
    · rfl
    · split <;> rfl
  rw [hd, hc]
  by_cases h1 : w.tbl.len ≤ i
  · simp [h1]
  · rw [if_neg h1]
    have : i < w.tbl.len := by omega
    cases h2 : w.tbl.isDeleted i <;> simp [this, h1]

example : ((W.lock (demoTbl 255)).deleteRow 2).toOption.map (fun w => (w.changes, demoView w.tbl 3)) =
    some (.these [2], [some (5, true, 1), none, some (5, true, 3)]) := by decide
example : ((W.lock (demoTbl 255)).deleteRow 1).toOption.isSome = false ∧
    ((W.lock (demoTbl 255)).deleteRow 3).toOption.isSome = false := by decide

/-! ## C05 -/

theorem mem_liveIds {t : Tbl S} {L : List (Row S)} {d : Nat → Prop} (h : Aligned t L d) (a e i : Nat) (he : e ≤ L.length) :
    i ∈ liveIds a e t.free ↔ a ≤ i ∧ i < e ∧ t.contains i = true := by
  rw [h.contains_eq]
  unfold liveIds
  simp only [List.mem_filter, List.mem_range'_1, decide_not, Bool.not_eq_true', decide_eq_false_iff_not,
    Bool.and_eq_true, decide_eq_true_eq, List.contains_eq_mem]
  constructor
  · rintro ⟨⟨h1, h2⟩, h3⟩
    exact ⟨h1, by omega, by omega, h3⟩
  · rintro ⟨h1, h2, h3, h4⟩
    exact ⟨⟨h1, by omega⟩, h4⟩

theorem liveIds_sorted (a e : Nat) (del : List Nat) : (liveIds a e del).Pairwise (· < ·) :=
  List.Pairwise.filter _ (List.pairwise_lt_range')

/-- C05: `iter()` yields exactly the live ids, ascending, each once — for every table kind and in every
history — unless the table fills its row-id type. -/
theorem C05_iter_exact (c : Bool) (t : Tbl S) (ht : Reach key c t) (hl : t.len ≤ S.max) :
    ∃ ids, t.iterIds = .ok ids ∧ ids.Pairwise (· < ·) ∧ ∀ i, i ∈ ids ↔ t.contains i = true := by
  obtain ⟨L, d, h⟩ := ht.aligned
  rw [h.rep.len] at hl
  refine ⟨_, iterIds_ok h hl, liveIds_sorted _ _ _, ?_⟩
  intro i
  rw [mem_liveIds h 0 L.length i (le_refl _), h.contains_eq]
  simp

/-- C05: the same for `editing()`. -/
theorem C05_editing_exact (c : Bool) (t : Tbl S) (ht : Reach key c t) (hl : t.len ≤ S.max) :
    ∃ ids, t.editIds = .ok ids ∧ ids.Pairwise (· < ·) ∧ ∀ i, i ∈ ids ↔ t.contains i = true := by
  obtain ⟨L, d, h⟩ := ht.aligned
  rw [h.rep.len] at hl
  refine ⟨_, editIds_ok h hl, liveIds_sorted _ _ _, ?_⟩
  intro i
  rw [mem_liveIds h 0 L.length i (le_refl _), h.contains_eq]
  simp

/-- C05: `range(a..b)` with `a ≤ b ≤ len` and a start inside the table (or `a = b`) yields exactly the live
ids in the range. -/
theorem C05_range_exact (c : Bool) (t : Tbl S) (ht : Reach key c t) (r : RowRange)
    (hr : r.start < t.len ∨ r.start = r.stop) (he : r.stop ≤ t.len) (hm : r.stop ≤ S.max) :
    ∃ ids, t.rangeIds r = .ok ids ∧ ids.Pairwise (· < ·) ∧
      ∀ i, i ∈ ids ↔ r.start ≤ i ∧ i < r.stop ∧ t.contains i = true := by
  obtain ⟨L, d, h⟩ := ht.aligned
  rw [h.rep.len] at hr he
  refine ⟨_, rangeIds_ok h r hr he hm, liveIds_sorted _ _ _, ?_⟩
  intro i
  exact mem_liveIds h _ _ i he

/-- C05: on a table with as many rows as the row-id type has values, `iter()` and `editing()` panic. -/
theorem C05_iter_panics_full (c : Bool) (t : Tbl S) (ht : Reach key c t) (hl : t.len = S.max + 1) :
    t.iterIds = .error .idxOverflow ∧ t.editIds = .error .idxOverflow := by
  obtain ⟨L, d, h⟩ := ht.aligned
  rw [h.rep.len] at hl
  refine ⟨iterIds_full h (by omega), ?_⟩
  unfold Tbl.editIds Tbl.rowRange
  rw [h.rep.len, fromUsize_err (by omega)]; rfl

example : (demoTbl 255).iterIds = .ok [0, 2] ∧ (demoTbl 255).rangeIds ⟨1, 3⟩ = .ok [2] := by decide

/-! ## C09 -/

/-- C09, always true: emptying the table at flush (`clear()` + removal flush) leaves no row. -/
theorem C09_clear_empties (c : Bool) (t t' : Tbl S) (ht : Reach key c t) (h : t.removeSel .all = .ok t') :
    t'.len = 0 ∧ ∀ i, t'.contains i = false := by
  obtain ⟨L, d, hal⟩ := ht.aligned
  obtain ⟨t1, e1, e2, e3⟩ := hal.clearRaw
  simp only [Tbl.removeSel] at h
  rw [e1] at h; injection h with h; subst h
  refine ⟨by rw [e3.rep.len]; rfl, ?_⟩
  intro i; rw [e3.contains_eq]; simp

/-- C09: if no row of the table is deleted when it is cleared, the table is as good as
new: its next push gets id 0 and is visible. -/
theorem C09_clear_then_push (t t' : Tbl S) (ht : Reach key true t)
    (hfull : ∀ i < t.len, t.contains i = true) (h : t.removeSel .all = .ok t') (row : Row S) :
    Reach key true t' ∧ ∃ w', (W.lock t').push row = .ok (w', 0) ∧ w'.tbl.getRow 0 = .ok row := by
  have hr' : Reach key true t' := ht.step (op := .remove .all) trivial (fun _ _ => hfull) h
  refine ⟨hr', ?_⟩
  obtain ⟨he, hc⟩ := C09_clear_empties true t t' ht h
  rcases push_cases (key := key) (W.lock t') hr' row with ⟨w', i, e1, e2, e3, e4, e5, -⟩ | ⟨-, e2, -⟩
  · have : i = 0 := by
      by_contra hne
      have := e3 0 (by omega)
      rw [show (W.lock t').tbl.contains 0 = false from hc 0] at this; cases this
    subst this
    exact ⟨w', e1, e5⟩
  · rw [show (W.lock t').tbl.len = 0 from he] at e2; omega

/-- C09, the exception: if some row had been deleted before the table was cleared, the next push
panics. -/
theorem C09_clear_then_push_panics (t t' : Tbl S) (ht : Reach key true t) (i : Nat)
    (hi : i < t.len) (hdead : t.contains i = false) (h : t.removeSel .all = .ok t') (row : Row S) :
    (W.lock t').push row = .error .indexOob := by
  obtain ⟨L, hwf⟩ := ht.wf
  have hif : i ∈ t.free := by
    by_contra hn
    rw [(hwf.contains_iff i).2 ⟨by rw [← hwf.len]; exact hi, hn⟩] at hdead; cases hdead
  obtain ⟨t1, e1, e2, e3⟩ := hwf.aligned.clearRaw
  simp only [Tbl.removeSel] at h
  rw [e1] at h; injection h with h; subst h
  cases hf : t.free with
  | nil => rw [hf] at hif; simp at hif
  | cons old rest => exact Aligned.push_stale (w := W.lock t1) e3 row (by show t1.free = _; rw [e2, hf]) (by simp)

/-- C09, the exception: rows appended by `push_array` after such a clear are stored but invisible at
the ids deleted before. -/
theorem C09_clear_then_push_array_invisible (t t' : Tbl S) (ht : Reach key true t) (i : Nat)
    (hi : i < t.len) (hdead : t.contains i = false) (h : t.removeSel .all = .ok t') (rows : List (Row S))
    (w' : W S) (r : Nat × Nat) (hp : (W.lock t').pushArray rows = .ok (w', r)) (hir : i < rows.length) :
    r = (0, rows.length) ∧ w'.tbl.len = rows.length ∧ w'.tbl.contains i = false := by
  obtain ⟨L, hwf⟩ := ht.wf
  have hif : i ∈ t.free := by
    by_contra hn
    rw [(hwf.contains_iff i).2 ⟨by rw [← hwf.len]; exact hi, hn⟩] at hdead; cases hdead
  obtain ⟨t1, e1, e2, e3⟩ := hwf.aligned.clearRaw
  simp only [Tbl.removeSel] at h
  rw [e1] at h; injection h with h; subst h
  have hne : rows ≠ [] := by intro e; subst e; simp at hir
  have := Aligned.pushArray (w := W.lock t1) rows hne e3 (by simp)
  simp only [List.length_nil, Nat.zero_add, List.nil_append] at this
  by_cases hl : rows.length ≤ S.max
  · obtain ⟨t2, f1, f2, f3⟩ := this.1 hl
    rw [f1] at hp; injection hp with hp; injection hp with hp1 hp2
    subst hp1 hp2
    refine ⟨rfl, f3.rep.len, ?_⟩
    rw [f3.contains_eq]
    have : i ∈ t2.free := by rw [f2]; show i ∈ t1.free; rw [e2]; exact hif
    simp [this]
  · rw [this.2 (by omega)] at hp; cases hp

/-- The hypotheses of both counterexamples are met. -/
example : Reach demoKey true (demoTbl 255) ∧ 1 < (demoTbl 255).len ∧ (demoTbl 255).contains 1 = false ∧
    ((demoTbl 255).removeSel .all).toOption.map (fun t => ((W.lock t).push (demoRow 1 true 1)).toOption.isSome) = some false ∧
    ((demoTbl 255).removeSel .all).toOption.map (fun t =>
      ((W.lock t).pushArray [demoRow 1 true 1, demoRow 2 true 2]).toOption.map (fun p => demoView p.1.tbl 2)) =
      some (some [some (1, true, 1), none]) :=
  ⟨demoTbl_reach, by decide, by decide, by decide, by decide⟩

/-- The hypotheses of the positive part are met (two live rows, none deleted). -/
example : (do
      let t ← runOps demoKey (Tbl.new : Tbl (Demo .consistent)) [.push (demoRow 1 true 1), .push (demoRow 2 true 2)]
      let t ← t.removeSel .all
      let (w, i) ← (W.lock t).push (demoRow 7 true 7)
      .ok (i, demoView w.tbl 2)) = .ok (0, [some (7, true, 7), none]) := by decide

/-! ## C10 and C11 -/

/-- C10: in every history, of every kind, all columns have length `len()`. -/
theorem C10_columns_aligned (c : Bool) (t : Tbl S) (ht : Reach key c t) (j : Fin (S.n + 1)) :
    (S.C j).len (t.cols j) = t.len := by
  obtain ⟨L, d, h⟩ := ht.aligned
  rw [h.rep.colLen, h.rep.len]

/-- C10: a row read gathers the element of each column at that same id. -/
theorem C10_row_gathers_cells (t : Tbl S) (i : Nat) (r : Row S) (h : t.getRow i = .ok r) (j : Fin (S.n + 1)) :
    (S.C j).index (t.cols j) i = .ok (r j) := by
  unfold Tbl.getRow at h
  cases hc : t.check i with
  | error p => rw [hc, errBind] at h; cases h
  | ok k =>
    have : k = i := by
      unfold Tbl.check at hc
      split at hc
      · cases hc
      · split at hc
        · cases hc
        · injection hc with hc; exact hc.symm
    subst this
    rw [hc, okBind] at h
    exact seqFin_inv h j

/-- C11: in every history, of every kind, each public structural operation either succeeds or ends in one
of the explicit panics; none reaches an unchecked access out of bounds. -/
theorem C11_ops_no_ub (c : Bool) (t : Tbl S) (ht : Reach key c t) (op : TOp S) (ha : op.Allowed S.kind) :
    op.run key t ≠ .error .ub := by
  obtain ⟨L, d, h⟩ := ht.aligned
  rcases aligned_total key h ha with ⟨t1, L1, d1, e1, -⟩ | ⟨p, e1, hp⟩
  · rw [e1]; simp
  · rw [e1]; intro he; injection he with he; subst he; simp [opPanics] at hp

/-- C11: reads. `get_row`, `col[id]` and lookups of an indexed column are in bounds for every id. -/
theorem C11_reads_no_ub (c : Bool) (t : Tbl S) (ht : Reach key c t) (i : Nat) (j : Fin (S.n + 1)) :
    t.getRow i ≠ .error .ub ∧ t.cell j i ≠ .error .ub := by
  obtain ⟨L, d, h⟩ := ht.aligned
  constructor
  · unfold Tbl.getRow
    rw [h.check]
    split
    · simp
    · split
      · simp
      · rw [okBind, h.rep.rowAt (by omega)]; simp
  · unfold Tbl.cell
    split
    · simp
    · rename_i hlt
      rw [(LS.law j).index_ok i (h.rep.inv j) (by rw [← (LS.law j).len_ok]; omega)]; simp

/-- C11: every id that iteration yields can be read, in every column and as a row, without any panic. -/
theorem C11_iterated_rows_readable (c : Bool) (t : Tbl S) (ht : Reach key c t) (ids : List Nat)
    (hi : t.iterIds = .ok ids) (i : Nat) (hm : i ∈ ids) (j : Fin (S.n + 1)) :
    ∃ r, t.getRow i = .ok r ∧ t.cell j i = .ok (r j) := by
  obtain ⟨L, d, h⟩ := ht.aligned
  have hl : L.length ≤ S.max := by
    by_contra hl; rw [iterIds_full h (by omega)] at hi; cases hi
  rw [iterIds_ok h hl] at hi; injection hi with hi; subst hi
  have hc := (mem_liveIds h 0 L.length i (le_refl _)).1 hm
  have hcon := hc.2.2
  rw [h.contains_eq] at hcon
  simp at hcon
  refine ⟨L[i]'hcon.1, ?_, ?_⟩
  · unfold Tbl.getRow
    rw [h.check, if_neg (by omega), if_neg hcon.2, okBind, h.rep.rowAt hcon.1]
  · unfold Tbl.cell
    rw [h.rep.colLen, if_neg (by omega)]
    rw [(LS.law j).index_ok i (h.rep.inv j) (by rw [h.rep.abs]; simpa using hcon.1)]
    simp [h.rep.abs]

/-- The demo table after `clear()` and a removal flush. Unclean histories are real: a table cleared while a row was deleted is reachable. -/
def demoCleared : Tbl (Demo .consistent) :=
  match (demoTbl 255).removeSel .all with
  | .ok t => t
  | .error _ => Tbl.new

example : ∃ t, Reach (S := Demo .consistent) demoKey false t ∧ t.len = 0 ∧
    ((W.lock t).push (demoRow 1 true 1)).toOption.isSome = false := by
  refine ⟨demoCleared, Reach.step (t := demoTbl 255) (op := .remove .all) (clean := false) ?_
    trivial (by intro h; cases h) rfl, by decide, by decide⟩
  exact Reach.ofOps Reach.new (by
    intro op hop
    simp only [demoOps, List.mem_cons, List.not_mem_nil, or_false] at hop
    rcases hop with rfl | rfl | rfl | rfl <;> simp [TOp.Allowed, TOp.clears]) demoTbl_run

/-! ## C51 -/

/-- C51: `push_array` of at least one row appends the rows, in order, at the old length (ignoring free
ids), returns that range, and changes nothing else. -/
theorem C51_push_array (w : W S) (hw : Reach key true w.tbl) (rows : List (Row S)) (hne : rows ≠ [])
    (w' : W S) (a b : Nat) (h : w.pushArray rows = .ok (w', (a, b))) :
    a = w.tbl.len ∧ b = a + rows.length ∧ w'.tbl.len = b ∧
    (∀ k (hk : k < rows.length), w'.tbl.getRow (a + k) = .ok rows[k]) ∧
    ∀ i < a, w'.tbl.contains i = w.tbl.contains i ∧ w'.tbl.view i = w.tbl.view i := by
  obtain ⟨L, hwf⟩ := hw.wf
  have := Aligned.pushArray (w := w) rows hne hwf.aligned (by intro i hi; exact hwf.lt i hi)
  by_cases hl : L.length + rows.length ≤ S.max
  swap
  · rw [this.2 (by omega)] at h; cases h
  obtain ⟨t1, e1, e2, e3⟩ := this.1 hl
  rw [e1] at h; injection h with h; injection h with h1 h2; injection h2 with h2 h3
  subst h1 h2 h3
  have hwf' : WF t1 (L ++ rows) := WF.of_aligned e3 (by intro i _; rw [e2])
    (by intro i hi; rw [e2] at hi; have := hwf.lt i hi; simp; omega)
  refine ⟨hwf.len.symm, rfl, by rw [show (_ : W S).tbl.len = t1.len from rfl, hwf'.len]; simp, ?_, ?_⟩
  · intro k hk
    show t1.getRow _ = _
    rw [hwf'.getRow (i := L.length + k) (by simp; omega) (by
      rw [e2]; intro hm; have := hwf.lt _ hm; omega)]
    simp
  · intro i hi
    show t1.contains i = _ ∧ t1.view i = _
    constructor
    · rw [Bool.eq_iff_iff, hwf'.contains_iff, hwf.contains_iff, e2]; simp; omega
    · rw [hwf'.view, hwf.view, e2, List.getElem?_append_left hi]

/-- C51: when it panics: exactly when the new length would not fit the row-id type. -/
theorem C51_push_array_panics_iff (w : W S) (hw : Reach key true w.tbl) (rows : List (Row S)) (hne : rows ≠ []) :
    (∃ p, w.pushArray rows = .error p) ↔ S.max < w.tbl.len + rows.length := by
  obtain ⟨L, hwf⟩ := hw.wf
  have := Aligned.pushArray (w := w) rows hne hwf.aligned (by intro i hi; exact hwf.lt i hi)
  rw [hwf.len]
  by_cases hl : L.length + rows.length ≤ S.max
  · obtain ⟨t1, e1, -⟩ := this.1 hl
    rw [e1]; simp; omega
  · rw [this.2 (by omega)]; simp; omega

/-- C51, the defect: an empty `push_array` returns a range that `table.range(..)` refuses, on every table
that does not fill its row-id type. -/
theorem C51_empty_push_array_range_panics (c : Bool) (w : W S) (hw : Reach key c w.tbl) (hl : w.tbl.len < S.max) :
    ∃ r, w.pushArray [] = .ok (w, r) ∧ r.1 = r.2 ∧ w.tbl.rangeIds ⟨r.1, r.2⟩ = .error .badRange := by
  refine ⟨(S.max, S.max), rfl, rfl, ?_⟩
  unfold Tbl.rangeIds Tbl.rangeLive Tbl.rangeChecked
  simp only [or_true, if_true]
  rw [if_neg (show ¬ S.max ≤ w.tbl.len by omega)]
  split <;> rfl

example : ((W.lock (demoTbl 255)).pushArray [demoRow 1 true 1, demoRow 2 false 2]).toOption.map
      (fun p => (p.2, demoView p.1.tbl 5)) =
    some ((3, 5), [some (5, true, 1), none, some (5, true, 3), some (1, true, 1), some (2, false, 2)]) := by decide

/-! ## C55 -/

/-- C55: an id checked against a table reads, in each column of that table, the cell of the row `get_row` shows. -/
theorem C55_same_table (t : Tbl S) (ht : Reach key true t) (i ci : Nat) (hc : t.check i = .ok ci)
    (j : Fin (S.n + 1)) : ∃ r, t.view i = some r ∧ t.getRow i = .ok r ∧ t.cellChecked j ci = .ok (r j) := by
  obtain ⟨L, h⟩ := ht.wf
  rw [h.aligned.check] at hc
  split at hc
  · cases hc
  · rename_i h1
    split at hc
    · cases hc
    · rename_i h2
      injection hc with hc
      subst hc
      have hi : i < L.length := by omega
      refine ⟨L[i], ?_, h.getRow hi h2, ?_⟩
      · rw [h.view, if_neg h2, List.getElem?_eq_getElem hi]
      · exact seqFin_inv (h.rep.rowAt hi) j

/-- C55: it is accepted by every table of the same type: where that table has a row of this id, live or not, its cell is
read; where it has not, reading is undefined behaviour, or a panic in columns of `bool`. -/
theorem C55_other_tables (t t' : Tbl S) (ht' : Reach key true t') (i ci : Nat) (hc : t.check i = .ok ci) (j : Fin (S.n + 1)) :
    t'.recheck ci = .ok i ∧
    (i < t'.len → ∃ v, t'.cell j i = .ok v ∧ t'.cellChecked j ci = .ok v) ∧
    (t'.len ≤ i → t'.cellChecked j ci = .error .ub ∨ t'.cellChecked j ci = .error .vecOob) := by
  obtain ⟨L, h⟩ := ht'.wf
  have hci : ci = i := by
    unfold Tbl.check at hc
    repeat' (split at hc)
    all_goals first | cases hc; done | (injection hc with hc; exact hc.symm)
  subst hci
  have habs : ((LS.law j).abs (t'.cols j)).length = L.length := by rw [h.rep.abs]; simp
  refine ⟨rfl, ?_, ?_⟩
  · intro hl
    rw [h.len] at hl
    refine ⟨_, ?_, (LS.law j).index_ok ci (h.rep.inv j) (by omega)⟩
    unfold Tbl.cell
    rw [if_neg (by rw [(LS.law j).len_ok]; omega)]
    exact (LS.law j).index_ok ci (h.rep.inv j) (by omega)
  · intro hl
    rw [h.len] at hl
    exact (LS.law j).index_oob ci (h.rep.inv j) (by omega)

/-- C55, concretely: an id checked against the table of one universe is accepted by the (empty) table of
another one, where reading a cell with it is undefined behaviour; and by one where that row is deleted. -/
theorem C55_accepted_by_other_tables :
    (do let i ← (demoTbl 255).check 2
        let i ← (Tbl.new : Tbl (Demo .consistent)).recheck i
        (Tbl.new : Tbl (Demo .consistent)).cellChecked 2 i) = .error .ub ∧
    (do let t ← runOps demoKey (demoTbl 255) [.push (demoRow 7 true 7)]
        let i ← t.check 1
        let i ← (demoTbl 255).recheck i
        (demoTbl 255).cellChecked 2 i) = .ok (2 : Nat) ∧ (demoTbl 255).contains 1 = false := by decide

example : Reach demoKey true (demoTbl 255) ∧ (demoTbl 255).check 2 = .ok 2 := ⟨demoTbl_reach, by decide⟩

end V11
