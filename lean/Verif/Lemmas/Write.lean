import Verif.Model.Ops
import Verif.Lemmas.Table

/-!
# Well-formed tables, and what each basic operation does to them
-/

set_option linter.unusedSimpArgs false
set_option linter.unusedSectionVars false

namespace V11
variable {S : Schema} [LS : LawfulSchema S]

/-- `t` is well formed with rows `L` (dead ones included): the columns hold `L`, and the free list is an
ascending list of ids in range, which the indexes skip. -/
structure WF (t : Tbl S) (L : List (Row S)) : Prop where
  rep : Rep t (· ∈ t.free) L
  ok : BSet.Ok t.free
  lt : ∀ i ∈ t.free, i < L.length
  kind : S.kind ≠ .consistent → t.free = []

/-- The weak invariant that survives even an unclean `clear`. -/
structure Aligned (t : Tbl S) (L : List (Row S)) (d : Nat → Prop) : Prop where
  rep : Rep t d L
  ok : BSet.Ok t.free
  kind : S.kind ≠ .consistent → t.free = [] ∧ ∀ i, ¬ d i

theorem WF.aligned {t : Tbl S} {L : List (Row S)} (h : WF t L) : Aligned t L (· ∈ t.free) :=
  ⟨h.rep, h.ok, fun hk => ⟨h.kind hk, by simp [h.kind hk]⟩⟩

theorem Aligned.wf {t : Tbl S} {L : List (Row S)} {d : Nat → Prop} (h : Aligned t L d) (hk : S.kind ≠ .consistent) :
    WF t L :=
  ⟨h.rep.congr (fun i _ => by simp [(h.kind hk).1, (h.kind hk).2 i]), h.ok, by simp [(h.kind hk).1],
    fun _ => (h.kind hk).1⟩

theorem WF.new : WF (Tbl.new : Tbl S) [] := ⟨Rep.new _, BSet.ok_nil, by simp [Tbl.new], fun _ => rfl⟩

theorem WF.len {t : Tbl S} {L : List (Row S)} (h : WF t L) : t.len = L.length := h.rep.len

theorem Aligned.isDeleted {t : Tbl S} {L : List (Row S)} {d : Nat → Prop} (h : Aligned t L d) (i : Nat) :
    t.isDeleted i = t.free.contains i := by
  unfold Tbl.isDeleted
  by_cases hk : S.kind = .consistent
  · simp [hk]
  · simp [hk, (h.kind hk).1]

theorem Aligned.contains_eq {t : Tbl S} {L : List (Row S)} {d : Nat → Prop} (h : Aligned t L d) (i : Nat) :
    t.contains i = (decide (i < L.length) && !t.free.contains i) := by
  unfold Tbl.contains
  rw [h.rep.len]
  by_cases hk : S.kind = .consistent
  · simp [hk]
  · simp [hk, (h.kind hk).1]

theorem WF.contains_iff {t : Tbl S} {L : List (Row S)} (h : WF t L) (i : Nat) :
    t.contains i = true ↔ i < L.length ∧ i ∉ t.free := by
  rw [h.aligned.contains_eq]; simp

theorem Aligned.check {t : Tbl S} {L : List (Row S)} {d : Nat → Prop} (h : Aligned t L d) (i : Nat) :
    t.check i = if L.length ≤ i then .error .indexOob else if i ∈ t.free then .error .deletedRow else .ok i := by
  unfold Tbl.check
  rw [h.rep.len, h.isDeleted]
  simp

theorem WF.check {t : Tbl S} {L : List (Row S)} (h : WF t L) {i : Nat} (hi : i < L.length) (hf : i ∉ t.free) :
    t.check i = .ok i := by
  rw [h.aligned.check, if_neg (by omega), if_neg hf]

theorem WF.view {t : Tbl S} {L : List (Row S)} (h : WF t L) (i : Nat) :
    t.view i = if i ∈ t.free then none else L[i]? := by
  unfold Tbl.view
  by_cases hc : t.contains i = true
  · have := (h.contains_iff i).1 hc
    rw [if_pos hc, if_neg this.2, h.rep.rowAt this.1]
    simp [this.1, Except.toOption]
  · rw [if_neg hc]
    rw [h.contains_iff] at hc
    by_cases hf : i ∈ t.free
    · simp [hf]
    · rw [if_neg hf]
      have : ¬ i < L.length := fun hl => hc ⟨hl, hf⟩
      simp; omega

theorem WF.getRow {t : Tbl S} {L : List (Row S)} (h : WF t L) {i : Nat} (hi : i < L.length) (hf : i ∉ t.free) :
    t.getRow i = .ok L[i] := by
  unfold Tbl.getRow
  rw [h.check hi hf, okBind, h.rep.rowAt hi]

/-! ## Push -/

theorem eventAdd_tbl (w : W S) (i : Nat) : (w.eventAdd i).tbl = w.tbl := by
  unfold W.eventAdd; split <;> rfl

theorem eventAdd_withTbl (w : W S) (t : Tbl S) (i : Nat) :
    ({ w with tbl := t } : W S).eventAdd i = { w.eventAdd i with tbl := t } := by
  unfold W.eventAdd; split <;> rfl

theorem Aligned.pushEnd {w : W S} {L : List (Row S)} {d : Nat → Prop} (h : Aligned w.tbl L d) (row : Row S)
    (hl : L.length ≤ S.max) :
    ∃ t', w.pushEnd row = .ok ({ w.eventAdd L.length with tbl := t' }, L.length) ∧ t'.free = w.tbl.free ∧
      Aligned t' (L ++ [row]) (fun i => d i ∧ i < L.length) := by
  have hr : Rep w.tbl (fun i => d i ∧ i < L.length) L := h.rep.congr (fun i hi => by simp [hi])
  obtain ⟨t', h1, h2, h3⟩ := hr.pushOnly row (by simp) hl
  refine ⟨t', ?_, h3, ⟨h2, by rw [h3]; exact h.ok, ?_⟩⟩
  · unfold W.pushEnd
    rw [h1, okBind]
    simp only []
    rw [eventAdd_withTbl]
  · intro hk
    rw [h3]
    exact ⟨(h.kind hk).1, fun i hi => (h.kind hk).2 i hi.1⟩

theorem Aligned.pushEnd_full {w : W S} {L : List (Row S)} {d : Nat → Prop} (h : Aligned w.tbl L d) (row : Row S)
    (hl : S.max < L.length) : w.pushEnd row = .error .idxOverflow := by
  unfold W.pushEnd
  rw [h.rep.pushOnly_full row (by have := h.rep.le; omega), errBind]

/-- `push` when a free id is available and still inside the table. -/
theorem Aligned.push_free {w : W S} {L : List (Row S)} {d : Nat → Prop} (h : Aligned w.tbl L d) (row : Row S)
    {old : Nat} {rest : List Nat} (hf : w.tbl.free = old :: rest) (hlt : old < L.length) :
    ∃ t', w.push row = .ok ({ w.eventAdd old with tbl := t' }, old) ∧ t'.free = rest ∧
      Aligned t' (L.set old row) (fun i => d i ∧ i ≠ old) := by
  have hk : S.kind = .consistent := by
    by_contra hk; have := (h.kind hk).1; rw [hf] at this; cases this
  have hok : BSet.Ok (old :: rest) := hf ▸ h.ok
  have hmin : ∀ x ∈ rest, old < x := (List.pairwise_cons.1 hok).1
  have herase : BSet.erase old (old :: rest) = rest := by
    unfold BSet.erase
    simp only [List.filter_cons, ne_eq, not_true, decide_false]
    exact List.filter_eq_self.2 (fun x hx => by have := hmin x hx; simp; omega)
  have hr : Rep ({ w.tbl with free := rest } : Tbl S) d L := h.rep.free_irrel rest
  obtain ⟨t', h1, h2, h3⟩ := hr.swapOutRaw row hlt
  refine ⟨t', ?_, h3, ⟨h2, ?_, fun hk' => absurd hk hk'⟩⟩
  · unfold W.push
    rw [hf]
    simp only []
    rw [herase]
    rw [eventAdd_withTbl]
    have hal : Aligned ({ w.tbl with free := rest } : Tbl S) L d :=
      ⟨hr, (List.pairwise_cons.1 hok).2, fun hk' => absurd hk hk'⟩
    unfold Tbl.swapOutRow
    simp only []
    rw [hal.check, if_neg (by omega), if_neg (fun hm => absurd (hmin _ hm) (lt_irrefl _)), okBind, h1, okBind]
  · rw [h3]; exact (List.pairwise_cons.1 hok).2

/-- `push` on a table whose lowest free id lies outside the columns (stale free list). -/
theorem Aligned.push_stale {w : W S} {L : List (Row S)} {d : Nat → Prop} (h : Aligned w.tbl L d) (row : Row S)
    {old : Nat} {rest : List Nat} (hf : w.tbl.free = old :: rest) (hge : L.length ≤ old) :
    w.push row = .error .indexOob := by
  unfold W.push
  rw [hf]
  simp only []
  rw [eventAdd_withTbl]
  unfold Tbl.swapOutRow
  simp only []
  have hk : S.kind = .consistent := by
    by_contra hk; have := (h.kind hk).1; rw [hf] at this; cases this
  have hal : Aligned ({ w.tbl with free := BSet.erase old (old :: rest) } : Tbl S) L d :=
    ⟨h.rep.free_irrel _, BSet.ok_erase (hf ▸ h.ok), fun hk' => absurd hk hk'⟩
  rw [hal.check, if_pos hge, errBind, errBind]

theorem push_end_of_nil {w : W S} (row : Row S) (hf : w.tbl.free = []) : w.push row = w.pushEnd row := by
  unfold W.push; rw [hf]

theorem WF.of_aligned {t : Tbl S} {L : List (Row S)} {d : Nat → Prop} (h : Aligned t L d)
    (hd : ∀ i, i < L.length → (d i ↔ i ∈ t.free)) (hlt : ∀ i ∈ t.free, i < L.length) : WF t L :=
  ⟨h.rep.congr hd, h.ok, hlt, fun hk => (h.kind hk).1⟩

/-- `push` on a well-formed table, in all cases. -/
theorem WF.push {w : W S} {L : List (Row S)} (h : WF w.tbl L) (row : Row S) :
    (∃ old rest t', w.tbl.free = old :: rest ∧ w.push row = .ok ({ w.eventAdd old with tbl := t' }, old) ∧
        t'.free = rest ∧ WF t' (L.set old row)) ∨
    (∃ t', w.tbl.free = [] ∧ L.length ≤ S.max ∧
        w.push row = .ok ({ w.eventAdd L.length with tbl := t' }, L.length) ∧ t'.free = [] ∧ WF t' (L ++ [row])) ∨
    (w.tbl.free = [] ∧ L.length = S.max + 1 ∧ w.push row = .error .idxOverflow) := by
  cases hf : w.tbl.free with
  | cons old rest =>
    left
    have hlt : old < L.length := h.lt old (by rw [hf]; simp)
    obtain ⟨t', h1, h2, h3⟩ := h.aligned.push_free row hf hlt
    refine ⟨old, rest, t', rfl, h1, h2, WF.of_aligned h3 ?_ ?_⟩
    · intro i hi
      rw [h2, hf]
      have hmin : ∀ x ∈ rest, old < x := (List.pairwise_cons.1 (hf ▸ h.ok)).1
      constructor
      · rintro ⟨h1, h2⟩
        rcases List.mem_cons.1 h1 with rfl | h1
        · exact absurd rfl h2
        · exact h1
      · intro hi; exact ⟨by simp [hi], by have := hmin i hi; omega⟩
    · intro i hi
      rw [h2] at hi
      have := h.lt i (by rw [hf]; simp [hi])
      simpa using this
  | nil =>
    right
    by_cases hl : L.length ≤ S.max
    · left
      obtain ⟨t', h1, h2, h3⟩ := h.aligned.pushEnd row hl
      refine ⟨t', rfl, hl, by rw [push_end_of_nil row hf]; exact h1, by rw [h2, hf], WF.of_aligned h3 ?_ ?_⟩
      · intro i _; simp [h2, hf]
      · intro i hi; simp [h2, hf] at hi
    · right
      refine ⟨rfl, by have := h.rep.le; omega, ?_⟩
      rw [push_end_of_nil row hf]
      exact h.aligned.pushEnd_full row (by omega)

/-! ## Deleting -/

theorem Aligned.deleteRaw_consistent {t : Tbl S} {L : List (Row S)} {d : Nat → Prop} (h : Aligned t L d)
    (hk : S.kind = .consistent) {i : Nat} (hi : i < L.length) :
    ∃ t', t.deleteRaw i = .ok t' ∧ t'.free = BSet.insert i t.free ∧ Aligned t' L (fun x => d x ∨ x = i) := by
  obtain ⟨t', h1, h2, h3⟩ := h.rep.deletedCols hi
  refine ⟨{ t' with free := BSet.insert i t.free }, ?_, rfl,
    ⟨h2.free_irrel _, BSet.ok_insert h.ok, fun hk' => absurd hk hk'⟩⟩
  unfold Tbl.deleteRaw
  rw [hk]
  simp only []
  rw [h1, okBind, fromUsize_ok (by have := h.rep.le; omega), okBind, h3]

theorem WF.deleteRaw_consistent {t : Tbl S} {L : List (Row S)} (h : WF t L)
    (hk : S.kind = .consistent) {i : Nat} (hi : i < L.length) :
    ∃ t', t.deleteRaw i = .ok t' ∧ t'.free = BSet.insert i t.free ∧ WF t' L := by
  obtain ⟨t', h1, h2, h3⟩ := h.aligned.deleteRaw_consistent hk hi
  refine ⟨t', h1, h2, WF.of_aligned h3 ?_ ?_⟩
  · intro x _; rw [h2, BSet.mem_insert]; tauto
  · intro x hx
    rw [h2, BSet.mem_insert] at hx
    rcases hx with rfl | hx
    · exact hi
    · exact h.lt x hx

/-- A bag deletion: the last row moves into the hole. -/
def bagRemove {A : Type} (L : List A) (i : Nat) : List A :=
  match L.getLast? with
  | none => []
  | some l => (L.set i l).dropLast

theorem WF.deleteRaw_bag {t : Tbl S} {L : List (Row S)} (h : WF t L)
    (hk : S.kind = .bag) {i : Nat} (hne : L ≠ []) :
    ∃ t', t.deleteRaw i = .ok t' ∧ WF t' (bagRemove L i) := by
  have hfree : t.free = [] := h.kind (by simp [hk])
  have hpos : 0 < L.length := List.length_pos_iff.2 hne
  have hb : bagRemove L i = (L.set i L[L.length - 1]).take (L.length - 1) := by
    unfold bagRemove
    rw [List.getLast?_eq_getElem?, List.getElem?_eq_getElem (by omega)]
    simp [List.dropLast_eq_take]
  unfold Tbl.deleteRaw
  rw [hk]
  simp only []
  rw [h.len, if_neg (by omega)]
  by_cases hlast : i < L.length - 1
  · obtain ⟨t1, h1, h2, h3⟩ := h.rep.swapRaw (a := i) (by omega) (b := L.length - 1) (by omega) (by simp [hfree]) (by simp [hfree])
    rw [if_pos hlast, h1, okBind]
    obtain ⟨t2, h4, h5, h6⟩ := h2.truncate (L.length - 1)
    refine ⟨t2, h4, ⟨?_, ?_, ?_, ?_⟩⟩
    · rw [hb]
      rw [List.take_set_of_le (by omega)] at h5
      exact h5.congr (fun x _ => by simp [h6, h3])
    · rw [h6, h3, hfree]; exact BSet.ok_nil
    · simp [h6, h3, hfree]
    · intro _; rw [h6, h3, hfree]
  · rw [if_neg hlast, okBind]
    obtain ⟨t2, h4, h5, h6⟩ := h.rep.truncate (L.length - 1)
    have hi' : L.length - 1 ≤ i := by omega
    refine ⟨t2, h4, ⟨?_, ?_, ?_, ?_⟩⟩
    · rw [hb]
      have : L.set i (L[L.length - 1]'(by omega)) = L := by
        rcases Nat.eq_or_lt_of_le hi' with e | e
        · subst e; exact List.set_getElem_self _
        · exact List.set_eq_of_length_le (by omega)
      rw [this]
      exact h5.congr (fun x _ => by simp [h6])
    · rw [h6, hfree]; exact BSet.ok_nil
    · simp [h6, hfree]
    · intro _; rw [h6, hfree]

theorem WF.clearRaw {t : Tbl S} {L : List (Row S)} (h : WF t L) (hf : t.free = []) :
    ∃ t', t.clearRaw = .ok t' ∧ t'.free = [] ∧ WF t' [] := by
  obtain ⟨t', h1, h2, h3⟩ := h.rep.clearRaw (· ∈ t.free)
  refine ⟨t', h1, by rw [h3, hf], ⟨h2.congr (by simp), by rw [h3]; exact h.ok, by simp [h3, hf], fun _ => by rw [h3, hf]⟩⟩

theorem Aligned.clearRaw {t : Tbl S} {L : List (Row S)} {d : Nat → Prop} (h : Aligned t L d) :
    ∃ t', t.clearRaw = .ok t' ∧ t'.free = t.free ∧ Aligned t' [] (fun _ => False) := by
  obtain ⟨t', h1, h2, h3⟩ := h.rep.clearRaw (fun _ => False)
  exact ⟨t', h1, h3, ⟨h2, by rw [h3]; exact h.ok, fun hk => ⟨by rw [h3]; exact (h.kind hk).1, fun _ => id⟩⟩⟩

theorem WF.setCell {t : Tbl S} {L : List (Row S)} (h : WF t L) (j : Fin (S.n + 1)) {i : Nat} (v : S.E j)
    (hi : i < L.length) :
    t.setCell j i v = .error .indexedMut ∨
    ∃ t', t.setCell j i v = .ok t' ∧ t'.free = t.free ∧ WF t' (L.set i (Function.update L[i] j v)) := by
  rcases h.rep.setCell j v hi with h1 | ⟨t', h1, h2, h3⟩
  · exact Or.inl h1
  · exact Or.inr ⟨t', h1, h3, ⟨h2.congr (by simp [h3]), by rw [h3]; exact h.ok,
      fun x hx => by rw [h3] at hx; simpa using h.lt x hx, fun hk => by rw [h3]; exact h.kind hk⟩⟩

/-- `swap_out_row` on a non-consistent table. -/
theorem WF.swapOutRow {t : Tbl S} {L : List (Row S)} (h : WF t L) {i : Nat} (row : Row S) (hi : i < L.length)
    (hf : t.free = []) :
    ∃ t', t.swapOutRow i row = .ok (t', L[i]) ∧ t'.free = [] ∧ WF t' (L.set i row) := by
  obtain ⟨t', h1, h2, h3⟩ := h.rep.swapOutRaw row hi
  refine ⟨t', ?_, by rw [h3, hf], ⟨h2.congr (by simp [h3, hf]), by rw [h3]; exact h.ok, by simp [h3, hf], fun _ => by rw [h3, hf]⟩⟩
  unfold Tbl.swapOutRow
  rw [h.check hi (by simp [hf]), okBind, h1]

theorem WF.pushOnly {t : Tbl S} {L : List (Row S)} (h : WF t L) (row : Row S) (hl : L.length ≤ S.max) :
    ∃ t', t.pushOnly row = .ok (t', L.length) ∧ t'.free = t.free ∧ WF t' (L ++ [row]) := by
  obtain ⟨t', h1, h2, h3⟩ := h.rep.pushOnly row (fun hm => absurd (h.lt _ hm) (lt_irrefl _)) hl
  refine ⟨t', h1, h3, ⟨h2.congr (by simp [h3]), by rw [h3]; exact h.ok, ?_, fun hk => by rw [h3]; exact h.kind hk⟩⟩
  intro x hx; rw [h3] at hx
  have := h.lt x hx
  simp; omega

theorem WF.truncate {t : Tbl S} {L : List (Row S)} (h : WF t L) (n : Nat) (hf : t.free = []) :
    ∃ t', t.truncate n = .ok t' ∧ t'.free = [] ∧ WF t' (L.take n) := by
  obtain ⟨t', h1, h2, h3⟩ := h.rep.truncate n
  exact ⟨t', h1, by rw [h3, hf], ⟨h2.congr (by simp [h3]), by rw [h3]; exact h.ok, by simp [h3, hf], fun _ => by rw [h3, hf]⟩⟩

end V11
