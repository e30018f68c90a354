import Verif.Lemmas.Write
import Mathlib.Data.List.Basic

/-!
# `BagIter`, `push_array` and the removal loop
-/

set_option linter.unusedSimpArgs false
set_option linter.unusedSectionVars false

namespace V11

/-- Runs a loop body over a list of visited items: the decisions taken and the final state. -/
def decisions {A σ : Type} (f : Nat → A → σ → Bool × σ) : List (Nat × A) → σ → List Bool × σ
  | [], s => ([], s)
  | (i, a) :: vs, s =>
    let r := f i a s
    let q := decisions f vs r.2
    (r.1 :: q.1, q.2)

theorem decisions_length {A σ : Type} (f : Nat → A → σ → Bool × σ) (vs : List (Nat × A)) (s : σ) :
    (decisions f vs s).1.length = vs.length := by
  induction vs generalizing s with
  | nil => rfl
  | cons v vs ih => simp [decisions, ih]

/-- The visited items that were not marked. -/
def unmarked {A : Type} (vs : List (Nat × A)) (ds : List Bool) : List A :=
  ((vs.zip ds).filter (fun p => !p.2)).map (fun p => p.1.2)

variable {S : Schema} [LS : LawfulSchema S]

theorem bagDelete_ok {t : Tbl S} {L : List (Row S)} (h : WF t L) (hk : S.kind = .bag) {i : Nat} (hi : i < L.length) :
    ∃ t', BagIter.bagDelete t i = .ok t' ∧ WF t' (bagRemove L i) := by
  have hf : t.free = [] := h.kind (by simp [hk])
  obtain ⟨t', h1, h2⟩ := h.deleteRaw_bag hk (i := i) (by intro h; subst h; simp at hi)
  refine ⟨t', ?_, h2⟩
  unfold BagIter.bagDelete
  rw [h.check hi (by simp [hf]), okBind, h1]

theorem bagDelete_oob {t : Tbl S} {L : List (Row S)} (h : WF t L) {i : Nat} (hi : L.length ≤ i) :
    BagIter.bagDelete t i = .error .indexOob := by
  unfold BagIter.bagDelete
  rw [h.aligned.check, if_pos hi, errBind]

theorem bagRemove_mid {A : Type} (kept : List A) (p : A) (rest : List A) (l : A) :
    bagRemove (kept ++ p :: (rest ++ [l])) kept.length = kept ++ l :: rest := by
  unfold bagRemove
  have : (kept ++ p :: (rest ++ [l])).getLast? = some l := by
    rw [show kept ++ p :: (rest ++ [l]) = (kept ++ p :: rest) ++ [l] by simp, List.getLast?_append]; simp
  rw [this]
  simp only []
  rw [List.set_append_right _ _ (le_refl _)]
  simp only [Nat.sub_self, List.set_cons_zero]
  rw [show kept ++ l :: (rest ++ [l]) = (kept ++ l :: rest) ++ [l] by simp, List.dropLast_concat]

theorem bagRemove_last {A : Type} (kept : List A) (p : A) : bagRemove (kept ++ [p]) kept.length = kept := by
  unfold bagRemove
  simp

/-- The iteration from any intermediate state. `pend = none`: nothing to delete; `pend = some p`: row
`p`, just visited, is marked. -/
theorem bagRun_ok {σ : Type} (f : Nat → Row S → σ → Bool × σ) (hk : S.kind = .bag) (k : Nat) (s : σ)
    {it : BagIter S} {kept : List (Row S)} {pend : Option (Row S)} {rest : List (Row S)}
    (h : WF it.tbl (kept ++ pend.toList ++ rest)) (hd : it.delete = pend.isSome)
    (hi : it.i = kept.length + pend.toList.length) (hl : pend.isSome → it.last = some kept.length) :
    ∃ t' vs left L', BagIter.run f k it s = .ok (t', (decisions f vs s).2) ∧ (vs.map Prod.snd ++ left).Perm rest ∧
      vs.length = min k rest.length ∧
      WF t' L' ∧ L'.Perm (kept ++ unmarked vs (decisions f vs s).1 ++ left) := by
  induction k generalizing s it kept pend rest with
  | zero =>
    refine (fun (hx : ∃ t' L', it.drop = .ok t' ∧ WF t' L' ∧ L'.Perm (kept ++ rest)) => ?_) ?_
    · obtain ⟨t', L', e1, e2, e3⟩ := hx
      refine ⟨t', [], rest, L', ?_, by simp, by simp, e2, by simpa [unmarked] using e3⟩
      unfold BagIter.run
      rw [e1, okBind]; rfl
    · cases hp : pend with
      | none =>
        subst hp
        refine ⟨it.tbl, _, ?_, h, by simp⟩
        unfold BagIter.drop
        simp only [Option.isSome_none] at hd
        rw [hd]
        cases it.last <;> rfl
      | some p =>
        subst hp
        simp only [Option.isSome_some, Option.toList_some] at hd hi h
        have hlast := hl rfl
        have hle := h.rep.le
        simp only [List.length_append, List.length_cons, List.length_nil] at hle
        obtain ⟨t', d1, d2⟩ := bagDelete_ok h hk (i := kept.length) (by simp)
        have hdrop : it.drop = .ok t' := by
          unfold BagIter.drop
          rw [hd, hlast]
          simp only []
          rw [fromUsize_ok (by omega), okBind, d1]
        rcases List.eq_nil_or_concat rest with hr | ⟨rest', l, hr⟩
        · subst hr
          simp only [List.append_nil] at d2
          rw [bagRemove_last] at d2
          exact ⟨t', _, hdrop, d2, by simp⟩
        · rw [List.concat_eq_append] at hr
          subst hr
          rw [show kept ++ [p] ++ (rest' ++ [l]) = kept ++ p :: (rest' ++ [l]) by simp, bagRemove_mid] at d2
          exact ⟨t', _, hdrop, d2, List.Perm.append_left kept (by simpa using (List.perm_append_comm (l₁ := [l]) (l₂ := rest')))⟩
  | succ k ih =>
    have hfree : it.tbl.free = [] := h.kind (by simp [hk])
    have hmax := h.rep.le
    -- continuing after the row `row` at position `kept.length` was yielded
    have cont : ∀ (it' : BagIter S) (row : Row S) (rest' : List (Row S)),
        it.next = .ok (some kept.length, it') → WF it'.tbl (kept ++ row :: rest') →
        it'.i = kept.length + 1 → it'.last = some kept.length → (row :: rest').Perm rest →
        ∃ t' vs left L', BagIter.run f (k + 1) it s = .ok (t', (decisions f vs s).2) ∧
          (vs.map Prod.snd ++ left).Perm rest ∧ vs.length = min (k + 1) rest.length ∧
          WF t' L' ∧ L'.Perm (kept ++ unmarked vs (decisions f vs s).1 ++ left) := by
      intro it' row rest' hnext hwf hi' hlast hperm
      have hlen : rest'.length + 1 = rest.length := by
        have := hperm.length_eq; simpa using this
      have hget : it'.tbl.getRow kept.length = .ok row := by
        have hf' : it'.tbl.free = [] := hwf.kind (by simp [hk])
        rw [hwf.getRow (i := kept.length) (by simp) (by simp [hf'])]
        simp
      have hrun : BagIter.run f (k + 1) it s =
          BagIter.run f k { it' with delete := (f kept.length row s).1 } (f kept.length row s).2 := by
        conv_lhs => unfold BagIter.run
        rw [hnext, okBind]
        simp only []
        rw [hget, okBind]
      rw [hrun]
      cases hb : (f kept.length row s).1 with
      | true =>
        obtain ⟨t', vs, left, L', g1, g2, g5, g3, g4⟩ := ih (f kept.length row s).2
          (it := { it' with delete := true }) (kept := kept) (pend := some row) (rest := rest')
          (by simpa using hwf) rfl (by simpa using hi') (by intro _; exact hlast)
        refine ⟨t', (kept.length, row) :: vs, left, L', ?_, ?_, by simp; omega, g3, ?_⟩
        · rw [g1]; simp [decisions]
        · simpa using (g2.cons row).trans hperm
        · simpa [decisions, unmarked, hb] using g4
      | false =>
        obtain ⟨t', vs, left, L', g1, g2, g5, g3, g4⟩ := ih (f kept.length row s).2
          (it := { it' with delete := false }) (kept := kept ++ [row]) (pend := none) (rest := rest')
          (by simpa using hwf) rfl (by simpa using hi') (by simp)
        refine ⟨t', (kept.length, row) :: vs, left, L', ?_, ?_, by simp; omega, g3, ?_⟩
        · rw [g1]; simp [decisions]
        · simpa using (g2.cons row).trans hperm
        · simpa [decisions, unmarked, hb] using g4
    cases hp : pend with
    | none =>
      subst hp
      simp only [Option.isSome_none, Option.toList_none, List.append_nil, List.length_nil, Nat.add_zero] at hd hi h
      cases hr : rest with
      | nil =>
        subst hr
        refine ⟨it.tbl, [], [], kept, ?_, by simp, by simp, by simpa using h, by simp [unmarked]⟩
        unfold BagIter.run BagIter.next
        rw [h.len, hi]
        simp only [List.append_nil, ge_iff_le, le_refl, if_true, okBind]
        unfold BagIter.drop
        rw [hd]
        cases it.last <;> simp [decisions]
      | cons row rest' =>
        subst hr
        refine cont { it with last := some it.i, i := it.i + 1 } row rest' ?_ h (by simp [hi]) (by simp [hi]) (List.Perm.refl _)
        unfold BagIter.next
        rw [h.len, if_neg (by simp [hi]), hd]
        simp only [Bool.false_eq_true, if_false, okBind]
        rw [hi, fromUsize_ok (by simp at hmax; omega), okBind]
    | some p =>
      subst hp
      simp only [Option.isSome_some, Option.toList_some, List.length_cons, List.length_nil, Nat.zero_add] at hd hi h
      have hlast := hl rfl
      rcases List.eq_nil_or_concat rest with hr | ⟨rest', l, hr⟩
      · subst hr
        simp only [List.append_nil] at h
        obtain ⟨t', d1, d2⟩ := bagDelete_ok h hk (i := kept.length) (by simp)
        rw [bagRemove_last] at d2
        refine ⟨t', [], [], kept, ?_, by simp, by simp, d2, by simp [unmarked]⟩
        unfold BagIter.run BagIter.next
        rw [h.len, hi, if_pos (by simp), okBind]
        simp only []
        unfold BagIter.drop
        rw [hd, hlast]
        simp only []
        rw [fromUsize_ok (by have := h.rep.le; simp at this; omega), okBind, d1, okBind]
        rfl
      · rw [List.concat_eq_append] at hr
        subst hr
        have h' : WF it.tbl (kept ++ p :: (rest' ++ [l])) := by simpa using h
        have hle := h'.rep.le
        obtain ⟨t', d1, d2⟩ := bagDelete_ok h' hk (i := kept.length) (by simp)
        rw [bagRemove_mid] at d2
        refine cont { it with tbl := t', delete := false } l rest' ?_ d2 hi hlast (by
          simpa using (List.perm_append_comm (l₁ := [l]) (l₂ := rest')))
        unfold BagIter.next
        rw [h'.len, hi, if_neg (by simp), hd, hlast]
        simp only [if_true]
        simp only [List.length_append, List.length_cons] at hle
        rw [fromUsize_ok (by omega), okBind, d1, okBind, okBind]
        simp only []
        rw [fromUsize_ok (by omega), okBind]

/-! ## `push_array` -/

theorem Aligned.pushArrayLoop {w : W S} {L : List (Row S)} {d : Nat → Prop} (rows : List (Row S)) (h : Aligned w.tbl L d)
    (hd : ∀ i, d i → i < L.length) (last : Nat) :
    (L.length + rows.length ≤ S.max + 1 → ∃ t',
      W.pushArrayLoop w last rows = .ok ({ (List.range' L.length rows.length).foldl W.eventAdd w with tbl := t' },
        if rows = [] then last else L.length + rows.length - 1) ∧
      t'.free = w.tbl.free ∧ Aligned t' (L ++ rows) d) ∧
    (S.max + 1 < L.length + rows.length → W.pushArrayLoop w last rows = .error .idxOverflow) := by
  induction rows generalizing w L last with
  | nil =>
    refine ⟨fun _ => ⟨w.tbl, rfl, rfl, by simpa using h⟩, fun hc => ?_⟩
    have := h.rep.le; simp at hc; omega
  | cons r rs ih =>
    unfold W.pushArrayLoop
    by_cases hl : L.length ≤ S.max
    · obtain ⟨t1, h1, h2, h3⟩ := h.pushEnd r hl
      rw [h1, okBind]
      simp only []
      have h3' : Aligned t1 (L ++ [r]) d := by
        refine ⟨h3.rep.congr ?_, h3.ok, fun hk => ⟨(h3.kind hk).1, (h.kind hk).2⟩⟩
        intro i _; constructor
        · exact fun x => x.1
        · exact fun x => ⟨x, hd i x⟩
      have := ih (w := { w.eventAdd L.length with tbl := t1 }) (L := L ++ [r]) h3'
        (fun i hi => by have := hd i hi; simp; omega) L.length
      simp only [List.length_append, List.length_cons, List.length_nil, Nat.zero_add] at this
      constructor
      · intro hc
        obtain ⟨t', e1, e2, e3⟩ := this.1 (by simp at hc; omega)
        refine ⟨t', ?_, by rw [e2, h2], by simpa using e3⟩
        rw [e1]
        congr 2
        · simp only [List.length_cons, List.range'_succ, List.foldl_cons]
          have fold_tbl : ∀ (l : List Nat) (w : W S) (t : Tbl S),
              { l.foldl W.eventAdd { w with tbl := t } with tbl := t' } = ({ l.foldl W.eventAdd w with tbl := t' } : W S) := by
            intro l
            induction l with
            | nil => intro w t; rfl
            | cons x xs ihx => intro w t; simp only [List.foldl_cons]; rw [eventAdd_withTbl, ihx]
          rw [fold_tbl]
        · rcases rs with _ | ⟨x, xs⟩ <;> simp; omega
      · intro hc; exact this.2 (by simp at hc; omega)
    · rw [h.pushEnd_full r (by omega), errBind]
      exact ⟨fun hc => by simp at hc; omega, fun _ => rfl⟩

theorem pushArray_cons (w : W S) (r : Row S) (rs : List (Row S)) :
    w.pushArray (r :: rs) = (do
      let (w1, start) ← w.pushEnd r
      let (w2, last) ← W.pushArrayLoop w1 start rs
      let e ← nextId S.max last
      .ok (w2, (start, e))) := rfl

/-- `push_array` of at least one row: appended at the end, or the row-id type overflows. -/
theorem Aligned.pushArray {w : W S} {L : List (Row S)} {d : Nat → Prop} (rows : List (Row S)) (hne : rows ≠ [])
    (h : Aligned w.tbl L d) (hd : ∀ i, d i → i < L.length) :
    (L.length + rows.length ≤ S.max → ∃ t',
      w.pushArray rows = .ok ({ (List.range' L.length rows.length).foldl W.eventAdd w with tbl := t' },
        (L.length, L.length + rows.length)) ∧
      t'.free = w.tbl.free ∧ Aligned t' (L ++ rows) d) ∧
    (S.max < L.length + rows.length → w.pushArray rows = .error .idxOverflow) := by
  cases rows with
  | nil => exact absurd rfl hne
  | cons r rs =>
    have hloop := h.pushArrayLoop (r :: rs) hd 0
    -- relate to the loop over all rows
    have hrel : w.pushArray (r :: rs) = (do
        let (w2, last) ← W.pushArrayLoop w 0 (r :: rs)
        let e ← nextId S.max last
        .ok (w2, (L.length, e))) := by
      rw [pushArray_cons]
      conv_rhs => unfold W.pushArrayLoop
      by_cases hl : L.length ≤ S.max
      · obtain ⟨t1, h1, h2, h3⟩ := h.pushEnd r hl
        rw [h1]; rfl
      · rw [h.pushEnd_full r (by omega)]; rfl
    rw [hrel]
    constructor
    · intro hc
      obtain ⟨t', e1, e2, e3⟩ := hloop.1 (by omega)
      refine ⟨t', ?_, e2, e3⟩
      rw [e1, okBind]
      simp only []
      have hn : nextId S.max (if r :: rs = [] then 0 else L.length + (r :: rs).length - 1) = .ok (L.length + (r :: rs).length) := by
        rw [if_neg (by simp)]
        unfold nextId
        simp only [List.length_cons] at hc ⊢
        rw [if_pos (by omega)]
        congr 1
      rw [hn, okBind]
    · intro hc
      by_cases ht : L.length + (r :: rs).length ≤ S.max + 1
      · obtain ⟨t', e1, e2, e3⟩ := hloop.1 ht
        rw [e1, okBind]
        simp only []
        have hn : nextId S.max (if r :: rs = [] then 0 else L.length + (r :: rs).length - 1) = .error .idxOverflow := by
          rw [if_neg (by simp)]
          unfold nextId
          simp only [List.length_cons] at hc ⊢
          rw [if_neg (by omega)]
        rw [hn, errBind]
      · rw [hloop.2 (by omega), errBind]

/-! ## The removal loop -/

theorem Aligned.deleteLoop {t : Tbl S} {L : List (Row S)} {d : Nat → Prop} (h : Aligned t L d)
    (hk : S.kind = .consistent) (rows : List Nat) :
    ((∀ i ∈ rows, i < L.length) → ∃ t', t.deleteLoop L.length rows = .ok t' ∧
      t'.free = rows.foldl (fun fr i => BSet.insert i fr) t.free ∧ Aligned t' L (fun x => d x ∨ x ∈ rows)) ∧
    ((∃ i ∈ rows, L.length ≤ i) → t.deleteLoop L.length rows = .error .assertRow) := by
  unfold Tbl.deleteLoop
  induction rows generalizing t d with
  | nil => exact ⟨fun _ => ⟨t, rfl, rfl, by simpa using h⟩, by simp⟩
  | cons r rs ih =>
    rw [List.foldlM_cons]
    by_cases hr : r < L.length
    · obtain ⟨t1, h1, h2, h3⟩ := h.deleteRaw_consistent hk hr
      rw [if_pos hr, h1, okBind]
      have := ih h3
      constructor
      · intro hall
        obtain ⟨t', e1, e2, e3⟩ := this.1 (fun i hi => hall i (by simp [hi]))
        refine ⟨t', e1, by rw [e2, h2]; rfl, ⟨e3.rep.congr ?_, e3.ok, fun hk' => absurd hk hk'⟩⟩
        intro i _; simp [or_assoc]
      · rintro ⟨i, hi, hge⟩
        rcases List.mem_cons.1 hi with rfl | hi
        · omega
        · exact this.2 ⟨i, hi, hge⟩
    · rw [if_neg hr, errBind]
      exact ⟨fun hall => absurd (hall r (by simp)) hr, fun _ => rfl⟩

theorem mem_foldl_insert (rows fr : List Nat) (x : Nat) :
    x ∈ rows.foldl (fun fr i => BSet.insert i fr) fr ↔ x ∈ rows ∨ x ∈ fr := by
  induction rows generalizing fr with
  | nil => simp
  | cons r rs ih => rw [List.foldl_cons, ih, BSet.mem_insert]; simp; tauto

theorem WF.deleteLoop {t : Tbl S} {L : List (Row S)} (h : WF t L) (hk : S.kind = .consistent) (rows : List Nat)
    (hall : ∀ i ∈ rows, i < L.length) :
    ∃ t', t.deleteLoop L.length rows = .ok t' ∧ (∀ x, x ∈ t'.free ↔ x ∈ rows ∨ x ∈ t.free) ∧ WF t' L := by
  obtain ⟨t', h1, h2, h3⟩ := (h.aligned.deleteLoop hk rows).1 hall
  have hm : ∀ x, x ∈ t'.free ↔ x ∈ rows ∨ x ∈ t.free := by intro x; rw [h2]; exact mem_foldl_insert _ _ _
  refine ⟨t', h1, hm, WF.of_aligned h3 ?_ ?_⟩
  · intro i _; rw [hm]; tauto
  · intro i hi
    rcases (hm i).1 hi with hi | hi
    · exact hall i hi
    · exact h.lt i hi

/-- The bag removal loop: repeated swap-removal, with the ids as they were before the loop. -/
theorem WF.deleteLoop_bag {t : Tbl S} {L : List (Row S)} (h : WF t L) (hk : S.kind = .bag) (len : Nat) (rows : List Nat) :
    ((∃ t', t.deleteLoop len rows = .ok t' ∧ (∀ i ∈ rows, i < len) ∧ rows.length ≤ L.length ∧
        WF t' (rows.foldl bagRemove L)) ∨
      t.deleteLoop len rows = .error .assertRow ∨ t.deleteLoop len rows = .error .subOverflow) := by
  unfold Tbl.deleteLoop
  induction rows generalizing t L with
  | nil => exact Or.inl ⟨t, rfl, by simp, by simp, h⟩
  | cons r rs ih =>
    rw [List.foldlM_cons]
    by_cases hr : r < len
    swap
    · rw [if_neg hr, errBind]; exact Or.inr (Or.inl rfl)
    rw [if_pos hr]
    by_cases hne : L = []
    · subst hne
      refine Or.inr (Or.inr ?_)
      unfold Tbl.deleteRaw
      rw [hk]
      simp only []
      rw [h.len]
      simp
    · obtain ⟨t1, h1, h2⟩ := h.deleteRaw_bag hk (i := r) hne
      rw [h1, okBind]
      have hlen : (bagRemove L r).length + 1 = L.length := by
        have hpos := List.length_pos_iff.2 hne
        unfold bagRemove
        rw [List.getLast?_eq_getElem?, List.getElem?_eq_getElem (by omega)]
        simp; omega
      rcases ih h2 with ⟨t', e1, e2, e3, e4⟩ | e | e
      · exact Or.inl ⟨t', e1, by simpa [hr] using e2, by simp; omega, by simpa using e4⟩
      · exact Or.inr (Or.inl e)
      · exact Or.inr (Or.inr e)

/-- It succeeds if the ids were in range and there are enough rows. -/
theorem WF.deleteLoop_bag_ok {t : Tbl S} {L : List (Row S)} (h : WF t L) (hk : S.kind = .bag) (len : Nat) (rows : List Nat)
    (h1 : ∀ i ∈ rows, i < len) (h2 : rows.length ≤ L.length) :
    ∃ t', t.deleteLoop len rows = .ok t' ∧ WF t' (rows.foldl bagRemove L) := by
  unfold Tbl.deleteLoop
  induction rows generalizing t L with
  | nil => exact ⟨t, rfl, h⟩
  | cons r rs ih =>
    rw [List.foldlM_cons, if_pos (h1 r (by simp))]
    have hne : L ≠ [] := by intro e; subst e; simp at h2
    obtain ⟨t1, e1, e2⟩ := h.deleteRaw_bag hk (i := r) hne
    rw [e1, okBind]
    have hlen : (bagRemove L r).length + 1 = L.length := by
      have hpos := List.length_pos_iff.2 hne
      unfold bagRemove
      rw [List.getLast?_eq_getElem?, List.getElem?_eq_getElem (by omega)]
      simp; omega
    exact ih e2 (fun i hi => h1 i (by simp [hi])) (by simp at h2; omega)

theorem deleteLoop_other {t : Tbl S} (h1 : S.kind ≠ .consistent) (h2 : S.kind ≠ .bag) (len : Nat) (r : Nat) (rs : List Nat) :
    t.deleteLoop len (r :: rs) = .error .badDelete ∨ t.deleteLoop len (r :: rs) = .error .assertRow := by
  unfold Tbl.deleteLoop
  rw [List.foldlM_cons]
  by_cases hr : r < len
  · left
    rw [if_pos hr]
    have : t.deleteRaw r = .error .badDelete := by
      unfold Tbl.deleteRaw
      cases hk : S.kind <;> simp_all
    rw [this, errBind]
  · right; rw [if_neg hr, errBind]

end V11
