import Verif.Lemmas.Unwind
import Verif.Lemmas.Serial

/-!
# Restoring an extraction that is not as it should be
-/

set_option linter.unusedSimpArgs false
set_option linter.unusedSectionVars false
set_option linter.unusedVariables false

namespace V11
variable {T : Type} [DecidableEq T] {S : T → Schema} [LS : ∀ t, LawfulSchema (S t)]
variable [LV : ∀ t, LeavesSchema (S t)]
variable {K : Type} [LinearOrder K] {key : (t : T) → Row (S t) → K}

omit LS LV in
theorem rowNo_some {Sc : Schema} {x : Extraction Sc} {k : Nat} {r : Row Sc} (h : ∀ j, ((Sc.C j).toList (x.data j))[k]? = some (r j)) :
    x.rowNo k = .ok r := by
  unfold Extraction.rowNo
  apply seqFin_ok
  intro j
  rw [h j]

omit LS LV in
theorem rowNo_short {Sc : Schema} {x : Extraction Sc} {k : Nat} (h : ∃ j, ((Sc.C j).toList (x.data j)).length ≤ k) :
    x.rowNo k = .error .unwrapNone := by
  obtain ⟨j, hj⟩ := h
  unfold Extraction.rowNo
  refine seqFin_err (fun i => ?_) ⟨j, by rw [List.getElem?_eq_none hj]⟩
  cases hi : ((Sc.C i).toList (x.data i))[k]? with
  | none => exact Or.inl rfl
  | some e => exact Or.inr ⟨e, rfl⟩

omit LS LV in
theorem remapped_unique {t : T} {fl : T → FlushLock} {own : List (Own S t)} {r a b : Row (S t)} (ha : Remapped fl own r a)
    (hb : Remapped fl own r b) : a = b := by
  funext j
  by_cases h : ∃ o ∈ own, o.col = j
  · obtain ⟨o, ho, rfl⟩ := h
    have := (ha.1 o ho).symm.trans (hb.1 o ho)
    injection this with this
    exact o.key.injective this
  · push Not at h
    rw [ha.2 j h, hb.2 j h]

/-- What the loop reads of a good entry. -/
theorem good_entry {t : T} {fl : T → FlushLock} {own : List (Own S t)} (hnd : (own.map (·.col)).Nodup) {x : Extraction (S t)}
    {rows : List (Row (S t))} (hg : x.BeginsWith fl own rows) (k : Nat) (hk : k < rows.length) :
    ∃ r, x.rowNo k = .ok r ∧ updateRow fl own r = .ok rows[k] := by
  obtain ⟨r, h1, h2⟩ := hg k hk
  obtain ⟨r', h3, h4⟩ := updateRow_ok (fl := fl) own hnd r (fun o ho => by rw [h2.1 o ho]; rfl)
  refine ⟨r, rowNo_some h1, ?_⟩
  rw [h3, remapped_unique h4 h2]

omit LS in
theorem wout_fillPush {t : T} (fl : T → FlushLock) (own : List (Own S t)) (x : Extraction (S t)) (nt : Bool) (pairs rm : List (Nat × Nat))
    (w : W (S t)) : (fillPush fl own x nt pairs rm).out w = restorePush fl own x nt pairs w rm := by
  induction pairs generalizing w rm with
  | nil => rfl
  | cons p pairs ih =>
    obtain ⟨old, k⟩ := p
    unfold fillPush restorePush
    rw [wout_bind, wout_onTbl, out_lift, bindAssoc, bindAssoc]
    refine bindCongr (fun r _ => ?_)
    rw [okBind, okBind, wout_bind, wout_onTbl, out_lift, bindAssoc, bindAssoc]
    refine bindCongr (fun r' _ => ?_)
    rw [okBind, okBind, wout_bind, wout_push]
    refine bindCongr (fun x _ => ?_)
    exact ih _ _

omit LS LV in
theorem wout_fillMerge {Sc : Schema} [LeavesSchema Sc] (key : Row Sc → K) (rows : List (Row Sc)) (w : W Sc) :
    (fillMerge key rows).out w = w.tbl.mergeLogged key rows >>= fun p => .ok ({ w with tbl := p.1 }, p.2) := by
  unfold fillMerge
  rw [wout_onTbl]
  have := out_mergeLogged key rows w.tbl
  rw [← this]
  rfl

omit LS in
theorem wout_fillMergeEach {t : T} (key : Row (S t) → K) (fl : T → FlushLock) (own : List (Own S t)) (x : Extraction (S t))
    (pairs rm : List (Nat × Nat)) (w : W (S t)) :
    (fillMergeEach key fl own x pairs rm).out w = restoreMergeEach key fl own x pairs w rm := by
  induction pairs generalizing w rm with
  | nil => rfl
  | cons p pairs ih =>
    obtain ⟨old, k⟩ := p
    unfold fillMergeEach restoreMergeEach
    rw [wout_bind, wout_onTbl, out_lift, bindAssoc, bindAssoc]
    refine bindCongr (fun r _ => ?_)
    rw [okBind, okBind, wout_bind, wout_onTbl, out_lift, bindAssoc, bindAssoc]
    refine bindCongr (fun r' _ => ?_)
    rw [okBind, okBind, wout_bind, wout_fillMerge, bindAssoc]
    unfold Tbl.mergeSingle
    rw [bindAssoc]
    refine bindCongr (fun y _ => ?_)
    rw [okBind]
    obtain ⟨t1, log⟩ := y
    cases log with
    | nil => rfl
    | cons a log =>
      cases log with
      | nil => exact ih _ _
      | cons b log => rfl

omit LS in
theorem wout_fillExtract {t : T} (key : Row (S t) → K) (fl : T → FlushLock) (own : List (Own S t)) (x : Extraction (S t)) (nt : Bool)
    (w : W (S t)) : (fillExtract key fl own x nt).out w = mergeExtract key fl own x nt w := by
  unfold fillExtract mergeExtract
  by_cases hk : (S t).kind = .sorted
  · rw [if_pos hk, if_pos hk]
    cases nt with
    | true =>
      simp only [if_true]
      rw [wout_bind, wout_onTbl, out_lift, bindAssoc, bindAssoc]
      refine bindCongr (fun rows _ => ?_)
      rw [okBind, okBind, wout_bind, wout_fillMerge, bindAssoc]
      unfold Tbl.mergeVec
      rw [bindAssoc]
      refine bindCongr (fun y _ => ?_)
      rfl
    | false =>
      simp only [Bool.false_eq_true, if_false]
      exact wout_fillMergeEach key fl own x _ _ w
  · rw [if_neg hk, if_neg hk]
    exact wout_fillPush fl own x nt _ _ w

/-- The loop of an unsorted table up to the first bad entry. -/
theorem fillPush_bad {t : T} {fl : T → FlushLock} {own : List (Own S t)} {x : Extraction (S t)} {nt : Bool}
    (hk : (S t).kind ≠ .sorted) (pairs : List (Nat × Nat)) (rows : List (Row (S t)))
    (hrows : List.Forall₂ (fun (p : Nat × Nat) r => ∃ r0, x.rowNo p.2 = .ok r0 ∧ updateRow fl own r0 = .ok r) pairs rows)
    (bad : Nat × Nat) (rest : List (Nat × Nat)) (p : Panic)
    (hbad : x.rowNo bad.2 = .error p ∨ ∃ r, x.rowNo bad.2 = .ok r ∧ updateRow fl own r = .error p)
    {w : W (S t)} (hw : Reach (key t) true w.tbl) (hl : w.tbl.len + rows.length ≤ (S t).max + 1) (rm : List (Nat × Nat)) :
    ∃ w' ids, fillPush fl own x nt (pairs ++ bad :: rest) rm w = (w', .error p) ∧
      Reach (key t) true w'.tbl ∧ Added w.tbl w'.tbl ids rows ∧ Pushed w w' ids := by
  induction hrows generalizing w rm with
  | nil =>
    refine ⟨w, [], ?_, hw, Added.nil _, ⟨fun _ => rfl, fun _ => rfl, fun _ => by simp, rfl⟩⟩
    obtain ⟨old, k⟩ := bad
    show fillPush fl own x nt ((old, k) :: rest) rm w = _
    unfold fillPush
    rcases hbad with h | ⟨r, h1, h2⟩
    · rw [wr_err (x := Wr.onTbl (Cr.lift (x.rowNo k))) (w1 := w) (p := p) (by unfold Wr.onTbl Cr.lift; rw [h])]
    · rw [wr_ok (x := Wr.onTbl (Cr.lift (x.rowNo k))) (w1 := w) (a := r) (by unfold Wr.onTbl Cr.lift; rw [h1]),
        wr_err (x := Wr.onTbl (Cr.lift (updateRow fl own r))) (w1 := w) (p := p) (by unfold Wr.onTbl Cr.lift; rw [h2])]
  | cons hp hrest ih =>
    rename_i q r pairs rows
    obtain ⟨old, k⟩ := q
    obtain ⟨r0, h1, h2⟩ := hp
    simp only [List.length_cons] at hl
    obtain ⟨w1, i, a1, a2, a3, a4, a5⟩ := push_one hk hw r (by omega)
    obtain ⟨w2, ids, b1, b2, b4, b5⟩ := ih a2 (by omega) (if nt then rm else rm ++ [(old, i)])
    obtain ⟨L, hL⟩ := hw.wf
    obtain ⟨L1, hL1⟩ := a2.wf
    refine ⟨w2, i :: ids, ?_, b2, Added.cons hL hL1 a4 b4, a5.cons b5⟩
    show fillPush fl own x nt ((old, k) :: (pairs ++ bad :: rest)) rm w = _
    unfold fillPush
    simp only [] at h1
    rw [wr_ok (x := Wr.onTbl (Cr.lift (x.rowNo k))) (w1 := w) (a := r0) (by unfold Wr.onTbl Cr.lift; rw [h1]),
      wr_ok (x := Wr.onTbl (Cr.lift (updateRow fl own r0))) (w1 := w) (a := r) (by unfold Wr.onTbl Cr.lift; rw [h2]),
      wr_ok (wout_ok.1 ((wout_push r w).trans a1))]
    exact b1

/-- The good entries, as the loop sees them. -/
theorem good_pairs {t : T} {fl : T → FlushLock} {own : List (Own S t)} (hnd : (own.map (·.col)).Nodup) {x : Extraction (S t)}
    {rows : List (Row (S t))} (hg : x.BeginsWith fl own rows) (hl : rows.length < x.selection.length) :
    ∃ pairs bad rest, x.selection.zipIdx = pairs ++ bad :: rest ∧ bad.2 = rows.length ∧
      List.Forall₂ (fun (p : Nat × Nat) r => ∃ r0, x.rowNo p.2 = .ok r0 ∧ updateRow fl own r0 = .ok r) pairs rows := by
  have hz : rows.length < x.selection.zipIdx.length := by simpa using hl
  refine ⟨x.selection.zipIdx.take rows.length, x.selection.zipIdx[rows.length], x.selection.zipIdx.drop (rows.length + 1), ?_, ?_, ?_⟩
  · conv_lhs => rw [← List.take_append_drop rows.length x.selection.zipIdx, List.drop_eq_getElem_cons hz]
  · simp
  · rw [List.forall₂_iff_get]
    refine ⟨by rw [List.length_take]; omega, fun i h1 h2 => ?_⟩
    simp only [List.get_eq_getElem, List.getElem_take, List.getElem_zipIdx, Nat.zero_add]
    exact good_entry hnd hg i h2

omit [DecidableEq T] LV in
/-- What a push that returned did. -/
theorem push_added {t : T} {w w' : W (S t)} {i : Nat} (hk : (S t).kind ≠ .sorted) (hw : Reach (key t) true w.tbl) (row : Row (S t))
    (e1 : w.push row = .ok (w', i)) : Reach (key t) true w'.tbl ∧ Added w.tbl w'.tbl [i] [row] := by
  have hr : Reach (key t) true w'.tbl := by
    obtain ⟨v', f1, f2⟩ := push_lock w w' row i e1
    refine hw.step (op := .push row) hk (by simp [TOp.clears]) ?_
    simp only [TOp.run]
    rw [f1, okBind]
    simp only []
    rw [f2]
  obtain ⟨L, h⟩ := hw.wf
  obtain ⟨L', h'⟩ := hr.wf
  obtain ⟨c1, c2, c3, c4⟩ := C01_push_fresh w w' hw row i e1
  have hlow := (C02_push_takes_lowest w w' hw row i e1).2
  refine ⟨hr, ⟨rfl, by simp, by simpa using c1, ?_, ?_, ?_⟩⟩
  · intro x hx k hk'
    simp only [List.mem_singleton] at hx
    subst hx
    exact Or.inl (hlow k hk')
  · intro p hp
    simp only [List.zip_cons_cons, List.zip_nil_right, List.mem_singleton] at hp
    subst hp
    simp only []
    have hi := (h'.contains_iff i).1 c2
    rw [h'.view, if_neg hi.2]
    rw [h'.getRow hi.1 hi.2] at c3
    injection c3 with c3
    rw [List.getElem?_eq_getElem hi.1, c3]
  · intro k hk'
    exact (c4 k (by simpa using hk')).2

omit LV in
/-- What the loop of an unsorted table did if it returned. -/
theorem restorePush_added {t : T} {fl : T → FlushLock} {own : List (Own S t)} {x : Extraction (S t)} {nt : Bool}
    (hk : (S t).kind ≠ .sorted) (pairs : List (Nat × Nat)) {w w' : W (S t)} (hw : Reach (key t) true w.tbl) (rm rm' : List (Nat × Nat))
    (e : restorePush fl own x nt pairs w rm = .ok (w', rm')) :
    ∃ ids rows, Reach (key t) true w'.tbl ∧ Added w.tbl w'.tbl ids rows ∧ ids.length = pairs.length := by
  induction pairs generalizing w rm with
  | nil => injection e with e; injection e with e _; subst e; exact ⟨[], [], hw, Added.nil _, rfl⟩
  | cons q pairs ih =>
    obtain ⟨old, k⟩ := q
    unfold restorePush at e
    cases h1 : x.rowNo k with
    | error p => rw [h1, errBind] at e; cases e
    | ok r0 =>
      rw [h1, okBind] at e
      cases h2 : updateRow fl own r0 with
      | error p => rw [h2, errBind] at e; cases e
      | ok r =>
        rw [h2, okBind] at e
        cases h3 : w.push r with
        | error p => rw [h3, errBind] at e; cases e
        | ok y =>
          obtain ⟨w1, i⟩ := y
          rw [h3, okBind] at e
          obtain ⟨a2, a4⟩ := push_added hk hw r h3
          obtain ⟨ids, rows, b2, b4, b5⟩ := ih a2 _ e
          obtain ⟨L, hL⟩ := hw.wf
          obtain ⟨L1, hL1⟩ := a2.wf
          exact ⟨i :: ids, r :: rows, b2, Added.cons hL hL1 a4 b4, by simp [b5]⟩

omit LS in
theorem Wr.Keeps.fillPush {t : T} (fl : T → FlushLock) (own : List (Own S t)) (x : Extraction (S t)) (nt : Bool)
    (pairs rm : List (Nat × Nat)) : (fillPush fl own x nt pairs rm).Keeps := by
  induction pairs generalizing rm with
  | nil => exact Wr.Keeps.ret _
  | cons q pairs ih =>
    obtain ⟨old, k⟩ := q
    exact (Wr.Keeps.onTbl _).bind fun _ => (Wr.Keeps.onTbl _).bind fun _ => (Wr.Keeps.push _).bind fun _ => ih _

/-- The loop on a consistent table that panics. -/
theorem fillPush_fell {t : T} {fl : T → FlushLock} {own : List (Own S t)} {x : Extraction (S t)} {nt : Bool}
    (hk : (S t).kind = .consistent) (old k : Nat) (rest rm : List (Nat × Nat)) {w w' : W (S t)} {p : Panic}
    (hw : Reach (key t) true w.tbl) (hc : w.changes.isEmpty = true)
    (e : fillPush fl own x nt ((old, k) :: rest) rm w = (w', .error p)) :
    (w'.changes.isEmpty = false ↔ (∃ r r', x.rowNo k = .ok r ∧ updateRow fl own r = .ok r') ∧ (HasGap w.tbl ∨ w.tbl.len ≤ (S t).max)) ∧
    (w'.changes.isEmpty = true → p ≠ .idxOverflow → w'.tbl = w.tbl) := by
  obtain ⟨L, hL⟩ := hw.wf
  have hc' : w.changes.isEmpty ≠ false := by rw [hc]; simp
  unfold fillPush at e
  cases h1 : x.rowNo k with
  | error q =>
    rw [wr_err (x := Wr.onTbl (Cr.lift (x.rowNo k))) (w1 := w) (p := q) (by unfold Wr.onTbl Cr.lift; rw [h1])] at e
    injection e with e _; subst e
    exact ⟨⟨fun h => absurd h hc', fun ⟨⟨r, r', h, _⟩, _⟩ => by cases h⟩, fun _ _ => rfl⟩
  | ok r =>
    rw [wr_ok (x := Wr.onTbl (Cr.lift (x.rowNo k))) (w1 := w) (a := r) (by unfold Wr.onTbl Cr.lift; rw [h1])] at e
    cases h2 : updateRow fl own r with
    | error q =>
      rw [wr_err (x := Wr.onTbl (Cr.lift (updateRow fl own r))) (w1 := w) (p := q) (by unfold Wr.onTbl Cr.lift; rw [h2])] at e
      injection e with e _; subst e
      refine ⟨⟨fun h => absurd h hc', fun ⟨⟨r1, r', h, h'⟩, _⟩ => ?_⟩, fun _ _ => rfl⟩
      injection h with h; subst h
      rw [h2] at h'; cases h'
    | ok r' =>
      rw [wr_ok (x := Wr.onTbl (Cr.lift (updateRow fl own r))) (w1 := w) (a := r') (by unfold Wr.onTbl Cr.lift; rw [h2])] at e
      rcases wr_push hk hL r' with ⟨w1, i, L1, e1, e2, hL1⟩ | ⟨hf, hl, e2, e3⟩
      · rw [wr_ok e1] at e
        have := Wr.Keeps.fillPush fl own x nt rest (if nt then rm else rm ++ [(old, i)]) w1 e2
        rw [e] at this
        have hroom : HasGap w.tbl ∨ w.tbl.len ≤ (S t).max := by
          by_contra hcon
          push Not at hcon
          have hf : w.tbl.free = [] := by by_contra hx; exact hcon.1 (hL.gap.2 hx)
          have hlen : L.length = (S t).max + 1 := by have := hL.rep.le; have := hL.len; omega
          rcases hL.push r' with ⟨old, rest, t', hf', _⟩ | ⟨t', _, hle, _⟩ | ⟨_, _, e5⟩
          · rw [hf] at hf'; cases hf'
          · omega
          · have := wout_err.1 ((wout_push r' w).trans e5)
            rw [e1] at this; cases this
        exact ⟨⟨fun _ => ⟨⟨r, r', rfl, h2⟩, hroom⟩, fun _ => this⟩, fun h => by rw [this] at h; cases h⟩
      · rcases hx : Wr.push r' w with ⟨w1, q⟩
        rw [hx] at e2 e3
        simp only [] at e2 e3; subst e2
        rw [wr_err hx] at e; injection e with e e'
        injection e' with e'; subst e e'
        have hroom : ¬ (HasGap w.tbl ∨ w.tbl.len ≤ (S t).max) := by
          rintro (hg | hg)
          · exact hL.gap.1 hg hf
          · rw [hL.len] at hg; omega
        rw [e3]
        exact ⟨⟨fun h => absurd h hc', fun h => absurd h.2 hroom⟩, fun _ hn => absurd rfl hn⟩

end V11
