import Verif.Lemmas.Rug
import Verif.Lemmas.Iter
import Verif.Spec.Merge

/-!
# `merge_logged` refines `mergeSpec`
-/

set_option linter.unusedSimpArgs false
set_option linter.unusedSectionVars false

namespace V11
variable {S : Schema} [LS : LawfulSchema S] {K : Type} [LinearOrder K]

/-- Stage 1 finds the end of the prefix of rows below `first`. -/
theorem findCursor_ok (key : Row S → K) {t : Tbl S} {L : List (Row S)} (h : WF t L) (hf : t.free = [])
    (hm : L.length ≤ S.max) (first : Row S) (k c : Nat) (hc : c + k = L.length) :
    findCursor key t first c k = .ok (c + ((L.drop c).takeWhile (fun r => key r < key first)).length) := by
  induction k generalizing c with
  | zero =>
    have : L.drop c = [] := List.drop_eq_nil_of_le (by omega)
    simp [findCursor, this]
  | succ k ih =>
    unfold findCursor
    rw [h.getRow (i := c) (by omega) (by simp [hf]), okBind]
    rw [List.drop_eq_getElem_cons (by omega), List.takeWhile_cons]
    by_cases hlt : key L[c] < key first
    · simp only [hlt, if_true, decide_true]
      rw [nextId_ok (by omega), okBind, ih (c + 1) (by omega)]
      simp; omega
    · simp [hlt]

/-- Merge of old rows (tagged `false`) and new rows (tagged `true`), old first on ties. -/
def tagMerge (key : Row S → K) (old new : List (Row S)) : List (Bool × Row S) :=
  List.merge (old.map (Prod.mk false)) (new.map (Prod.mk true)) (fun a b => key a.2 ≤ key b.2)

/-- Positions of the new rows. -/
def trueIdx {A : Type} (off : Nat) : List (Bool × A) → List Nat
  | [] => []
  | (true, _) :: xs => off :: trueIdx (off + 1) xs
  | (false, _) :: xs => trueIdx (off + 1) xs

theorem trueIdx_append {A : Type} (off : Nat) (a b : List (Bool × A)) :
    trueIdx off (a ++ b) = trueIdx off a ++ trueIdx (off + a.length) b := by
  induction a generalizing off with
  | nil => simp [trueIdx]
  | cons x xs ih =>
    rcases x with ⟨⟨⟩, r⟩ <;> simp [trueIdx, ih] <;> congr 1 <;> omega

theorem tagMerge_length (key : Row S → K) (old new : List (Row S)) :
    (tagMerge key old new).length = old.length + new.length := by
  unfold tagMerge; rw [List.length_merge]; simp

theorem tagMerge_nil_left (key : Row S → K) (new : List (Row S)) : tagMerge key [] new = new.map (Prod.mk true) := by
  simp [tagMerge]

theorem tagMerge_nil_right (key : Row S → K) (old : List (Row S)) : tagMerge key old [] = old.map (Prod.mk false) := by
  simp [tagMerge]

theorem tagMerge_cons (key : Row S → K) (r i : Row S) (rs is : List (Row S)) :
    tagMerge key (r :: rs) (i :: is) =
      if key r ≤ key i then (false, r) :: tagMerge key rs (i :: is) else (true, i) :: tagMerge key (r :: rs) is := by
  simp [tagMerge, List.cons_merge_cons]

/-- Stage 2 from a non-empty rug. -/
theorem mergeBump_loop (key : Row S → K) (q : List (Row S)) {st : MergeSt S} {done : List (Row S)}
    (h : WF st.tbl (done ++ q)) (hf : st.tbl.free = []) (hr : st.rug ≠ []) :
    ∃ st', (List.range' done.length q.length).foldlM (mergeBump key) st = .ok st' ∧
      st'.tbl.free = [] ∧
      WF st'.tbl (done ++ ((tagMerge key (st.rug ++ q) st.iter).take q.length).map Prod.snd) ∧
      tagMerge key st'.rug st'.iter = (tagMerge key (st.rug ++ q) st.iter).drop q.length ∧
      st'.log = st.log ++ trueIdx done.length ((tagMerge key (st.rug ++ q) st.iter).take q.length) := by
  induction q generalizing st done with
  | nil => exact ⟨st, rfl, hf, by simpa using h, by simp, by simp [trueIdx]⟩
  | cons x q ih =>
    obtain ⟨v, rug, hv⟩ : ∃ v rug, st.rug = v :: rug := by
      cases hs : st.rug with
      | nil => exact absurd hs hr
      | cons v rug => exact ⟨v, rug, rfl⟩
    have hx : (done ++ x :: q)[done.length]'(by simp) = x := by simp
    -- one step placing `w` and leaving rug `rug'`, iterator `iter'`
    have step : ∀ (b : Bool) (w : Row S) (rug' iter' : List (Row S)) (log' : List Nat),
        rug' ≠ [] →
        (∀ t' : Tbl S, st.tbl.swapOutRow done.length w = .ok (t', x) →
          mergeBump key st done.length = .ok { tbl := t', rug := rug', iter := iter', log := log' }) →
        tagMerge key (st.rug ++ x :: q) st.iter = (b, w) :: tagMerge key (rug' ++ q) iter' →
        log' = st.log ++ trueIdx done.length [(b, w)] →
        ∃ st', (List.range' done.length (x :: q).length).foldlM (mergeBump key) st = .ok st' ∧
          st'.tbl.free = [] ∧
          WF st'.tbl (done ++ ((tagMerge key (st.rug ++ x :: q) st.iter).take (x :: q).length).map Prod.snd) ∧
          tagMerge key st'.rug st'.iter = (tagMerge key (st.rug ++ x :: q) st.iter).drop (x :: q).length ∧
          st'.log = st.log ++ trueIdx done.length ((tagMerge key (st.rug ++ x :: q) st.iter).take (x :: q).length) := by
      intro b w rug' iter' log' hne hstep hmerge hlog
      obtain ⟨t', e1, e2, e3⟩ := h.swapOutRow w (i := done.length) (by simp) hf
      rw [hx] at e1
      have e3' : WF t' ((done ++ [w]) ++ q) := by
        have : (done ++ x :: q).set done.length w = (done ++ [w]) ++ q := by
          rw [List.set_append_right _ _ (le_refl _)]; simp
        rwa [this] at e3
      obtain ⟨st', g1, g2, g3, g4, g5⟩ := ih (st := { tbl := t', rug := rug', iter := iter', log := log' })
        (done := done ++ [w]) e3' e2 hne
      refine ⟨st', ?_, g2, ?_, ?_, ?_⟩
      · rw [List.length_cons, List.range'_succ, List.foldlM_cons, hstep t' e1, okBind]
        rw [← g1]; simp
      · rw [hmerge]; simpa using g3
      · rw [hmerge]; simpa using g4
      · rw [hmerge, g5, hlog]
        simp only [List.length_cons, List.take_succ_cons]
        rw [show (b, w) :: List.take q.length (tagMerge key (rug' ++ q) iter')
            = [(b, w)] ++ List.take q.length (tagMerge key (rug' ++ q) iter') from rfl, trueIdx_append]
        simp
    cases hi : st.iter with
    | nil =>
      rw [← hi]
      refine step false v (rug ++ [x]) [] st.log (by simp) ?_ ?_ (by simp [trueIdx])
      · intro t' ht
        unfold mergeBump
        rw [hv, hi]
        simp only [chooseSide]
        rw [ht, okBind]
      · rw [hv, hi, tagMerge_nil_right, tagMerge_nil_right]; simp
    | cons i is =>
      by_cases hle : key v ≤ key i
      · rw [← hi]
        refine step false v (rug ++ [x]) st.iter st.log (by simp) ?_ ?_ (by simp [trueIdx])
        · intro t' ht
          unfold mergeBump
          rw [hv, hi]
          simp only [chooseSide, hle, if_true]
          rw [ht, okBind]
        · rw [hv, hi, List.cons_append, tagMerge_cons, if_pos hle]; simp
      · rw [← hi]
        refine step true i (v :: rug ++ [x]) is (st.log ++ [done.length]) (by simp) ?_ ?_ (by simp [trueIdx])
        · intro t' ht
          unfold mergeBump
          rw [hv, hi]
          simp only [chooseSide, hle, if_false]
          rw [ht, okBind]
        · rw [hv, hi, List.cons_append, tagMerge_cons, if_neg hle]; simp

/-- Stage 3. -/
theorem mergeFlush_ok (key : Row S → K) (k : Nat) {st : MergeSt S} {done : List (Row S)}
    (h : WF st.tbl done) (hf : st.tbl.free = []) (hk : st.rug.length + st.iter.length < k) :
    (done.length + (st.rug.length + st.iter.length) ≤ S.max + 1 →
      ∃ st', mergeFlush key k st = .ok st' ∧ st'.tbl.free = [] ∧
        WF st'.tbl (done ++ (tagMerge key st.rug st.iter).map Prod.snd) ∧
        st'.log = st.log ++ trueIdx done.length (tagMerge key st.rug st.iter)) ∧
    (S.max + 1 < done.length + (st.rug.length + st.iter.length) → mergeFlush key k st = .error .idxOverflow) := by
  induction k generalizing st done with
  | zero => omega
  | succ k ih =>
    have step : ∀ (b : Bool) (w : Row S) (rug' iter' : List (Row S)) (lg : Nat → List Nat),
        (mergeFlush key (k + 1) st = do
          let (t, cursor) ← st.tbl.pushOnly w
          mergeFlush key k { tbl := t, rug := rug', iter := iter', log := lg cursor }) →
        tagMerge key st.rug st.iter = (b, w) :: tagMerge key rug' iter' →
        rug'.length + iter'.length + 1 = st.rug.length + st.iter.length →
        (∀ c, lg c = st.log ++ trueIdx c [(b, w)]) →
        (done.length + (st.rug.length + st.iter.length) ≤ S.max + 1 →
          ∃ st', mergeFlush key (k + 1) st = .ok st' ∧ st'.tbl.free = [] ∧
            WF st'.tbl (done ++ (tagMerge key st.rug st.iter).map Prod.snd) ∧
            st'.log = st.log ++ trueIdx done.length (tagMerge key st.rug st.iter)) ∧
        (S.max + 1 < done.length + (st.rug.length + st.iter.length) →
          mergeFlush key (k + 1) st = .error .idxOverflow) := by
      intro b w rug' iter' lg heq hmerge hlen hlog
      rw [heq]
      by_cases hl : done.length ≤ S.max
      · obtain ⟨t1, h1, h2, h3⟩ := h.pushOnly w hl
        rw [h1, okBind]
        have := ih (st := { tbl := t1, rug := rug', iter := iter', log := lg done.length }) (done := done ++ [w])
          h3 (by rw [h2, hf]) (by simp only []; omega)
        simp only [List.length_append, List.length_cons, List.length_nil] at this ⊢
        constructor
        · intro hc
          obtain ⟨st', e1, e2, e3, e4⟩ := this.1 (by omega)
          refine ⟨st', e1, e2, ?_, ?_⟩
          · rw [hmerge]; simpa using e3
          · rw [e4, hlog, hmerge]
            rw [show (b, w) :: tagMerge key rug' iter' = [(b, w)] ++ tagMerge key rug' iter' from rfl, trueIdx_append]
            simp
        · intro hc; exact this.2 (by omega)
      · have := h.rep.pushOnly_full w (by have := h.rep.le; omega)
        rw [this, errBind]
        exact ⟨fun hc => by omega, fun _ => rfl⟩
    cases hrug : st.rug with
    | nil =>
      cases hit : st.iter with
      | nil =>
        refine ⟨fun _ => ⟨st, ?_, hf, ?_, ?_⟩, fun hc => ?_⟩
        · unfold mergeFlush; rw [hrug, hit]; rfl
        · simpa [tagMerge] using h
        · simp [tagMerge, trueIdx]
        · have := h.rep.le; simp at hc; omega
      | cons i is =>
        rw [← hrug, ← hit]
        refine step true i [] is (fun c => st.log ++ [c]) ?_ ?_ ?_ (by simp [trueIdx])
        · rw [mergeFlush, hrug, hit]; rfl
        · rw [hrug, hit, tagMerge_nil_left, tagMerge_nil_left]; rfl
        · simp [hrug, hit]
    | cons r rs =>
      cases hit : st.iter with
      | nil =>
        rw [← hrug, ← hit]
        refine step false r rs [] (fun _ => st.log) ?_ ?_ ?_ (by simp [trueIdx])
        · rw [mergeFlush, hrug, hit]; rfl
        · rw [hrug, hit, tagMerge_nil_right, tagMerge_nil_right]; rfl
        · simp [hrug, hit]
      | cons i is =>
        by_cases hle : key r ≤ key i
        · rw [← hrug, ← hit]
          refine step false r rs st.iter (fun _ => st.log) ?_ ?_ ?_ (by simp [trueIdx])
          · rw [mergeFlush, hrug, hit]; simp only [chooseSide, hle, if_true]
          · rw [hrug, hit, tagMerge_cons, if_pos hle]
          · simp [hrug, hit]; omega
        · rw [← hrug, ← hit]
          refine step true i st.rug is (fun c => st.log ++ [c]) ?_ ?_ ?_ (by simp [trueIdx])
          · rw [mergeFlush, hrug, hit]; simp only [chooseSide, hle, if_false]
          · rw [hrug, hit, tagMerge_cons, if_neg hle]
          · simp [hrug, hit]; omega

end V11
