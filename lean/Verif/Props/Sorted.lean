import Verif.Props.Demo
import Verif.Lemmas.Stable

/-!
# Sorted tables and in-place rewriting: C15–C19, C21, C56

`Holds t L` (`Spec/Holds.lean`): `len()` and `get_row` show exactly the rows `L`, in id order.
`Reach key c t`: some history of public operations leads to `t`.
-/

set_option linter.unusedSimpArgs false
set_option linter.unusedSectionVars false
set_option linter.unusedVariables false

namespace V11
variable {S : Schema} [LS : LawfulSchema S] {K : Type} [LinearOrder K] {key : Row S → K} {c : Bool}

theorem sorted_ne {k : Kind} (h : k = .sorted) : k ≠ .consistent := by simp [h]

/-- What `merge_logged` did, in all cases. -/
theorem merge_cases (t : Tbl S) (ht : Reach key c t) (hs : S.kind = .sorted) (L new : List (Row S)) (hL : Holds t L) :
    (∃ t' log, t.mergeLogged key new = .ok (t', log) ∧ Holds t' (mergeSpec key L new) ∧
      Placed (mergeSpec key L new) L new log ∧
      (new = [] ∨ (L.length ≤ S.max ∧ L.length + new.length ≤ S.max + 1)) ∧
      (∀ first rest, new = first :: rest → log = trueIdx 0 (mergeTags key L first rest))) ∨
    (t.mergeLogged key new = .error .idxOverflow ∧ new ≠ [] ∧
      (S.max < L.length ∨ S.max + 1 < L.length + new.length)) := by
  obtain ⟨hw, hf⟩ := ht.wf_of_holds (sorted_ne hs) hL
  cases new with
  | nil =>
    left
    refine ⟨t, [], rfl, hL, ⟨by simp, by simp, ?_⟩, Or.inl rfl, by simp⟩
    simp only [mergeSpec, List.not_mem_nil, not_false_eq_true, decide_true, List.filter_true]
    simp
  | cons first rest =>
    obtain ⟨h1, h2⟩ := mergeLogged_cons key hw hf first rest
    by_cases hc : L.length ≤ S.max ∧ L.length + (rest.length + 1) ≤ S.max + 1
    · left
      obtain ⟨t', e1, e2, e3⟩ := h1 hc.1 hc.2
      refine ⟨t', _, e1, e3.holds e2, placed_mergeTags key L first rest, Or.inr ⟨hc.1, by simpa using hc.2⟩, ?_⟩
      intro f r e; injection e with e1 e2; subst e1 e2; rfl
    · right
      refine ⟨h2 (by omega), by simp, ?_⟩
      simp only [List.length_cons]
      omega

/-! ## C15 -/

/-- C15: merging sorted rows into a sorted table leaves it sorted, and its rows are the old ones and the
new ones, with multiplicity. -/
theorem C15_merge_sorted_and_complete (t t' : Tbl S) (ht : Reach key c t) (hs : S.kind = .sorted)
    (L new : List (Row S)) (hL : Holds t L) (log : List Nat)
    (hsorted : SortedBy key L) (hnew : SortedBy key new) (hm : t.mergeLogged key new = .ok (t', log)) :
    ∃ L', Holds t' L' ∧ SortedBy key L' ∧ L'.Perm (L ++ new) := by
  rcases merge_cases t ht hs L new hL with ⟨t1, log1, e1, e2, -⟩ | ⟨e1, -⟩
  · rw [hm] at e1
    injection e1 with e1; injection e1 with e1 e1'
    subst e1
    exact ⟨_, e2, mergeSpec_sorted key L new hsorted hnew, mergeSpec_perm key L new⟩
  · rw [hm] at e1; cases e1

/-- C15: no row is lost or duplicated even if the rows handed over are not sorted. -/
theorem C15_merge_complete_unsorted (t t' : Tbl S) (ht : Reach key c t) (hs : S.kind = .sorted)
    (L new : List (Row S)) (hL : Holds t L) (log : List Nat) (hm : t.mergeLogged key new = .ok (t', log)) :
    ∃ L', Holds t' L' ∧ L'.Perm (L ++ new) := by
  rcases merge_cases t ht hs L new hL with ⟨t1, log1, e1, e2, -⟩ | ⟨e1, -⟩
  · rw [hm] at e1
    injection e1 with e1; injection e1 with e1 e1'
    subst e1
    exact ⟨_, e2, mergeSpec_perm key L new⟩
  · rw [hm] at e1; cases e1

theorem sortRows_sorted (rows : List (Row S)) : SortedBy key (sortRows key rows) := by
  have := List.pairwise_mergeSort (le := fun a b => decide (key a ≤ key b)) (by
    intro a b d h1 h2
    simp only [decide_eq_true_eq] at *
    exact le_trans h1 h2) (by
    intro a b
    simp only [Bool.or_eq_true, decide_eq_true_eq]
    exact le_total _ _) rows
  exact this.imp (by simp)

/-- C15: `merge` of an unsorted `Vec` sorts it first; the result is sorted and complete. -/
theorem C15_merge_vec (t t' : Tbl S) (ht : Reach key c t) (hs : S.kind = .sorted) (L rows : List (Row S))
    (hL : Holds t L) (hsorted : SortedBy key L) (hm : t.mergeVec key rows = .ok t') :
    ∃ L', Holds t' L' ∧ SortedBy key L' ∧ L'.Perm (L ++ rows) := by
  unfold Tbl.mergeVec at hm
  cases h : t.mergeLogged key (sortRows key rows) with
  | error p => rw [h] at hm; cases hm
  | ok p =>
    obtain ⟨t1, log⟩ := p
    rw [h] at hm
    injection hm with hm
    subst hm
    obtain ⟨L', h1, h2, h3⟩ := C15_merge_sorted_and_complete t t1 ht hs L _ hL log hsorted (sortRows_sorted rows) h
    exact ⟨L', h1, h2, h3.trans (List.Perm.append_left L (List.mergeSort_perm _ _))⟩

/-- C15: merge panics exactly when the rows do not fit the row-id type (or a non-empty merge meets a
table that already uses every id, even before looking at the rows). -/
theorem C15_merge_panics_iff (t : Tbl S) (ht : Reach key c t) (hs : S.kind = .sorted) (new : List (Row S)) :
    (∃ p, t.mergeLogged key new = .error p) ↔ new ≠ [] ∧ (S.max < t.len ∨ S.max + 1 < t.len + new.length) := by
  obtain ⟨L, hL, -⟩ := ht.holds (sorted_ne hs)
  rw [hL.1]
  rcases merge_cases t ht hs L new hL with ⟨t1, log1, e1, -, -, e3, -⟩ | ⟨e1, e2, e3⟩
  · rw [e1]
    constructor
    · rintro ⟨p, hp⟩; cases hp
    · rintro ⟨h1, h2⟩
      rcases e3 with e3 | e3
      · exact absurd e3 h1
      · omega
  · rw [e1]
    exact ⟨fun _ => ⟨e2, e3⟩, fun _ => ⟨_, rfl⟩⟩

/-- Non-vacuity: a table with keys 3, 5, 5, 9 takes rows with keys 1, 5, 9. -/
example : (do let (t, log) ← sortedTbl.mergeLogged demoKey [demoRow 1 true 7, demoRow 5 true 8, demoRow 9 true 9]
              let d ← demoDump t
              .ok (d.map (fun x : Nat × Bool × Nat => (x.1, x.2.2)), log)) =
    .ok ([(1, 7), (3, 0), (5, 1), (5, 2), (5, 8), (9, 3), (9, 9)], [0, 4, 6]) := by decide
example : Reach demoKey c sortedTbl ∧ Holds sortedTbl sortedRows ∧ SortedBy demoKey sortedRows :=
  ⟨sortedTbl_reach, sortedTbl_holds, sortedRows_sorted⟩

/-! ## C16 -/

/-- C16: the logged ids are strictly ascending, one per new row, and are where the new rows end up; the
other ids hold the old rows in their old order. -/
theorem C16_log_final_ids (t t' : Tbl S) (ht : Reach key c t) (hs : S.kind = .sorted) (L new : List (Row S))
    (hL : Holds t L) (log : List Nat) (hm : t.mergeLogged key new = .ok (t', log)) :
    log.length = new.length ∧ log.Pairwise (· < ·) ∧
    (∀ k (h1 : k < log.length) (h2 : k < new.length), t'.getRow log[k] = .ok new[k]) ∧
    ∃ L', Holds t' L' ∧ removeAt L' log = L := by
  rcases merge_cases t ht hs L new hL with ⟨t1, log1, e1, e2, e3, -⟩ | ⟨e1, -⟩
  · rw [hm] at e1
    injection e1 with e1; injection e1 with e1 e1'
    subst e1 e1'
    obtain ⟨p1, p2, p3⟩ := e3
    have hlen : log.length = new.length := by simpa using congrArg List.length p2
    refine ⟨hlen, p1, ?_, _, e2, p3⟩
    intro k h1 h2
    have : (log.map (fun i => (mergeSpec key L new)[i]?))[k]? = (new.map some)[k]? := by rw [p2]
    rw [List.getElem?_map, List.getElem?_map, List.getElem?_eq_getElem h1, List.getElem?_eq_getElem h2] at this
    simp only [Option.map_some, Option.some.injEq] at this
    obtain ⟨hlt, heq⟩ := List.getElem?_eq_some_iff.1 this
    rw [e2.2 _ hlt, heq]
  · rw [hm] at e1; cases e1

theorem eraseIdx_filter {A : Type} (x : Nat) (l : List A) (off : Nat) :
    l.eraseIdx x = ((l.zipIdx off).filter (fun p => decide (p.2 ∉ [off + x]))).map Prod.fst := by
  induction x generalizing l off with
  | zero =>
    cases l with
    | nil => simp
    | cons a as =>
      simp only [List.eraseIdx_zero, List.tail_cons, List.zipIdx_cons, List.filter_cons]
      simp only [Nat.add_zero, List.mem_singleton, not_true_eq_false, decide_false, Bool.false_eq_true, if_false]
      have : ((as.zipIdx (off + 1)).filter (fun p => decide (¬ p.2 = off))) = as.zipIdx (off + 1) := by
        rw [List.filter_eq_self]
        intro p hp
        have := List.mem_zipIdx hp
        simp; omega
      rw [this]; simp
  | succ x ih =>
    cases l with
    | nil => simp
    | cons a as =>
      simp only [List.eraseIdx_cons_succ, List.zipIdx_cons, List.filter_cons, List.mem_singleton]
      rw [if_pos (by simp)]
      simp only [List.map_cons]
      rw [ih as (off + 1)]
      simp only [List.mem_singleton, show off + 1 + x = off + (x + 1) by omega]

/-- C16: `merge_in_a_single_row` returns the id of its row. -/
theorem C16_single_row (t t' : Tbl S) (ht : Reach key c t) (hs : S.kind = .sorted) (L : List (Row S)) (hL : Holds t L)
    (row : Row S) (i : Nat) (hm : t.mergeSingle key row = .ok (t', i)) :
    t'.getRow i = .ok row ∧ ∃ L', Holds t' L' ∧ L'.eraseIdx i = L := by
  unfold Tbl.mergeSingle at hm
  cases h : t.mergeLogged key [row] with
  | error p => rw [h] at hm; cases hm
  | ok p =>
    obtain ⟨t1, log⟩ := p
    rw [h, okBind] at hm
    obtain ⟨h1, h2, h3, L', h4, h5⟩ := C16_log_final_ids t t1 ht hs L [row] hL log h
    match log, h1 with
    | [x], _ =>
      simp only at hm
      injection hm with hm
      injection hm with hm1 hm2
      subst hm1 hm2
      have hr := h3 0 (by simp) (by simp)
      refine ⟨by simpa using hr, L', h4, ?_⟩
      rw [← h5, removeAt]
      clear h5 hr h3 h4
      have := eraseIdx_filter x L' 0
      simpa using this

example : (do let (t, i) ← sortedTbl.mergeSingle demoKey (demoRow 5 true 7)
              let d ← demoDump t
              .ok (d.map (fun x : Nat × Bool × Nat => (x.1, x.2.2)), i)) =
    .ok ([(3, 0), (5, 7), (5, 1), (5, 2), (9, 3)], 1) := by decide

/-! ## C17 -/

/-- C17: exactly where merge puts the rows: the first new row before every existing row that is not below
it; every other new row after all existing rows with an equal key. -/
theorem C17_exact_order (t t' : Tbl S) (ht : Reach key c t) (hs : S.kind = .sorted) (L : List (Row S)) (hL : Holds t L)
    (hsorted : SortedBy key L) (first : Row S) (rest : List (Row S)) (log : List Nat)
    (hm : t.mergeLogged key (first :: rest) = .ok (t', log)) :
    ∃ tl, log = (L.filter (fun r => key r < key first)).length :: tl ∧
      ∀ p q x y, p ∉ log → q ∈ tl → t'.getRow p = .ok x → t'.getRow q = .ok y → key x = key y → p < q := by
  rcases merge_cases t ht hs L (first :: rest) hL with ⟨t1, log1, e1, e2, e3, -, e4⟩ | ⟨e1, -⟩
  · rw [hm] at e1
    injection e1 with e1; injection e1 with e1 e1'
    subst e1 e1'
    have hlog := e4 first rest rfl
    obtain ⟨tl, htl⟩ := trueIdx_head key L first rest
    have hget : ∀ i x, t'.getRow i = .ok x → (mergeSpec key L (first :: rest))[i]? = some x := by
      intro i x hx
      by_cases hi : i < (mergeSpec key L (first :: rest)).length
      · rw [e2.2 i hi] at hx
        injection hx with hx
        rw [List.getElem?_eq_getElem hi, hx]
      · unfold Tbl.getRow Tbl.check at hx
        rw [e2.1, if_pos (by omega)] at hx
        cases hx
    refine ⟨tl, by rw [hlog, htl, takeWhile_sorted key L hsorted], ?_⟩
    intro p q x y hp hq hx hy he
    refine old_before_later_new key L first rest hsorted p q x y (hget p x hx) (hget q y hy) (hlog ▸ hp)
      (by rw [htl]; simp [hq]) ?_ he
    have := e3.1
    rw [hlog, htl] at this
    have := (List.pairwise_cons.1 this).1 q hq
    omega
  · rw [hm] at e1; cases e1

/-- C17: if no existing row has the first new row's key, then after the merge every existing row precedes every new row
with an equal key. -/
theorem C17_stable (t t' : Tbl S) (ht : Reach key c t) (hs : S.kind = .sorted) (L : List (Row S)) (hL : Holds t L)
    (hsorted : SortedBy key L) (new : List (Row S)) (log : List Nat)
    (hfirst : ∀ first ∈ new.head?, ∀ r ∈ L, key r ≠ key first)
    (hm : t.mergeLogged key new = .ok (t', log)) :
    ∀ p q x y, p ∉ log → q ∈ log → t'.getRow p = .ok x → t'.getRow q = .ok y → key x = key y → p < q := by
  intro p q x y hp hq hx hy he
  cases new with
  | nil => injection hm with hm; injection hm with _ hm; subst hm; simp at hq
  | cons first rest =>
    obtain ⟨tl, h1, h2⟩ := C17_exact_order t t' ht hs L hL hsorted first rest log hm
    rw [h1] at hq
    rcases List.mem_cons.1 hq with hq0 | hq
    · -- the row at `q` is `first`, the row at `p` is an old one with the same key
      exfalso
      obtain ⟨g1, g2, g3, L', g4, g5⟩ := C16_log_final_ids t t' ht hs L _ hL log hm
      have hy' := g3 0 (by rw [h1]; simp) (by simp)
      have hl0 : log[0]'(by rw [h1]; simp) = q := by simp [h1, hq0]
      rw [hl0, hy] at hy'
      injection hy' with hy'
      have hpx : L'[p]? = some x := by
        by_cases hi : p < L'.length
        · rw [g4.2 p hi] at hx; injection hx with hx; rw [List.getElem?_eq_getElem hi, hx]
        · unfold Tbl.getRow Tbl.check at hx
          rw [g4.1, if_pos (by omega)] at hx
          cases hx
      have : x ∈ L := by
        rw [← g5, removeAt, List.mem_map]
        refine ⟨(x, p), ?_, rfl⟩
        rw [List.mem_filter]
        refine ⟨?_, by simpa using hp⟩
        rw [List.mem_zipIdx_iff_getElem?]
        exact hpx
      exact hfirst first (by simp) x this (by rw [he, hy']; rfl)
    · exact h2 p q x y hp hq hx hy he

/-- C17: existing rows with the first new row's key come after that row. -/
theorem C17_first_before_equals (t t' : Tbl S) (ht : Reach key c t) (hs : S.kind = .sorted) (L : List (Row S)) (hL : Holds t L)
    (hsorted : SortedBy key L) (first : Row S) (rest : List (Row S)) (log : List Nat)
    (hm : t.mergeLogged key (first :: rest) = .ok (t', log)) (p : Nat) (x : Row S) (hp : p ∉ log)
    (hx : t'.getRow p = .ok x) (he : key x = key first) : ∃ i, log.head? = some i ∧ t'.getRow i = .ok first ∧ i < p := by
  obtain ⟨tl, h1, -⟩ := C17_exact_order t t' ht hs L hL hsorted first rest log hm
  obtain ⟨g1, g2, g3, -⟩ := C16_log_final_ids t t' ht hs L _ hL log hm
  have hfirst := g3 0 (by rw [h1]; simp) (by simp)
  simp only [h1, List.getElem_cons_zero] at hfirst
  refine ⟨_, by rw [h1]; rfl, hfirst, ?_⟩
  rcases merge_cases t ht hs L (first :: rest) hL with ⟨t1, log1, e1, e2, -⟩ | ⟨e1, -⟩
  swap
  · rw [hm] at e1; cases e1
  rw [hm] at e1
  injection e1 with e1; injection e1 with e1 e1'
  subst e1
  by_contra hlt
  have hpk : p < (L.filter (fun r => key r < key first)).length := by
    rcases Nat.lt_or_ge p (L.filter (fun r => key r < key first)).length with h | h
    · exact h
    · exfalso
      have : p = (L.filter (fun r => key r < key first)).length := by omega
      exact hp (by rw [h1, this]; simp)
  rw [← takeWhile_sorted key L hsorted] at hpk
  have hxm : (mergeSpec key L (first :: rest))[p]? = some x := by
    by_cases hi : p < (mergeSpec key L (first :: rest)).length
    · rw [e2.2 p hi] at hx
      injection hx with hx
      rw [List.getElem?_eq_getElem hi, hx]
    · unfold Tbl.getRow Tbl.check at hx
      rw [e2.1, if_pos (by omega)] at hx
      cases hx
  unfold mergeSpec at hxm
  simp only [] at hxm
  rw [List.getElem?_append_left hpk] at hxm
  have := List.all_eq_true.1 (List.all_takeWhile (p := fun r => decide (key r < key first)) (l := L)) _ (List.mem_of_getElem? hxm)
  simp only [decide_eq_true_eq] at this
  rw [he] at this
  exact lt_irrefl _ this

/-- The tables of the counterexample: one row with key 5. -/
def oneFive : Tbl (Demo .sorted) := demoRun [.merge [demoRow 5 true 0]]

/-- C17, the exception: merging two rows with key 5 into a table holding a row with key 5 puts the first before and
the second after it. -/
theorem C17_not_stable :
    Reach demoKey c oneFive ∧
    (do let (t, log) ← oneFive.mergeLogged demoKey [demoRow 5 true 1, demoRow 5 true 2]
        let d ← demoDump t
        .ok (d.map (fun x : Nat × Bool × Nat => (x.1, x.2.2)), log)) = .ok ([(5, 1), (5, 0), (5, 2)], [0, 2]) :=
  ⟨demoRun_reach _ (by simp [TOp.Allowed, TOp.clears]), by decide⟩

/-- Non-vacuity of `C17_stable`: keys 3, 5, 5, 9 and new keys 4, 5, 9. -/
example : ∀ first ∈ ([demoRow 4 true 7, demoRow 5 true 8, demoRow 9 true 9] : List (Row (Demo .sorted))).head?,
    ∀ r ∈ sortedRows, demoKey r ≠ demoKey first := by
  simp only [List.head?_cons, Option.mem_def, Option.some.injEq, forall_eq', sortedRows, List.mem_cons,
    List.not_mem_nil, or_false, forall_eq_or_imp, forall_eq]
  decide

/-! ## C18 -/

/-- C18: `remove_rows` with strictly ascending ids in range leaves exactly the other rows, in order; any
other list of ids panics (before anything is touched: macros/output.rs:405-417 precede the loop). -/
theorem C18_remove_rows (t : Tbl S) (ht : Reach key c t) (hs : S.kind = .sorted) (L : List (Row S)) (hL : Holds t L)
    (ids : List Nat) :
    (ids.Pairwise (· < ·) → (∀ i ∈ ids, i < L.length) → ∃ t', t.removeRows ids = .ok t' ∧ Holds t' (removeAt L ids)) ∧
    (¬ ids.Pairwise (· < ·) → t.removeRows ids = .error .removeUnsorted) ∧
    (ids.Pairwise (· < ·) → ¬ (∀ i ∈ ids, i < L.length) → t.removeRows ids = .error .removeOob) := by
  obtain ⟨hw, hf⟩ := ht.wf_of_holds (sorted_ne hs) hL
  obtain ⟨h1, h2, h3⟩ := removeRows_ok hw hf ids
  refine ⟨?_, h2, h3⟩
  intro a b
  obtain ⟨t', e1, e2, e3⟩ := h1 a b
  exact ⟨t', e1, e3.holds e2⟩

example : (do let t ← sortedTbl.removeRows [0, 2]
              demoDump t) = .ok [(5, false, 1), (9, false, 3)] := by decide
example : sortedTbl.removeRows [2, 2] = .error .removeUnsorted ∧ sortedTbl.removeRows [1, 4] = .error .removeOob := by
  have h := C18_remove_rows (key := demoKey) (c := true) sortedTbl sortedTbl_reach rfl sortedRows sortedTbl_holds
  exact ⟨(h _).2.1 (by decide), (h _).2.2 (by decide) (by decide)⟩

/-! ## C19 -/

/-- The closure that looks only at the id and row it is asked about. -/
def onRow {σ B : Type} (f : Nat → Row S → σ → B × σ) (dflt : B) : Tbl S → Nat → σ → B × σ :=
  fun t i s => match t.getRow i with
    | .ok r => f i r s
    | .error _ => (dflt, s)

theorem retainSpec_rows {A σ : Type} (g : Nat → σ → Bool × σ) (f : Nat → A → σ → Bool × σ) (L : List A) (off : Nat) (s : σ)
    (h : ∀ i (hi : i < L.length), g (off + i) = f (off + i) L[i]) :
    retainSpec g off L s = retainRows f off L s := by
  induction L generalizing off s with
  | nil => rfl
  | cons r rs ih =>
    have h0 := h 0 (by simp)
    simp only [Nat.add_zero, List.getElem_cons_zero] at h0
    simp only [retainSpec, retainRows, h0]
    rw [ih (off + 1)]
    intro i hi
    have := h (i + 1) (by simpa using hi)
    simpa [show off + (i + 1) = off + 1 + i by omega] using this

theorem visitSpec_rows {A σ : Type} (g : Nat → σ → Action A × σ) (f : Nat → A → σ → Action A × σ) (L : List A) (off : Nat)
    (s : σ) (h : ∀ i (hi : i < L.length), g (off + i) = f (off + i) L[i]) :
    visitSpec g off L s = visitRows f off L s := by
  induction L generalizing off s with
  | nil => rfl
  | cons r rs ih =>
    have h0 := h 0 (by simp)
    simp only [Nat.add_zero, List.getElem_cons_zero] at h0
    have hr : ∀ s, visitSpec g (off + 1) rs s = visitRows f (off + 1) rs s := by
      intro s
      apply ih
      intro i hi
      have := h (i + 1) (by simpa using hi)
      simpa [show off + (i + 1) = off + 1 + i by omega] using this
    simp only [visitSpec, visitRows, h0]
    split
    · rfl
    · rw [hr]

theorem retain_eq_merge0 {σ : Type} (t : Tbl S) (f : Tbl S → Nat → σ → Bool × σ) (s : σ) :
    t.retain f s = t.merge0 (fun t i s => (.cont (!(f t i s).1) [], (f t i s).2)) s := rfl

/-- C19: `retain` keeps exactly the rows for which the closure said so, in order; the closure is called
once per original row, in order, and whatever it looks at in the table, row `i` has its original
contents when it is asked about `i`. `seen i` is the table as the closure sees it then. -/
theorem C19_retain (t : Tbl S) (ht : Reach key c t) (hk : S.kind ≠ .consistent) (L : List (Row S)) (hL : Holds t L)
    (hm : t.len ≤ S.max) {σ : Type} (f : Tbl S → Nat → σ → Bool × σ) (s : σ) :
    ∃ seen : Nat → Tbl S,
      (∀ i (hi : i < L.length), (seen i).getRow i = .ok L[i] ∧ (seen i).len = L.length) ∧
      ∃ t', t.retain f s = .ok (t', (retainSpec (fun i s => f (seen i) i s) 0 L s).2) ∧
        Holds t' (retainSpec (fun i s => f (seen i) i s) 0 L s).1 := by
  obtain ⟨hw, hf⟩ := ht.wf_of_holds hk hL
  rw [hL.1] at hm
  obtain ⟨seen, h1, h2, -⟩ := merge0_ok hw hf hm (fun t i s => (.cont (!(f t i s).1) [], (f t i s).2)) s
  have hsp : ∀ s, visitSpec (fun i s => (Action.cont (A := Row S) (!(f (seen i) i s).1) [], (f (seen i) i s).2)) 0 L s =
      retainSpec (fun i s => f (seen i) i s) 0 L s :=
    fun s => visitSpec_retain (fun i s => f (seen i) i s) 0 L s
  simp only [hsp] at h2
  obtain ⟨t', e1, e2, e3⟩ := h2 (by
    have := retainSpec_length (fun i s => f (seen i) i s) 0 L s
    omega)
  exact ⟨seen, h1, t', e1, e3.holds e2⟩

/-- C19 for a closure that decides from the id and the row's contents, with state. -/
theorem C19_retain_rows (t : Tbl S) (ht : Reach key c t) (hk : S.kind ≠ .consistent) (L : List (Row S)) (hL : Holds t L)
    (hm : t.len ≤ S.max) {σ : Type} (f : Nat → Row S → σ → Bool × σ) (s : σ) :
    ∃ t', t.retain (onRow f false) s = .ok (t', (retainRows f 0 L s).2) ∧ Holds t' (retainRows f 0 L s).1 := by
  obtain ⟨seen, h1, t', h2, h3⟩ := C19_retain t ht hk L hL hm (onRow f false) s
  have e := retainSpec_rows (fun i s => onRow f false (seen i) i s) f L 0 s (by
    intro i hi
    funext s
    simp [onRow, (h1 i hi).1])
  rw [e] at h2 h3
  exact ⟨t', h2, h3⟩

theorem retainRows_filter {A : Type} (p : A → Bool) (L : List A) (i : Nat) (calls : List (A × Nat)) :
    retainRows (fun i r calls => (p r, calls ++ [(r, i)])) i L calls = (L.filter p, calls ++ L.zipIdx i) := by
  induction L generalizing i calls with
  | nil => simp [retainRows]
  | cons r rs ih =>
    simp only [retainRows, ih, List.zipIdx_cons, List.filter_cons]
    split <;> simp

/-- C19 for a predicate on rows: what is left is the `filter` of the rows, and the predicate was called
exactly once per original row, in id order, on that row. -/
theorem C19_retain_filter (t : Tbl S) (ht : Reach key c t) (hk : S.kind ≠ .consistent) (L : List (Row S)) (hL : Holds t L)
    (hm : t.len ≤ S.max) (p : Row S → Bool) :
    ∃ t', t.retain (onRow (fun i r calls => (p r, calls ++ [(r, i)])) false) [] = .ok (t', L.zipIdx) ∧
      Holds t' (L.filter p) := by
  obtain ⟨t', h1, h2⟩ := C19_retain_rows t ht hk L hL hm (fun i r calls => (p r, calls ++ [(r, i)])) []
  rw [retainRows_filter] at h1 h2
  exact ⟨t', by simpa using h1, h2⟩

/-- C19 at the edge: on a table that uses every id of the row-id type, `retain` always panics (its cursor
overflows at the last row). -/
theorem C19_retain_full_panics (t : Tbl S) (ht : Reach key c t) (hk : S.kind ≠ .consistent) (hfull : t.len = S.max + 1)
    {σ : Type} (f : Tbl S → Nat → σ → Bool × σ) (s : σ) : ∃ p, t.retain f s = .error p := by
  obtain ⟨L, hL, hw, hf⟩ := ht.holds hk
  rw [hL.1] at hfull
  -- every iteration computes `rug_back.next()`, which overflows at the last row
  have key : ∀ (k : Nat) (t : Tbl S) (rug : Rug S) (front back : Nat) (s : σ), k ≠ 0 → back + k = S.max + 1 →
      ∃ p, scanLoop (fun t i s => (.cont (!(f t i s).1) [], (f t i s).2)) t rug front back false s k = .error p := by
    intro k
    induction k with
    | zero => intro _ _ _ _ _ h; exact absurd rfl h
    | succ k ih =>
      intro t rug front back s _ hb
      unfold scanLoop
      simp only [Bool.false_eq_true, if_false]
      have step : ∀ rug1 : Rug S, ∃ p, (nextId S.max back >>= fun back' =>
          fillGap t (rug1 ++ [.inr []]) front (back' - front) >>= fun x =>
          scanLoop (fun t i s => (.cont (!(f t i s).1) [], (f t i s).2)) x.1 x.2.1 x.2.2 back' false (f t back s).2 k) =
          .error p := by
        intro rug1
        by_cases hk0 : k = 0
        · subst hk0
          refine ⟨.idxOverflow, ?_⟩
          have : nextId S.max back = .error .idxOverflow := by
            unfold nextId; rw [if_neg (by omega)]
          rw [this, errBind]
        · rw [nextId_ok (by omega), okBind]
          cases hg : fillGap t (rug1 ++ [.inr []]) front (back + 1 - front) with
          | error p => exact ⟨p, by rw [errBind]⟩
          | ok x =>
            obtain ⟨t1, rug2, front2⟩ := x
            rw [okBind]
            exact ih t1 rug2 front2 (back + 1) _ hk0 (by omega)
      cases hb1 : (f t back s).1 with
      | true =>
        simp only [Bool.not_true, Bool.false_eq_true, if_false]
        cases t.getRow back with
        | error p => exact ⟨p, rfl⟩
        | ok r => exact step (rug ++ [.inl r])
      | false =>
        simp only [Bool.not_false, if_true]
        exact step rug
  obtain ⟨p, hp⟩ := key L.length t [] 0 0 s (by omega) (by omega)
  refine ⟨p, ?_⟩
  rw [retain_eq_merge0, Tbl.merge0, hL.1, hp, errBind]

example : (do let (t, calls) ← sortedTbl.retain (onRow (fun i r calls => (demoKey r ≠ 5, calls ++ [i])) false) []
              let d ← demoDump t
              .ok (d, calls)) = .ok ([(3, true, 0), (9, false, 3)], [0, 1, 2, 3]) := by decide

/-! ## C21 -/

/-- C21: `visit`, for any closure: for each original row in order, the row (unless removed) followed by
the rows added there; after `Break` the rest is unchanged. The closure is called once per original row
until `Break`; row `i` has its original contents when it is asked about `i`. It succeeds unless the
result does not fit the row-id type. -/
theorem C21_visit (t : Tbl S) (ht : Reach key c t) (hk : S.kind ≠ .consistent) (L : List (Row S)) (hL : Holds t L)
    (hm : t.len ≤ S.max) {σ : Type} (f : Tbl S → Nat → σ → Action (Row S) × σ) (s : σ) :
    ∃ seen : Nat → Tbl S,
      (∀ i (hi : i < L.length), (seen i).getRow i = .ok L[i] ∧ (seen i).len = L.length) ∧
      ((visitSpec (fun i s => f (seen i) i s) 0 L s).1.length ≤ S.max + 1 →
        ∃ t', t.visit f s = .ok (t', (visitSpec (fun i s => f (seen i) i s) 0 L s).2) ∧
          Holds t' (visitSpec (fun i s => f (seen i) i s) 0 L s).1) ∧
      (S.max + 1 < (visitSpec (fun i s => f (seen i) i s) 0 L s).1.length → t.visit f s = .error .idxOverflow) := by
  obtain ⟨hw, hf⟩ := ht.wf_of_holds hk hL
  rw [hL.1] at hm
  obtain ⟨seen, h1, h2, h3⟩ := merge0_ok hw hf hm f s
  refine ⟨seen, h1, ?_, h3⟩
  intro hl
  obtain ⟨t', e1, e2, e3⟩ := h2 hl
  exact ⟨t', e1, e3.holds e2⟩

/-- C21 for a closure that decides from the id and the row's contents, with state. -/
theorem C21_visit_rows (t : Tbl S) (ht : Reach key c t) (hk : S.kind ≠ .consistent) (L : List (Row S)) (hL : Holds t L)
    (hm : t.len ≤ S.max) {σ : Type} (f : Nat → Row S → σ → Action (Row S) × σ) (s : σ)
    (hfit : (visitRows f 0 L s).1.length ≤ S.max + 1) :
    ∃ t', t.visit (onRow f .brk) s = .ok (t', (visitRows f 0 L s).2) ∧ Holds t' (visitRows f 0 L s).1 := by
  obtain ⟨seen, h1, h2, -⟩ := C21_visit t ht hk L hL hm (onRow f .brk) s
  have e := visitSpec_rows (fun i s => onRow f .brk (seen i) i s) f L 0 s (by
    intro i hi
    funext s
    simp [onRow, (h1 i hi).1])
  rw [e] at h2
  exact h2 hfit

example : (do let (t, calls) ← bagTbl.visit (onRow (fun i r calls =>
                  (if i = 3 then .brk else .cont (i = 1) [demoRow (10 * i) true 0], calls ++ [i])) .brk) []
              let d ← demoDump t
              .ok (d.map (fun x : Nat × Bool × Nat => x.1), calls)) = .ok ([3, 0, 10, 5, 20, 9], [0, 1, 2, 3]) := by decide
example : Reach demoKey c bagTbl ∧ Holds bagTbl bagRows := ⟨bagTbl_reach, bagTbl_holds⟩

/-! ## C56 -/

/-- Operations that can break the order: an in-place edit that may change the sort key, and a merge of
rows that are not sorted (its `AssertSorted` argument only claims they are). -/
def KeepsOrder (key : Row S → K) : TOp S → Prop
  | .set j _ v => ∀ r : Row S, key (Function.update r j v) = key r
  | .merge rows => SortedBy key rows
  | _ => True

theorem sortedBy_set {A : Type} {k : A → K} {L : List A} (h : SortedBy k L) (i : Nat) (hi : i < L.length) (v : A)
    (hv : k v = k L[i]) : SortedBy k (L.set i v) := by
  have : (L.set i v).map k = L.map k := by
    rw [List.map_set, hv]
    apply List.ext_getElem
    · simp
    · intro j h1 h2
      rw [List.getElem_set]
      split
      · rename_i e; subst e; simp
      · rfl
  unfold SortedBy at *
  have e : ∀ l : List A, l.Pairwise (fun a b => k a ≤ k b) ↔ (l.map k).Pairwise (· ≤ ·) := by
    intro l; rw [List.pairwise_map]
  rw [e] at h ⊢
  rw [this]; exact h

theorem retainSpec_sublist {A σ : Type} (f : Nat → σ → Bool × σ) (i : Nat) (l : List A) (s : σ) :
    (retainSpec f i l s).1.Sublist l := by
  induction l generalizing i s with
  | nil => simp [retainSpec]
  | cons r rs ih =>
    simp only [retainSpec]
    split
    · exact (ih _ _).cons_cons r
    · exact (ih _ _).cons r

/-- Sorted tables stay sorted under one step. -/
theorem sorted_step {t t' : Tbl S} (hs : S.kind = .sorted) {L : List (Row S)} (ht : Reach key false t) (hL : Holds t L)
    (hsorted : SortedBy key L) (op : TOp S) (ha : op.Allowed S.kind) (hko : KeepsOrder key op)
    (hr : op.run key t = .ok t') : ∃ L', Holds t' L' ∧ SortedBy key L' := by
  obtain ⟨hw, hf⟩ := ht.wf_of_holds (sorted_ne hs) hL
  have hk : S.kind ≠ .consistent := sorted_ne hs
  cases op with
  | push row => exact absurd hs ha
  | pushArray rows => exact absurd hs ha
  | set j i v =>
    simp only [TOp.run] at hr
    by_cases hi : i < L.length
    · rcases hw.setCell j v hi with e | ⟨t1, e1, e2, e3⟩
      · rw [hr] at e; cases e
      · rw [hr] at e1; injection e1 with e1; subst e1
        exact ⟨_, e3.holds (by rw [e2, hf]), sortedBy_set hsorted i hi _ (hko _)⟩
    · rw [hw.rep.setCell_oob j v (by omega)] at hr; cases hr
  | remove sel =>
    simp only [TOp.run] at hr
    cases sel with
    | all =>
      obtain ⟨t1, e1, e2, e3⟩ := hw.clearRaw hf
      simp only [Tbl.removeSel] at hr
      rw [e1] at hr; injection hr with hr; subst hr
      exact ⟨[], e3.holds e2, List.Pairwise.nil⟩
    | these rows =>
      simp only [Tbl.removeSel] at hr
      cases rows with
      | nil =>
        injection hr with hr; subst hr
        exact ⟨L, hL, hsorted⟩
      | cons r rs =>
        rcases deleteLoop_other (t := t) hk (by simp [hs]) t.len r rs with e | e <;> (rw [hr] at e; cases e)
  | bagDelete i => simp [TOp.Allowed, hs] at ha
  | clearRaw =>
    obtain ⟨t1, e1, e2, e3⟩ := hw.clearRaw hf
    simp only [TOp.run] at hr
    rw [e1] at hr; injection hr with hr; subst hr
    exact ⟨[], e3.holds e2, List.Pairwise.nil⟩
  | retain f =>
    simp only [TOp.run] at hr
    by_cases hm : t.len ≤ S.max
    · obtain ⟨seen, -, t1, e1, e2⟩ := C19_retain t ht hk L hL hm (fun t i (_ : Unit) => (f t i, ())) ()
      rw [e1, okBind] at hr
      injection hr with hr; subst hr
      exact ⟨_, e2, hsorted.sublist (retainSpec_sublist _ _ _ _)⟩
    · obtain ⟨p, hp⟩ := C19_retain_full_panics t ht hk (by have := hw.rep.le; have := hL.1; omega)
        (fun t i (_ : Unit) => (f t i, ())) ()
      rw [hp] at hr; cases hr
  | visit f => exact absurd hs ha.2
  | merge rows =>
    simp only [TOp.run] at hr
    cases h : t.mergeLogged key rows with
    | error p => rw [h] at hr; cases hr
    | ok p =>
      obtain ⟨t1, log⟩ := p
      rw [h, okBind] at hr
      injection hr with hr; subst hr
      obtain ⟨L', h1, h2, -⟩ := C15_merge_sorted_and_complete t t1 ht hs L rows hL log hsorted hko h
      exact ⟨L', h1, h2⟩
  | removeRows ids =>
    simp only [TOp.run] at hr
    obtain ⟨h1, h2, h3⟩ := C18_remove_rows t ht hs L hL ids
    by_cases hp : ids.Pairwise (· < ·)
    · by_cases hall : ∀ i ∈ ids, i < L.length
      · obtain ⟨t1, e1, e2⟩ := h1 hp hall
        rw [hr] at e1; injection e1 with e1; subst e1
        refine ⟨_, e2, hsorted.sublist ?_⟩
        unfold removeAt
        have : (L.zipIdx.map Prod.fst) = L := by simp
        conv_rhs => rw [← this]
        exact List.Sublist.map _ List.filter_sublist
      · rw [h3 hp hall] at hr; cases hr
    · rw [h2 hp] at hr; cases hr

/-- C56: in every history without in-place edits of the sort key (and whose merges
are given sorted rows), a sorted table is sorted after every step. -/
theorem C56_always_sorted (hs : S.kind = .sorted) (ops : List (TOp S)) (t : Tbl S)
    (ha : ∀ op ∈ ops, op.Allowed S.kind ∧ KeepsOrder key op)
    (hr : runOps key Tbl.new ops = .ok t) : ∃ L, Holds t L ∧ SortedBy key L := by
  have gen : ∀ (ops : List (TOp S)) (t0 t : Tbl S), Reach key false t0 → (∃ L, Holds t0 L ∧ SortedBy key L) →
      (∀ op ∈ ops, op.Allowed S.kind ∧ KeepsOrder key op) → runOps key t0 ops = .ok t →
      ∃ L, Holds t L ∧ SortedBy key L := by
    intro ops
    induction ops with
    | nil => intro t0 t _ h _ hr; injection hr with hr; subst hr; exact h
    | cons op ops ih =>
      intro t0 t ht0 ⟨L, hL, hsd⟩ ha hr
      simp only [runOps, List.foldlM_cons] at hr
      cases h : op.run key t0 with
      | error p => rw [h] at hr; cases hr
      | ok t1 =>
        rw [h, okBind] at hr
        have h0 := ha op (by simp)
        exact ih t1 t (Reach.step ht0 h0.1 (by simp) h) (sorted_step hs ht0 hL hsd op h0.1 h0.2 h)
          (fun o ho => ha o (by simp [ho])) hr
  exact gen ops _ t Reach.new ⟨[], ⟨by have := (WF.new (S := S)).len; simpa using this, by simp⟩, List.Pairwise.nil⟩ ha hr

/-- C56, the exception: the sort key (here the unindexed third column) can be edited in place, and the table is no
longer sorted. -/
theorem C56_edit_breaks_order :
    (do let t ← runOps (S := Demo .sorted) (fun r => r 2) Tbl.new
          [.merge [demoRow 0 true 1, demoRow 0 true 2], .set 2 0 (7 : Nat)]
        let d ← demoDump t
        .ok (d.map (fun x : Nat × Bool × Nat => x.2.2))) = .ok [7, 2] := by decide

example : ∀ op ∈ ([.merge [demoRow 3 true 1, demoRow 4 true 2], .set 2 0 (7 : Nat), .removeRows [1]] : List (TOp (Demo .sorted))),
    op.Allowed .sorted ∧ KeepsOrder demoKey op := by
  intro op hop
  simp only [List.mem_cons, List.not_mem_nil, or_false] at hop
  rcases hop with rfl | rfl | rfl
  · exact ⟨rfl, by simp [KeepsOrder, SortedBy, demoKey, demoRow]⟩
  · exact ⟨trivial, fun r => by simp [demoKey, Function.update]⟩
  · exact ⟨rfl, trivial⟩

end V11
