import Verif.Props.Demo
import Verif.Lemmas.Bag

/-!
# Bags and append tables: C20, C22, C23, C52, C53, C57
-/

set_option linter.unusedSimpArgs false
set_option linter.unusedSectionVars false
set_option linter.unusedVariables false

namespace V11
variable {S : Schema} [LS : LawfulSchema S] {K : Type} [LinearOrder K] {key : Row S → K} {c : Bool}

/-! ## C20 -/

/-- C20: `clear()` on an append or bag table empties it at once, and the lock can be dropped. -/
theorem C20_clear (t : Tbl S) (ht : Reach key c t) (hk : S.kind = .append ∨ S.kind = .bag) :
    ∃ t', (do let w ← (W.lock t).clear; w.drop) = .ok t' ∧ t'.len = 0 ∧ ∀ i, t'.contains i = false := by
  have hne : S.kind ≠ .consistent := by rcases hk with h | h <;> simp [h]
  obtain ⟨L, -, hw, hf⟩ := ht.holds hne
  obtain ⟨t', e1, e2, e3⟩ := hw.clearRaw hf
  refine ⟨t', ?_, by simpa using e3.len, ?_⟩
  · unfold W.clear
    rcases hk with h | h <;> simp [h, W.lock, e1, okBind, W.drop]
  · intro i
    rw [← Bool.not_eq_true, e3.contains_iff]
    simp

/-- C20: on every sorted and list table `clear()` does nothing. -/
theorem C20_sorted_clear_does_nothing (t : Tbl S) (hk : S.kind = .sorted ∨ S.kind = .list) :
    (do let w ← (W.lock t).clear; w.drop) = .ok t := by
  unfold W.clear
  rcases hk with h | h <;> simp [h, W.lock, okBind, W.drop]

example : (do let w ← (W.lock bagTbl).clear
              let t ← w.drop
              demoDump t) = .ok [] := by decide
example : (do let w ← (W.lock sortedTbl).clear
              let t ← w.drop
              .ok t.len) = .ok 4 := by decide

/-! ## C22 -/

theorem bagRemove_length {A : Type} (L : List A) (i : Nat) : (bagRemove L i).length = L.length - 1 := by
  unfold bagRemove
  cases h : L.getLast? with
  | none => rw [List.getLast?_eq_none_iff] at h; simp [h]
  | some l => simp

theorem bagRemove_get {A : Type} (L : List A) (i k : Nat) (hi : i < L.length) (hk : k < L.length - 1) :
    (bagRemove L i)[k]? = L[if k = i then L.length - 1 else k]? := by
  unfold bagRemove
  have hne : L ≠ [] := by intro h; subst h; simp at hi
  rw [List.getLast?_eq_getLast_of_ne_nil hne]
  simp only []
  rw [List.getElem?_dropLast]
  simp only [List.length_set]
  rw [if_pos hk, List.getElem?_set]
  by_cases h : i = k
  · subst h; simp only [if_true, hi]
    rw [List.getLast_eq_getElem, List.getElem?_eq_getElem (by omega)]
  · rw [if_neg h, if_neg (Ne.symm h)]

/-- C22: deleting row `i` of a bag shortens it by one; the last row takes id `i`; every other id below
the new length keeps its row. The lock can be dropped. -/
theorem C22_bag_delete (t : Tbl S) (ht : Reach key c t) (hk : S.kind = .bag) (i : Nat) (hi : i < t.len) :
    ∃ t', (do let w ← (W.lock t).deleteRow i; w.drop) = .ok t' ∧ t'.len + 1 = t.len ∧
      ∀ k, k < t'.len → t'.getRow k = t.getRow (if k = i then t.len - 1 else k) := by
  have hne : S.kind ≠ .consistent := by simp [hk]
  obtain ⟨L, hL, hw, hf⟩ := ht.holds hne
  rw [hL.1] at hi
  obtain ⟨t', e1, e2⟩ := bagDelete_ok hw hk hi
  have e3 := e2.holds' hne
  have hlen : t'.len = L.length - 1 := by rw [e3.1, bagRemove_length]
  refine ⟨t', ?_, by rw [hlen, hL.1]; omega, ?_⟩
  · unfold BagIter.bagDelete at e1
    unfold W.deleteRow
    simp only [hk, W.lock]
    cases hc : t.check i with
    | error p => rw [hc] at e1; cases e1
    | ok j =>
      rw [hc, okBind] at e1
      simp only [okBind, e1]
      simp [W.drop, hk]
  · intro k hk'
    rw [hlen] at hk'
    have hget := bagRemove_get L i k hi hk'
    have h1 : k < (bagRemove L i).length := by rw [bagRemove_length]; exact hk'
    rw [hL.1]
    have h2 : (if k = i then L.length - 1 else k) < L.length := by split <;> omega
    rw [e3.2 k h1, hL.2 _ h2]
    rw [List.getElem?_eq_getElem h1, List.getElem?_eq_getElem h2] at hget
    injection hget with hget
    rw [hget]

/-- C22: an id past the end is refused. -/
theorem C22_bag_delete_oob (t : Tbl S) (ht : Reach key c t) (hk : S.kind = .bag) (i : Nat) (hi : t.len ≤ i) :
    (W.lock t).deleteRow i = .error .indexOob := by
  have hne : S.kind ≠ .consistent := by simp [hk]
  obtain ⟨L, hL, hw, hf⟩ := ht.holds hne
  unfold W.deleteRow
  simp only [hk, W.lock]
  rw [hw.aligned.check, if_pos (by rw [← hL.1]; exact hi), errBind]

example : (do let w ← (W.lock bagTbl).deleteRow 1
              let t ← w.drop
              demoDump t) = .ok [(3, true, 0), (9, false, 3), (5, true, 2)] := by decide

/-! ## C23 -/

/-- The visited rows that the loop body did not mark, for a body that decides from what it visited so far
(`done`), the id and the row. -/
def keptVisits {A : Type} (dec : List (Nat × A) → Nat → A → Bool) : List (Nat × A) → List (Nat × A) → List A
  | _, [] => []
  | done, (i, a) :: vs =>
    if dec done i a then keptVisits dec (done ++ [(i, a)]) vs else a :: keptVisits dec (done ++ [(i, a)]) vs

/-- The loop body that decides by `dec` and remembers its visits. -/
def logBody {A : Type} (dec : List (Nat × A) → Nat → A → Bool) (i : Nat) (a : A) (done : List (Nat × A)) :
    Bool × List (Nat × A) := (dec done i a, done ++ [(i, a)])

theorem decisions_log {A : Type} (dec : List (Nat × A) → Nat → A → Bool) (vs done : List (Nat × A)) :
    (decisions (logBody dec) vs done).2 = done ++ vs ∧
    unmarked vs (decisions (logBody dec) vs done).1 = keptVisits dec done vs := by
  induction vs generalizing done with
  | nil => simp [decisions, unmarked, keptVisits]
  | cons v vs ih =>
    obtain ⟨i, a⟩ := v
    have := ih (done ++ [(i, a)])
    constructor
    · simp [decisions, logBody, this.1]
    · simp only [decisions, logBody, keptVisits, unmarked, List.zip_cons_cons, List.filter_cons]
      have h2 := this.2
      simp only [unmarked, logBody] at h2
      cases dec done i a <;> simp [h2]

/-- C23: a loop over `iter_mut()` of a bag, whose body marks rows for deletion by any rule (it may depend
on everything visited so far), visits every row exactly once, and afterwards exactly the rows that were
not marked remain. If the loop is left after `k` rows, then `k` rows were visited (each once) and the
unvisited ones remain too. -/
theorem C23_bag_iter_mut (t : Tbl S) (ht : Reach key c t) (hk : S.kind = .bag) (L : List (Row S)) (hL : Holds t L)
    (dec : List (Nat × Row S) → Nat → Row S → Bool) (k : Nat) :
    ∃ t' visits left L', BagIter.run (logBody dec) k (BagIter.new t) [] = .ok (t', visits) ∧
      (visits.map Prod.snd ++ left).Perm L ∧ visits.length = min k L.length ∧
      Holds t' L' ∧ L'.Perm (keptVisits dec [] visits ++ left) := by
  have hne : S.kind ≠ .consistent := by simp [hk]
  obtain ⟨hw, hf⟩ := ht.wf_of_holds hne hL
  obtain ⟨t', vs, left, L', e1, e2, e3, e4, e5⟩ := bagRun_ok (logBody dec) hk k [] (it := BagIter.new t) (kept := [])
    (pend := none) (rest := L) (by simpa [BagIter.new] using hw) rfl rfl (by simp)
  obtain ⟨d1, d2⟩ := decisions_log dec vs []
  rw [d1] at e1
  rw [d2] at e5
  exact ⟨t', vs, left, L', by simpa using e1, e2, e3, e4.holds' hne, by simpa using e5⟩

/-- C23 for a full loop. -/
theorem C23_bag_iter_mut_full (t : Tbl S) (ht : Reach key c t) (hk : S.kind = .bag) (L : List (Row S)) (hL : Holds t L)
    (dec : List (Nat × Row S) → Nat → Row S → Bool) (k : Nat) (hkl : L.length ≤ k) :
    ∃ t' visits L', BagIter.run (logBody dec) k (BagIter.new t) [] = .ok (t', visits) ∧
      (visits.map Prod.snd).Perm L ∧ Holds t' L' ∧ L'.Perm (keptVisits dec [] visits) := by
  obtain ⟨t', vs, left, L', e1, e2, e3, e4, e5⟩ := C23_bag_iter_mut t ht hk L hL dec k
  have : left = [] := by
    have := e2.length_eq
    simp at this
    rw [← List.length_eq_zero_iff]
    omega
  subst this
  exact ⟨t', vs, L', e1, by simpa using e2, e4, by simpa using e5⟩

/-- C23 for a predicate on rows: what remains is, as a multiset, the rows that do not satisfy it. -/
theorem C23_bag_iter_mut_filter (t : Tbl S) (ht : Reach key c t) (hk : S.kind = .bag) (L : List (Row S)) (hL : Holds t L)
    (p : Row S → Bool) :
    ∃ t' visits L', BagIter.run (logBody (fun _ _ r => p r)) L.length (BagIter.new t) [] = .ok (t', visits) ∧
      Holds t' L' ∧ L'.Perm (L.filter (fun r => !p r)) := by
  obtain ⟨t', vs, L', e1, e2, e3, e4⟩ := C23_bag_iter_mut_full t ht hk L hL (fun _ _ r => p r) L.length (le_refl _)
  refine ⟨t', vs, L', e1, e3, e4.trans ?_⟩
  have : ∀ done, keptVisits (fun _ _ r => p r) done vs = (vs.map Prod.snd).filter (fun r => !p r) := by
    clear e1 e2 e4
    induction vs with
    | nil => intro; rfl
    | cons v vs ih =>
      intro done
      obtain ⟨i, a⟩ := v
      simp only [keptVisits, List.map_cons, List.filter_cons, ih]
      cases p a <;> simp
  rw [this]
  exact e2.filter _

/-- Every row with key 5 marked, and after visiting two rows everything. -/
example : (do let (t, visits) ← BagIter.run (logBody (fun done _ r => demoKey r = 5 || 3 ≤ done.length)) 9 (BagIter.new bagTbl) []
              let d ← demoDump t
              .ok (d, visits.map (fun v : Nat × Row (Demo .bag) => (v.1, demoKey v.2)))) =
    .ok ([(3, true, 0), (9, false, 3)], [(0, 3), (1, 5), (1, 9), (2, 5)]) := by decide
example : Reach demoKey c bagTbl ∧ Holds bagTbl bagRows := ⟨bagTbl_reach, bagTbl_holds⟩

/-! ## C57 -/

/-- C57, concretely: a `Deletable` kept past the next call of `next()` and deleted then marks the row visited
last, not its own: here the one made for row 0 (key 3) is deleted after row 1 was visited, and key 3
stays while one of the keys 5 goes. -/
theorem C57_late_delete_hits_other_row :
    (do let (d0, it) ← (BagIter.new bagTbl).next
        let (d1, it) ← it.next
        let t ← it.mark.drop
        let d ← demoDump t
        .ok (d0, d1, d)) = .ok (some 0, some 1, [(3, true, 0), (9, false, 3), (5, true, 2)]) := by decide

/-- C57: marked before the next call of `next()`, the row it was made for is the
one deleted (by the next call or by the drop): the visit of `k + 1` rows, mark, then drop removes exactly the row visited
last. -/
theorem C57_prompt_delete (t : Tbl S) (ht : Reach key c t) (hk : S.kind = .bag) (L : List (Row S)) (hL : Holds t L)
    (k : Nat) (hkl : k < L.length) :
    ∃ t' visits left L' row, BagIter.run (logBody (fun done _ _ => done.length = k)) (k + 1) (BagIter.new t) [] = .ok (t', visits) ∧
      visits.length = k + 1 ∧ visits.getLast? = some (k, row) ∧ (visits.map Prod.snd ++ left).Perm L ∧
      Holds t' L' ∧ (row :: L').Perm L := by
  obtain ⟨t', vs, left, L', e1, e2, e3, e4, e5⟩ := C23_bag_iter_mut t ht hk L hL (fun done _ _ => done.length = k) (k + 1)
  have hlen : vs.length = k + 1 := by omega
  -- the ids visited without any deletion are 0, 1, 2, …
  have hids : ∀ (n : Nat) (it : BagIter S) (done : List (Nat × Row S)) (t1 : Tbl S) (vs : List (Nat × Row S)),
      it.delete = false → it.i = done.length → it.i + n = k + 1 →
      BagIter.run (logBody (fun done _ _ => decide (done.length = k))) n it done = .ok (t1, vs) →
      vs.length = k + 1 → n ≠ 0 → ∃ row, vs.getLast? = some (k, row) := by
    intro n
    induction n with
    | zero => intro _ _ _ _ _ _ _ _ _ h; exact absurd rfl h
    | succ n ih =>
      intro it done t1 vs hd hi hn hr hl _
      unfold BagIter.run BagIter.next at hr
      by_cases hend : it.i ≥ it.tbl.len
      · rw [if_pos hend, okBind] at hr
        simp only [] at hr
        unfold BagIter.drop at hr
        rw [hd] at hr
        exfalso
        cases hlast : it.last <;> (rw [hlast] at hr; simp [okBind] at hr; have := hr.2; subst this; omega)
      · rw [if_neg hend, hd] at hr
        simp only [Bool.false_eq_true, if_false, okBind] at hr
        unfold fromUsize at hr
        by_cases hmx : it.i ≤ S.max
        · rw [if_pos hmx] at hr
          simp only [okBind] at hr
          cases hg : it.tbl.getRow it.i with
          | error p => rw [hg, errBind] at hr; cases hr
          | ok r =>
            rw [hg, okBind] at hr
            simp only [logBody] at hr
            by_cases hn0 : n = 0
            · subst hn0
              unfold BagIter.run at hr
              refine ⟨r, ?_⟩
              cases hdr : BagIter.drop { it with last := some it.i, i := it.i + 1, delete := decide (done.length = k) } with
              | error p => simp only [hdr, errBind] at hr; cases hr
              | ok t2 =>
                simp only [hdr, okBind] at hr
                injection hr with hr; injection hr with _ hr
                subst hr
                rw [List.getLast?_append]
                simp; omega
            · have hdk : decide (done.length = k) = false := by simp; omega
              rw [hdk] at hr
              exact ih { it with last := some it.i, i := it.i + 1, delete := false } (done ++ [(it.i, r)]) t1 vs rfl
                (by simp [hi]) (by simp only; omega) hr hl hn0
        · rw [if_neg hmx] at hr
          simp only [errBind] at hr
          cases hr
  obtain ⟨row, hrow⟩ := hids (k + 1) (BagIter.new t) [] t' vs rfl rfl (by simp [BagIter.new]) e1 hlen (by simp)
  refine ⟨t', vs, left, L', row, e1, hlen, hrow, e2, e4, ?_⟩
  -- the kept visits are all but the last
  have hkept : ∀ (vs : List (Nat × Row S)) (done : List (Nat × Row S)), done.length + vs.length = k + 1 → vs ≠ [] →
      ∃ r, vs.getLast? = some r ∧ (r.2 :: keptVisits (fun done _ _ => decide (done.length = k)) done vs).Perm (vs.map Prod.snd) := by
    intro vs
    induction vs with
    | nil => intro _ _ h; exact absurd rfl h
    | cons v vs ih =>
      intro done hl _
      obtain ⟨i, a⟩ := v
      simp only [List.length_cons] at hl
      by_cases hvs : vs = []
      · subst hvs
        refine ⟨(i, a), by simp, ?_⟩
        simp at hl
        simp [keptVisits, hl]
      · obtain ⟨r, h1, h2⟩ := ih (done ++ [(i, a)]) (by simp; omega) hvs
        have hpos : 0 < vs.length := List.length_pos_iff.2 hvs
        refine ⟨r, by rw [List.getLast?_cons_of_ne_nil hvs]; exact h1, ?_⟩
        simp only [keptVisits]
        rw [if_neg (by simp; omega)]
        simp only [List.map_cons]
        exact (List.Perm.swap a r.2 _).trans (h2.cons a)
  obtain ⟨r, h1, h2⟩ := hkept vs [] (by simpa using hlen) (by intro h; subst h; simp at hlen)
  rw [hrow] at h1
  injection h1 with h1
  subst h1
  exact ((e5.cons row).trans (List.Perm.append_right left h2)).trans e2

/-! ## C52 -/

/-- C52, one selected row: the removal step of the flush removes exactly it (as `delete` does). -/
theorem C52_one_selected (t : Tbl S) (ht : Reach key c t) (hk : S.kind = .bag) (L : List (Row S)) (hL : Holds t L)
    (i : Nat) (hi : i < L.length) :
    ∃ t' L', t.removeSel (.these [i]) = .ok t' ∧ Holds t' L' ∧ (L[i] :: L').Perm L := by
  have hne : S.kind ≠ .consistent := by simp [hk]
  obtain ⟨hw, hf⟩ := ht.wf_of_holds hne hL
  obtain ⟨t', e1, e2⟩ := hw.deleteRaw_bag hk (i := i) (by intro h; subst h; simp at hi)
  refine ⟨t', _, ?_, e2.holds' hne, ?_⟩
  · simp only [Tbl.removeSel, Tbl.deleteLoop, List.foldlM_cons, List.foldlM_nil]
    rw [hL.1, if_pos hi, e1, okBind]; rfl
  · have hsplit : L = L.take i ++ L[i] :: L.drop (i + 1) := by
      rw [List.getElem_cons_drop, List.take_append_drop]
    rcases List.eq_nil_or_concat (L.drop (i + 1)) with hr | ⟨rest', l, hr⟩
    · have hlen : i = (L.take i).length := by simp; omega
      have h3 : bagRemove L i = L.take i := by
        conv_lhs => rw [hsplit, hr]
        have := bagRemove_last (L.take i) L[i]
        rwa [← hlen] at this
      rw [h3]
      conv_rhs => rw [hsplit, hr]
      exact (List.perm_append_comm (l₁ := [L[i]]) (l₂ := L.take i))
    · rw [List.concat_eq_append] at hr
      have hlen : i = (L.take i).length := by simp; omega
      have h3 : bagRemove L i = L.take i ++ l :: rest' := by
        conv_lhs => rw [hsplit, hr]
        have := bagRemove_mid (L.take i) L[i] rest' l
        rwa [← hlen] at this
      rw [h3]
      conv_rhs => rw [hsplit, hr]
      have h4 : (l :: rest').Perm (rest' ++ [l]) := List.perm_append_comm (l₁ := [l]) (l₂ := rest')
      exact (List.perm_middle.symm).trans (List.Perm.append_left (L.take i) (h4.cons L[i]))

theorem bagRemove_perm {A : Type} (L : List A) (i : Nat) (hi : i < L.length) :
    ∃ tail, bagRemove L i = L.take i ++ tail ∧ tail.Perm (L.drop (i + 1)) := by
  have hsplit : L = L.take i ++ L[i] :: L.drop (i + 1) := by
    rw [List.getElem_cons_drop, List.take_append_drop]
  have hlen : i = (L.take i).length := by simp; omega
  rcases List.eq_nil_or_concat (L.drop (i + 1)) with hr | ⟨rest', l, hr⟩
  · refine ⟨[], ?_, by rw [hr]⟩
    conv_lhs => rw [hsplit, hr]
    have := bagRemove_last (L.take i) L[i]
    rw [← hlen] at this
    rw [this]; simp
  · rw [List.concat_eq_append] at hr
    refine ⟨l :: rest', ?_, by rw [hr]; exact List.perm_append_comm (l₁ := [l]) (l₂ := rest')⟩
    conv_lhs => rw [hsplit, hr]
    have := bagRemove_mid (L.take i) L[i] rest' l
    rwa [← hlen] at this

theorem removeAt_nil_ids {A : Type} (L : List A) : removeAt L [] = L := by
  unfold removeAt
  simp only [List.not_mem_nil, not_false_eq_true, decide_true, List.filter_true]
  simp

theorem removeAt_cons_max {A : Type} (L : List A) (i n : Nat) (ids : List Nat) (hi : i < n) (hn : n ≤ L.length)
    (hids : ∀ x ∈ ids, x < i) :
    removeAt (L.take n) (i :: ids) = removeAt (L.take i) ids ++ (L.take n).drop (i + 1) := by
  have hlen : (L.take n).length = n := by simp; omega
  have hsplit : L.take n = L.take i ++ (L.take n)[i]'(by rw [hlen]; exact hi) :: (L.take n).drop (i + 1) := by
    have : L.take i = (L.take n).take i := by rw [List.take_take]; congr 1; omega
    rw [this, List.getElem_cons_drop, List.take_append_drop]
  conv_lhs => rw [hsplit]
  have hl1 : (L.take i).length = i := by simp; omega
  unfold removeAt
  rw [List.zipIdx_append, List.zipIdx_cons, List.filter_append, List.filter_cons, List.map_append]
  simp only [hl1, Nat.zero_add]
  congr 1
  · congr 1
    apply List.filter_congr
    intro p hp
    have := List.mem_zipIdx hp
    simp only [hl1] at this
    simp
    omega
  · rw [if_neg (by simp)]
    have : (((L.take n).drop (i + 1)).zipIdx (i + 1)).filter (fun p => decide (p.2 ∉ i :: ids)) =
        ((L.take n).drop (i + 1)).zipIdx (i + 1) := by
      rw [List.filter_eq_self]
      intro p hp
      have := List.mem_zipIdx hp
      simp only [List.mem_cons, not_or, decide_eq_true_eq]
      refine ⟨by omega, ?_⟩
      intro hm
      have := hids _ hm
      omega
    rw [this]
    simp

theorem foldl_bagRemove_desc {A : Type} (ids : List Nat) (L : List A) (n : Nat) (hn : n ≤ L.length)
    (hdesc : ids.Pairwise (fun a b => b < a)) (hlt : ∀ x ∈ ids, x < n) :
    (ids.foldl bagRemove L).Perm (removeAt (L.take n) ids ++ L.drop n) := by
  induction ids generalizing L n with
  | nil => rw [removeAt_nil_ids]; simp
  | cons i ids ih =>
    have hi : i < n := hlt i (by simp)
    obtain ⟨hd1, hd2⟩ := List.pairwise_cons.1 hdesc
    obtain ⟨tail, h1, h2⟩ := bagRemove_perm L i (by omega)
    have hl1 : (L.take i).length = i := by simp; omega
    have hl : i ≤ (bagRemove L i).length := by rw [bagRemove_length]; omega
    have := ih (bagRemove L i) i hl hd2 hd1
    rw [List.foldl_cons]
    refine this.trans ?_
    rw [removeAt_cons_max L i n ids hi hn hd1, List.append_assoc]
    have ht : (bagRemove L i).take i = L.take i := by
      rw [h1, List.take_append_of_le_length (by omega), List.take_of_length_le (by omega)]
    have hdrop : (bagRemove L i).drop i = tail := by
      rw [h1, List.drop_append_of_le_length (by omega), List.drop_of_length_le (by omega)]; simp
    rw [ht, hdrop]
    refine List.Perm.append_left _ (h2.trans ?_)
    have : (L.take n).drop (i + 1) ++ L.drop n = L.drop (i + 1) := by
      have h0 : i + 1 ≤ (L.take n).length := by simp; omega
      rw [← List.drop_append_of_le_length h0, List.take_append_drop]
    rw [this]

/-- C52, exactly: the ids are removed one after the other, in the order they were selected, each time moving the then last
row into the gap. It panics if an id was out of range before, or there are more ids than rows. -/
theorem C52_exact (t : Tbl S) (ht : Reach key c t) (hk : S.kind = .bag) (L : List (Row S)) (hL : Holds t L) (ids : List Nat) :
    ((∀ i ∈ ids, i < L.length) → ids.length ≤ L.length →
      ∃ t', t.removeSel (.these ids) = .ok t' ∧ Holds t' (ids.foldl swapRemove L)) ∧
    ((∃ i ∈ ids, L.length ≤ i) ∨ L.length < ids.length → ∃ p, t.removeSel (.these ids) = .error p) := by
  have hne : S.kind ≠ .consistent := by simp [hk]
  obtain ⟨hw, hf⟩ := ht.wf_of_holds hne hL
  have hsw : (swapRemove : List (Row S) → Nat → List (Row S)) = bagRemove := by
    funext L i
    unfold swapRemove bagRemove
    cases L.getLast? <;> rfl
  have hsel : t.removeSel (.these ids) = t.deleteLoop L.length ids := by
    show t.deleteLoop t.len ids = _
    rw [hL.1]
  rw [hsel, hsw]
  constructor
  · intro h1 h2
    obtain ⟨t', e1, e2⟩ := hw.deleteLoop_bag_ok hk L.length ids h1 h2
    exact ⟨t', e1, e2.holds' hne⟩
  · intro hbad
    rcases hw.deleteLoop_bag hk L.length ids with ⟨t', e1, e2, e3, e4⟩ | e | e
    · exfalso
      rcases hbad with ⟨i, hi, hl⟩ | hl
      · exact absurd (e2 i hi) (by omega)
      · omega
    · exact ⟨_, e⟩
    · exact ⟨_, e⟩

/-- C52: ids selected in strictly descending order are removed exactly (as a multiset of rows). -/
theorem C52_descending (t : Tbl S) (ht : Reach key c t) (hk : S.kind = .bag) (L : List (Row S)) (hL : Holds t L)
    (ids : List Nat) (hdesc : ids.Pairwise (fun a b => b < a)) (hlt : ∀ i ∈ ids, i < L.length) :
    ∃ t' L', t.removeSel (.these ids) = .ok t' ∧ Holds t' L' ∧ L'.Perm (removeAt L ids) := by
  have hne : S.kind ≠ .consistent := by simp [hk]
  obtain ⟨hw, hf⟩ := ht.wf_of_holds hne hL
  have hperm := foldl_bagRemove_desc ids L L.length (le_refl _) hdesc hlt
  simp only [List.take_length, List.drop_length, List.append_nil] at hperm
  suffices h : ∀ (ids : List Nat) (t : Tbl S) (L' : List (Row S)) (n : Nat), WF t L' → (∀ i ∈ ids, i < n ∧ i < L'.length) →
      ids.Pairwise (fun a b => b < a) → ∃ t', t.deleteLoop n ids = .ok t' ∧ WF t' (ids.foldl bagRemove L') by
    obtain ⟨t', e1, e2⟩ := h ids t L t.len hw (by intro i hi; rw [hL.1]; exact ⟨hlt i hi, hlt i hi⟩) hdesc
    exact ⟨t', _, e1, e2.holds' hne, hperm⟩
  intro ids
  induction ids with
  | nil => intro t L' n h _ _; exact ⟨t, rfl, h⟩
  | cons i ids ih =>
    intro t L' n h hlt hd
    obtain ⟨h1, h2⟩ := hlt i (by simp)
    obtain ⟨hd1, hd2⟩ := List.pairwise_cons.1 hd
    obtain ⟨t1, e1, e2⟩ := h.deleteRaw_bag hk (i := i) (by intro h; subst h; simp at h2)
    obtain ⟨t', e3, e4⟩ := ih t1 (bagRemove L' i) n e2 (by
      intro x hx
      have := hd1 x hx
      rw [bagRemove_length]
      omega) hd2
    refine ⟨t', ?_, e4⟩
    simp only [Tbl.deleteLoop, List.foldlM_cons]
    rw [if_pos h1, e1, okBind]
    exact e3

/-- C52, in another order: selecting ids 0 and 3 of a four-row bag removes rows 0 and 2. -/
theorem C52_ascending_removes_wrong_row :
    Reach demoKey c bagTbl ∧
    (do let t ← bagTbl.removeSel (.these [0, 3])
        let d ← demoDump t
        .ok (d.map (fun x : Nat × Bool × Nat => x.2.2))) = .ok [3, 1] := ⟨bagTbl_reach, by decide⟩

example : (do let t ← bagTbl.removeSel (.these [3, 0])
              let d ← demoDump t
              .ok (d.map (fun x : Nat × Bool × Nat => x.2.2))) = .ok [2, 1] := by decide

/-! ## C53 -/

/-- What a push, an array push or an edit should do to the rows of an append table. -/
def appendSpec (L : List (Row S)) : TOp S → List (Row S)
  | .push row => L ++ [row]
  | .pushArray rows => L ++ rows
  | .set j i v => L.modify i (fun r => Function.update r j v)
  | _ => L

/-- The operations the property is about. -/
def isAppendOp : TOp S → Bool
  | .push _ | .pushArray _ | .set .. => true
  | _ => false

/-- C53: in every history of pushes and in-place edits, an append table is the list
of the pushed rows in order, with exactly the edited cells changed; no row is lost or moved.
(`retain`, `visit` and `clear` exist on append tables too: `C53_retain_removes`.) -/
theorem C53_append_history (hk : S.kind = .append) (t t' : Tbl S) (ht : Reach key c t) (L : List (Row S))
    (hL : Holds t L) (ops : List (TOp S)) (hops : ∀ op ∈ ops, isAppendOp op = true) (hr : runOps key t ops = .ok t') :
    Holds t' (ops.foldl appendSpec L) := by
  have hne : S.kind ≠ .consistent := by simp [hk]
  induction ops generalizing t L with
  | nil => injection hr with hr; subst hr; exact hL
  | cons op ops ih =>
    simp only [runOps, List.foldlM_cons] at hr
    cases h : op.run key t with
    | error p => rw [h] at hr; cases hr
    | ok t1 =>
      rw [h, okBind] at hr
      obtain ⟨hw, hf⟩ := ht.wf_of_holds hne hL
      have hop := hops op (by simp)
      have hall : op.Allowed S.kind := by
        cases op <;> simp_all [isAppendOp, TOp.Allowed]
      have hcl : op.clears = false := by
        cases op <;> simp_all [isAppendOp, TOp.clears]
      refine ih t1 (Reach.step ht hall (by simp [hcl]) h) _ ?_ (fun o ho => hops o (by simp [ho])) hr
      cases op with
      | push row =>
        simp only [TOp.run] at h
        rcases WF.push (w := W.lock t) hw row with ⟨old, rest, t2, e0, -⟩ | ⟨t2, -, -, e1, -, e3⟩ | ⟨-, -, e1⟩
        · simp [W.lock, hf] at e0
        · rw [e1, okBind] at h; injection h with h; subst h; exact e3.holds' hne
        · rw [e1, errBind] at h; cases h
      | pushArray rows =>
        simp only [TOp.run] at h
        by_cases hrows : rows = []
        · subst hrows; injection h with h; subst h; simpa [appendSpec, W.lock] using hL
        · have := Aligned.pushArray (w := W.lock t) rows hrows hw.aligned (by intro i hi; exact hw.lt i hi)
          by_cases hl : L.length + rows.length ≤ S.max
          · obtain ⟨t2, e1, e2, e3⟩ := this.1 hl
            rw [e1, okBind] at h; injection h with h; subst h
            exact (e3.wf hne).holds' hne
          · rw [this.2 (by omega), errBind] at h; cases h
      | set j i v =>
        simp only [TOp.run] at h
        by_cases hi : i < L.length
        · rcases hw.setCell j v hi with e | ⟨t2, e1, -, e3⟩
          · rw [h] at e; cases e
          · rw [h] at e1; injection e1 with e1; subst e1
            have := e3.holds' hne
            simp only [appendSpec]
            rw [List.modify_eq_set_getElem?, List.getElem?_eq_getElem hi]
            simpa using this
        · rw [hw.rep.setCell_oob j v (by omega)] at h; cases h
      | _ => simp [isAppendOp] at hop

/-- C53: a push on an append table returns the current length as the new id. -/
theorem C53_ids_are_dense (hk : S.kind = .append) (t : Tbl S) (ht : Reach key c t) (row : Row S) (w' : W S) (i : Nat)
    (h : (W.lock t).push row = .ok (w', i)) : i = t.len ∧ w'.tbl.len = t.len + 1 := by
  have hne : S.kind ≠ .consistent := by simp [hk]
  obtain ⟨L, hL, hw, hf⟩ := ht.holds hne
  rcases WF.push (w := W.lock t) hw row with ⟨old, rest, t2, e0, -⟩ | ⟨t2, -, -, e1, -, e3⟩ | ⟨-, -, e1⟩
  · simp [W.lock, hf] at e0
  · rw [e1] at h; injection h with h; injection h with h1 h2
    subst h1 h2
    refine ⟨hL.1.symm, ?_⟩
    have := e3.len
    simp only [List.length_append, List.length_cons, List.length_nil, Nat.zero_add] at this
    rw [hL.1]; exact this
  · rw [e1] at h; cases h

/-- C53, the exception: `retain` and `clear` are generated for append tables and remove rows. -/
theorem C53_retain_removes :
    (do let t ← runOps (S := Demo .append) demoKey Tbl.new [.push (demoRow 1 true 1), .push (demoRow 2 true 2),
          .retain (fun _ i => i = 1)]
        demoDump t) = .ok [(2, true, 2)] ∧
    (TOp.retain (S := Demo .append) (fun _ i => i = 1)).Allowed .append ∧
    (do let t ← runOps (S := Demo .append) demoKey Tbl.new [.push (demoRow 1 true 1), .push (demoRow 2 true 2)]
        let w ← (W.lock t).clear
        let t ← w.drop
        demoDump t) = .ok [] := by
  refine ⟨by decide, by simp [TOp.Allowed], by decide⟩

example : (do let t ← runOps (S := Demo .append) demoKey Tbl.new [.push (demoRow 1 true 1),
                .pushArray [demoRow 2 true 2, demoRow 3 true 3], .set 2 1 (9 : Nat)]
              demoDump t) = .ok [(1, true, 1), (2, true, 9), (3, true, 3)] := by decide

end V11
