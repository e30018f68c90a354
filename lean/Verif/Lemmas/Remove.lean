import Verif.Lemmas.Merge

/-!
# Facts about `mergeSpec`, and sorted `remove_rows`
-/

set_option linter.unusedSimpArgs false
set_option linter.unusedSectionVars false

namespace V11

section Lists
variable {A K : Type} [LinearOrder K]

theorem mergeSpec_perm (key : A → K) (old new : List A) : (mergeSpec key old new).Perm (old ++ new) := by
  cases new with
  | nil => simp [mergeSpec]
  | cons first rest =>
    simp only [mergeSpec]
    set p : A → Bool := fun r => decide (key r < key first)
    have h1 : (List.merge (old.dropWhile p) rest (fun a b => key a ≤ key b)).Perm (old.dropWhile p ++ rest) :=
      List.merge_perm_append _
    have h2 : (old.takeWhile p ++ first :: List.merge (old.dropWhile p) rest (fun a b => key a ≤ key b)).Perm
        (old.takeWhile p ++ first :: (old.dropWhile p ++ rest)) := List.Perm.append_left _ (h1.cons first)
    refine h2.trans ?_
    have h3 : (old.takeWhile p ++ first :: (old.dropWhile p ++ rest)).Perm
        (old.takeWhile p ++ (old.dropWhile p ++ first :: rest)) :=
      List.Perm.append_left _ List.perm_middle.symm
    refine h3.trans ?_
    rw [← List.append_assoc, List.takeWhile_append_dropWhile]

theorem mergeSpec_sorted (key : A → K) (old new : List A) (ho : SortedBy key old) (hn : SortedBy key new) :
    SortedBy key (mergeSpec key old new) := by
  cases new with
  | nil => simpa [mergeSpec] using ho
  | cons first rest =>
    simp only [mergeSpec]
    set p : A → Bool := fun r => decide (key r < key first) with hp
    have hfr := (List.pairwise_cons.1 hn).1
    have hrest := (List.pairwise_cons.1 hn).2
    have hdrop : ∀ x ∈ old.dropWhile p, key first ≤ key x := by
      have hs : SortedBy key (old.dropWhile p) := List.Pairwise.sublist (List.dropWhile_sublist p) ho
      cases hd : old.dropWhile p with
      | nil => simp
      | cons y ys =>
        have hy : ¬ p y = true := by
          have := List.head?_dropWhile_not p old
          rw [hd] at this; simpa using this
        have hy' : key first ≤ key y := by simpa [hp] using hy
        intro x hx
        rw [hd] at hs
        rcases List.mem_cons.1 hx with rfl | hx
        · exact hy'
        · exact le_trans hy' ((List.pairwise_cons.1 hs).1 x hx)
    have hmem : ∀ x, x ∈ List.merge (old.dropWhile p) rest (fun a b => key a ≤ key b) ↔
        x ∈ old.dropWhile p ∨ x ∈ rest := by
      intro x
      rw [(List.merge_perm_append (le := fun a b => decide (key a ≤ key b))).mem_iff, List.mem_append]
    have htake : ∀ x ∈ old.takeWhile p, key x < key first := by
      intro x hx
      have := List.all_eq_true.1 (List.all_takeWhile (p := p) (l := old)) x hx
      simpa [hp] using this
    have hmerge : SortedBy key (List.merge (old.dropWhile p) rest (fun a b => key a ≤ key b)) := by
      have := List.pairwise_merge (le := fun a b : A => decide (key a ≤ key b))
        (by intro a b c h1 h2; simp at *; exact le_trans h1 h2)
        (by intro a b; simp; exact le_total _ _) (old.dropWhile p) rest
        (by simpa using List.Pairwise.sublist (List.dropWhile_sublist p) ho) (by simpa using hrest)
      simpa [SortedBy] using this
    refine List.pairwise_append.2 ⟨List.Pairwise.sublist (List.takeWhile_sublist p) ho, ?_, ?_⟩
    · refine List.pairwise_cons.2 ⟨?_, hmerge⟩
      intro x hx
      rcases (hmem x).1 hx with hx | hx
      · exact hdrop x hx
      · exact hfr x hx
    · intro a ha b hb
      have hlt := htake a ha
      rcases List.mem_cons.1 hb with rfl | hb
      · exact le_of_lt hlt
      · rcases (hmem b).1 hb with hb | hb
        · exact le_trans (le_of_lt hlt) (hdrop b hb)
        · exact le_trans (le_of_lt hlt) (hfr b hb)

/-- The elements of `l`, the first of which has position `off`, whose position is not in `ids`. -/
def removeFrom (off : Nat) (l : List A) (ids : List Nat) : List A :=
  ((l.zipIdx off).filter (fun p => p.2 ∉ ids)).map Prod.fst

theorem removeFrom_cons (off : Nat) (x : A) (l : List A) (ids : List Nat) :
    removeFrom off (x :: l) ids = if off ∈ ids then removeFrom (off + 1) l ids else x :: removeFrom (off + 1) l ids := by
  simp only [removeFrom, List.zipIdx_cons, List.filter_cons]
  by_cases h : off ∈ ids <;> simp [h]

theorem removeFrom_congr (off : Nat) (l : List A) {ids ids' : List Nat}
    (h : ∀ i, off ≤ i → (i ∈ ids ↔ i ∈ ids')) : removeFrom off l ids = removeFrom off l ids' := by
  induction l generalizing off with
  | nil => rfl
  | cons x xs ih =>
    rw [removeFrom_cons, removeFrom_cons, ih (off + 1) (fun i hi => h i (by omega))]
    simp only [h off (le_refl _)]

theorem removeFrom_map {B : Type} (f : A → B) (off : Nat) (l : List A) (ids : List Nat) :
    removeFrom off (l.map f) ids = (removeFrom off l ids).map f := by
  induction l generalizing off with
  | nil => rfl
  | cons x xs ih =>
    rw [List.map_cons, removeFrom_cons, removeFrom_cons, ih]
    split <;> simp

theorem removeFrom_length (off : Nat) (l : List A) (ids : List Nat) : (removeFrom off l ids).length ≤ l.length := by
  induction l generalizing off with
  | nil => simp [removeFrom]
  | cons x xs ih =>
    rw [removeFrom_cons]
    have := ih (off + 1)
    split <;> simp <;> omega

end Lists

/-- The per-column loop, on a column whose contents are `kept ++ junk ++ rest`. -/
theorem removeLoop_ok {E : Type} {max : Nat} {C : TCol E} [LC : LawfulCol max C] {d : Nat → Prop} (hd : ∀ i, ¬ d i)
    (rest : List E) {s : C.σ} {kept junk : List E} {ids : List Nat} (hs : LC.Inv d s)
    (ha : LC.abs s = kept ++ junk ++ rest)
    (hids : ids.Pairwise (· < ·)) (hge : ∀ i ∈ ids, kept.length + junk.length ≤ i) :
    ∃ s' bad tail, removeLoop C s ids kept.length (kept.length + junk.length) rest.length = .ok (s', bad) ∧ LC.Inv d s' ∧
      LC.abs s' = kept ++ removeFrom (kept.length + junk.length) rest ids ++ tail ∧
      bad = (kept ++ removeFrom (kept.length + junk.length) rest ids).length := by
  induction rest generalizing s kept junk ids with
  | nil =>
    refine ⟨s, kept.length, junk, rfl, hs, ?_, by simp [removeFrom]⟩
    simpa [removeFrom] using ha
  | cons x rest ih =>
    -- the step that keeps `x`, whatever `ids` looks like
    have keep : (∀ i ∈ ids, kept.length + junk.length + 1 ≤ i) →
        removeLoop C s ids kept.length (kept.length + junk.length) (x :: rest).length =
          ((if kept.length ≠ kept.length + junk.length then C.swap s kept.length (kept.length + junk.length) else .ok s)
            >>= fun s => removeLoop C s ids (kept.length + 1) (kept.length + junk.length + 1) rest.length) →
        ∃ s' bad tail, removeLoop C s ids kept.length (kept.length + junk.length) (x :: rest).length = .ok (s', bad) ∧
          LC.Inv d s' ∧
          LC.abs s' = kept ++ removeFrom (kept.length + junk.length) (x :: rest) ids ++ tail ∧
          bad = (kept ++ removeFrom (kept.length + junk.length) (x :: rest) ids).length := by
      intro hge' heq
      have hnm : kept.length + junk.length ∉ ids := fun hm => by have := hge' _ hm; omega
      have hsw : ∃ s1 junk', (if kept.length ≠ kept.length + junk.length
            then C.swap s kept.length (kept.length + junk.length) else .ok s) = .ok s1 ∧ LC.Inv d s1 ∧
          LC.abs s1 = (kept ++ [x]) ++ junk' ++ rest ∧ junk'.length = junk.length := by
        cases junk with
        | nil =>
          refine ⟨s, [], by simp, hs, ?_, rfl⟩
          rw [ha]; simp
        | cons y ys =>
          obtain ⟨s1, h1, h2, h3⟩ := LC.swap_ok kept.length (kept.length + (y :: ys).length) hs
            (by rw [ha]; simp) (by rw [ha]; simp) (hd _) (hd _)
          refine ⟨s1, ys ++ [y], ?_, h2, ?_, by simp⟩
          · rw [if_pos (by simp), h1]
          · rw [h3]
            simp only [ha]
            have e1 : (kept ++ y :: ys ++ x :: rest)[kept.length + (y :: ys).length]'(by simp) = x := by
              rw [List.getElem_append_right (by simp)]
              simp
            have e2 : (kept ++ y :: ys ++ x :: rest)[kept.length]'(by simp) = y := by
              simp
            rw [e1, e2]
            have e3 : (kept ++ y :: ys ++ x :: rest).set kept.length x = kept ++ x :: ys ++ x :: rest := by
              simp [List.set_append]
            rw [e3]
            have e4 : kept.length + (y :: ys).length = (kept ++ x :: ys).length := by simp
            rw [e4, List.set_append_right _ _ (le_refl _)]
            simp
      obtain ⟨s1, junk', g1, g2, g3, g4⟩ := hsw
      have := ih (s := s1) (kept := kept ++ [x]) (junk := junk') (ids := ids) g2 g3 hids
        (by intro i hi; have := hge' i hi; simp; omega)
      obtain ⟨s', bad, tail, k1, k2, k3, k4⟩ := this
      have e : (kept ++ [x]).length + junk'.length = kept.length + junk.length + 1 := by simp; omega
      rw [e] at k1 k3 k4
      refine ⟨s', bad, tail, ?_, k2, ?_, ?_⟩
      · rw [heq, g1, okBind, ← k1]; simp
      · rw [k3, removeFrom_cons, if_neg hnm]; simp
      · rw [k4, removeFrom_cons, if_neg hnm]; simp
    cases ids with
    | nil =>
      refine keep (by simp) ?_
      rw [List.length_cons, removeLoop]
      by_cases hc : kept.length ≠ kept.length + junk.length
      · rw [if_pos hc, if_pos hc]
      · rw [if_neg hc, if_neg hc]
    | cons r rs =>
      have hr := (List.pairwise_cons.1 hids).1
      by_cases he : r = kept.length + junk.length
      · -- `x` is removed
        obtain ⟨s', bad, tail, k1, k2, k3, k4⟩ := ih (s := s) (kept := kept) (junk := junk ++ [x]) (ids := rs) hs
          (by rw [ha]; simp) (List.pairwise_cons.1 hids).2
          (by intro i hi; have := hr i hi; simp; omega)
        have e : kept.length + (junk ++ [x]).length = kept.length + junk.length + 1 := by simp; omega
        rw [e] at k1 k3 k4
        have hcg : removeFrom (kept.length + junk.length + 1) rest (r :: rs)
            = removeFrom (kept.length + junk.length + 1) rest rs := by
          apply removeFrom_congr
          intro i hi
          have : i ≠ r := by omega
          simp [this]
        refine ⟨s', bad, tail, ?_, k2, ?_, ?_⟩
        · rw [List.length_cons, removeLoop]
          simp only []
          rw [if_pos he, k1]
        · rw [k3, removeFrom_cons, if_pos (by simp [he]), hcg]
        · rw [k4, removeFrom_cons, if_pos (by simp [he]), hcg]
      · refine keep ?_ ?_
        · intro i hi
          rcases List.mem_cons.1 hi with rfl | hi
          · have := hge i (by simp); omega
          · have h1 := hr i hi
            have h2 := hge r (by simp)
            omega
        · rw [List.length_cons, removeLoop]
          simp only []
          rw [if_neg he]
          by_cases hc : kept.length ≠ kept.length + junk.length
          · rw [if_pos hc, if_pos hc]
          · rw [if_neg hc, if_neg hc]

theorem removeCheck_iff (prev : Nat) (l : List Nat) :
    removeCheck prev l = if (prev :: l).IsChain (· < ·) then .ok () else .error .removeUnsorted := by
  induction l generalizing prev with
  | nil => simp [removeCheck]
  | cons x xs ih =>
    unfold removeCheck
    by_cases h : prev < x
    · rw [if_pos h, ih]; simp [List.isChain_cons_cons, h]
    · rw [if_neg h]; simp [List.isChain_cons_cons, h]

/-- The check accepts exactly the strictly increasing lists. -/
theorem removeCheck_start (r : Nat) (rs : List Nat) :
    removeCheck 0 (if r = 0 then rs else r :: rs) =
      if (r :: rs).Pairwise (· < ·) then .ok () else .error .removeUnsorted := by
  rw [removeCheck_iff]
  by_cases h : r = 0
  · subst h
    simp only [if_true, List.isChain_iff_pairwise]
  · have : (0 :: r :: rs).IsChain (· < ·) ↔ (r :: rs).Pairwise (· < ·) := by
      rw [List.isChain_cons_cons, List.isChain_iff_pairwise]
      constructor
      · exact fun h => h.2
      · exact fun h' => ⟨by omega, h'⟩
    simp only [if_neg h, this]

variable {S : Schema} [LS : LawfulSchema S]

/-- Sorted `remove_rows`: exactly the listed rows go, in order; otherwise it panics. -/
theorem removeRows_ok {t : Tbl S} {L : List (Row S)} (h : WF t L) (hf : t.free = []) (ids : List Nat) :
    (ids.Pairwise (· < ·) → (∀ i ∈ ids, i < L.length) →
      ∃ t', t.removeRows ids = .ok t' ∧ t'.free = [] ∧ WF t' (removeAt L ids)) ∧
    (¬ ids.Pairwise (· < ·) → t.removeRows ids = .error .removeUnsorted) ∧
    (ids.Pairwise (· < ·) → ¬ (∀ i ∈ ids, i < L.length) → t.removeRows ids = .error .removeOob) := by
  cases ids with
  | nil =>
    refine ⟨fun _ _ => ⟨t, rfl, hf, ?_⟩, fun hc => absurd List.Pairwise.nil hc, fun _ hc => absurd (by simp) hc⟩
    have : removeAt L [] = L := by
      have : ∀ off, removeFrom off L [] = L := by
        intro off; induction L generalizing off with
        | nil => rfl
        | cons x xs ih => 
          have ihx : ∀ off, removeFrom off xs [] = xs := by
            clear ih h
            intro off
            induction xs generalizing off with
            | nil => rfl
            | cons y ys ih => rw [removeFrom_cons]; simp [ih]
          rw [removeFrom_cons]; simp [ihx]
      exact this 0
    rw [this]; exact h
  | cons r rs =>
    by_cases hs : (r :: rs).Pairwise (· < ·)
    swap
    · refine ⟨fun hc => absurd hc hs, fun _ => ?_, fun hc => absurd hc hs⟩
      unfold Tbl.removeRows
      simp only []
      rw [removeCheck_start, if_neg hs, errBind]
    have hlast : ∃ z, (r :: rs).getLast? = some z ∧ z ∈ r :: rs ∧ ∀ i ∈ r :: rs, i ≤ z := by
      refine ⟨(r :: rs).getLast (by simp), List.getLast?_eq_some_getLast (by simp), List.getLast_mem (by simp), ?_⟩
      intro i hi
      have hd := List.dropLast_append_getLast (l := r :: rs) (by simp)
      rw [← hd] at hi
      rcases List.mem_append.1 hi with hi | hi
      · rw [← hd] at hs
        exact le_of_lt ((List.pairwise_append.1 hs).2.2 i hi _ (by simp))
      · simp at hi; omega
    obtain ⟨z, hz1, hz2, hz3⟩ := hlast
    refine ⟨fun _ hlt => ?_, fun hc => absurd hs hc, fun _ hnlt => ?_⟩
    · have hmap := Rep.mapCols (t := t) (d' := fun _ => False)
        (f := fun j s => do
          let (s, bad) ← removeLoop (S.C j) s (r :: rs) 0 0 L.length
          (S.C j).truncate s bad)
        (L' := removeAt L (r :: rs))
        (by have h1 := removeFrom_length 0 L (r :: rs)
            have h2 : removeAt L (r :: rs) = removeFrom 0 L (r :: rs) := rfl
            rw [h2]; have := h.rep.le; omega)
        (by
          intro j
          have hinv : (LS.law j).Inv (fun _ => False) (t.cols j) :=
            (LS.law j).inv_congr (by simp [hf]) (h.rep.inv j)
          obtain ⟨s', bad, tail, k1, k2, k3, k4⟩ := removeLoop_ok (max := S.max) (C := S.C j) (d := fun _ => False) (by simp)
            (L.map (· j)) (s := t.cols j) (kept := []) (junk := []) (ids := r :: rs) hinv
            (by rw [h.rep.abs]; simp) hs (by simp)
          obtain ⟨s'', l1, l2, l3⟩ := (LS.law j).truncate_ok bad k2
          refine ⟨s'', ?_, l2, ?_⟩
          · simp only [List.length_nil, Nat.add_zero, List.length_map] at k1
            rw [k1, okBind]; exact l1
          · rw [l3, k3, k4]
            simp only [List.length_nil, Nat.add_zero, List.nil_append]
            rw [List.take_left', removeFrom_map]
            · rfl
            · rfl)
      obtain ⟨t', m1, m2, m3⟩ := hmap
      refine ⟨t', ?_, by rw [m3, hf], ⟨m2.congr (by simp [m3, hf]), by rw [m3]; exact h.ok, by simp [m3, hf],
        fun _ => by rw [m3, hf]⟩⟩
      unfold Tbl.removeRows
      simp only []
      rw [removeCheck_start, if_pos hs, okBind, hz1, h.len]
      simp only [Option.getD_some]
      rw [if_pos (hlt z hz2)]
      exact m1
    · unfold Tbl.removeRows
      simp only []
      rw [removeCheck_start, if_pos hs, okBind, hz1, h.len]
      simp only [Option.getD_some]
      rw [if_neg]
      intro hzl
      exact hnlt (fun i hi => by have := hz3 i hi; omega)

end V11
