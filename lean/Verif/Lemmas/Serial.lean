import Verif.Spec.Serial
import Verif.Lemmas.Grow
import Verif.Lemmas.Flush
import Verif.Lemmas.Session

/-!
# Columns and extractions round-trip; restoring pushes
-/

set_option linter.unusedSimpArgs false
set_option linter.unusedSectionVars false
set_option linter.unusedVariables false

namespace V11

theorem mapM_ok {α β : Type} {f : α → R β} {l : List α} {g : List β} (hlen : g.length = l.length)
    (h : ∀ k (h1 : k < l.length) (h2 : k < g.length), f l[k] = .ok g[k]) : l.mapM f = .ok g := by
  induction l generalizing g with
  | nil =>
    cases g with
    | nil => rfl
    | cons => simp at hlen
  | cons a l ih =>
    cases g with
    | nil => simp at hlen
    | cons b g =>
      rw [List.mapM_cons]
      have h0 := h 0 (by simp) (by simp)
      simp only [List.getElem_cons_zero] at h0
      rw [h0]
      have := ih (g := g) (by simpa using hlen) (fun k h1 h2 => by
        have := h (k + 1) (by simpa using h1) (by simpa using h2)
        simpa using this)
      simp only [okBind]
      rw [this]
      rfl

section Columns
variable {E : Type} {max : Nat} {C : TCol E} [LC : LawfulCol max C]

theorem serCol_ok {d : Nat → Prop} {s : C.σ} (h : LC.Inv d s) : serCol C s = .ok (LC.abs s) := by
  unfold serCol
  apply mapM_ok
  · rw [LC.len_ok]; simp
  · intro k h1 h2
    simp only [List.getElem_range]
    exact LC.index_ok k h h2

theorem pushes_ok (l : List E) {s : C.σ} (h : LC.Inv (fun _ => False) s) (hl : (LC.abs s).length + l.length ≤ max + 1) :
    ∃ s', l.foldlM C.push s = .ok s' ∧ LC.Inv (fun _ => False) s' ∧ LC.abs s' = LC.abs s ++ l := by
  induction l generalizing s with
  | nil => exact ⟨s, rfl, h, by simp⟩
  | cons e l ih =>
    simp only [List.length_cons] at hl
    obtain ⟨s1, a1, a2, a3⟩ := LC.push_ok e h (by simp) (by omega)
    rw [List.foldlM_cons, a1, okBind]
    obtain ⟨s2, b1, b2, b3⟩ := ih a2 (by rw [a3]; simp; omega)
    exact ⟨s2, b1, b2, by rw [b3, a3]; simp⟩

theorem deCol_ok {l : List E} (hl : l.length ≤ max + 1) :
    ∃ s', deCol C l = .ok s' ∧ LC.Inv (fun _ => False) s' ∧ LC.abs s' = l := by
  obtain ⟨h1, h2⟩ := LC.new_ok (fun _ => False)
  obtain ⟨s', a1, a2, a3⟩ := pushes_ok (max := max) (C := C) l h1 (by rw [h2]; simpa using hl)
  exact ⟨s', a1, a2, by rw [a3, h2]; simp⟩

end Columns

section Tables
variable {S : Schema} [LS : LawfulSchema S]

/-- The columns of an extraction hold these rows. -/
def Extraction.Carries (x : Extraction S) (rows : List (Row S)) : Prop :=
  ∀ j, (LS.law j).Inv (fun _ => False) (x.data j) ∧ (LS.law j).abs (x.data j) = rows.map (· j)

theorem Extraction.Carries.rowNo {x : Extraction S} {rows : List (Row S)} (h : x.Carries rows) (k : Nat) (hk : k < rows.length) :
    x.rowNo k = .ok rows[k] := by
  unfold Extraction.rowNo
  apply seqFin_ok
  intro j
  rw [(LS.law j).toList_ok (h j).1, (h j).2]
  simp [hk]

theorem Extraction.Carries.rowNo_end {x : Extraction S} {rows : List (Row S)} (h : x.Carries rows) (k : Nat) (hk : rows.length ≤ k) :
    x.rowNo k = .error .unwrapNone := by
  unfold Extraction.rowNo
  have : ∀ j, (match ((S.C j).toList (x.data j))[k]? with
    | some e => (.ok e : R (S.E j))
    | none => .error .unwrapNone) = .error .unwrapNone := by
    intro j
    rw [(LS.law j).toList_ok (h j).1, (h j).2]
    simp [hk]
  exact seqFin_err (fun j => Or.inl (this j)) ⟨0, this 0⟩

theorem Aligned.cell {t : Tbl S} {L : List (Row S)} {d : Nat → Prop} (h : Aligned t L d) (j : Fin (S.n + 1)) {i : Nat}
    (hi : i < L.length) : t.cell j i = .ok (L[i] j) := by
  unfold Tbl.cell
  rw [h.rep.colLen, if_neg (by omega), (LS.law j).index_ok i (h.rep.inv j) (by rw [h.rep.abs]; simpa using hi)]
  simp [h.rep.abs]

theorem extractCol {t : Tbl S} {L : List (Row S)} {d : Nat → Prop} (h : Aligned t L d) (j : Fin (S.n + 1)) (ids : List Nat)
    (hids : ∀ i ∈ ids, i < L.length) {s : (S.C j).σ} (hs : (LS.law j).Inv (fun _ => False) s)
    (hl : ((LS.law j).abs s).length + ids.length ≤ S.max + 1) :
    ∃ s', ids.foldlM (fun (s : (S.C j).σ) i => do
        let e ← t.cell j i
        (S.C j).push s e) s = .ok s' ∧ (LS.law j).Inv (fun _ => False) s' ∧
      (LS.law j).abs s' = (LS.law j).abs s ++ (ids.filterMap (L[·]?)).map (· j) := by
  induction ids generalizing s with
  | nil => exact ⟨s, rfl, hs, by simp⟩
  | cons i ids ih =>
    have hi := hids i (by simp)
    simp only [List.length_cons] at hl
    rw [List.foldlM_cons, h.cell j hi, okBind]
    obtain ⟨s1, a1, a2, a3⟩ := (LS.law j).push_ok (L[i] j) hs (by simp) (by omega)
    rw [a1, okBind]
    obtain ⟨s2, b1, b2, b3⟩ := ih (fun x hx => hids x (by simp [hx])) a2 (by rw [a3]; simp; omega)
    refine ⟨s2, b1, b2, ?_⟩
    rw [b3, a3]
    simp [hi]

theorem extract_these {t : Tbl S} {L : List (Row S)} {d : Nat → Prop} (h : Aligned t L d) (sig : Sig) (ids : List Nat)
    (hids : ∀ i ∈ ids, i < L.length) (hl : ids.length ≤ S.max + 1) :
    ∃ x, t.extractSelection sig (.these ids) = .ok x ∧ x.Matches sig ∧ x.selection = ids ∧
      x.Carries (ids.filterMap (L[·]?)) := by
  have hc : ∀ j, ∃ s', ids.foldlM (fun (s : (S.C j).σ) i => do
        let e ← t.cell j i
        (S.C j).push s e) (S.C j).new = .ok s' ∧ (LS.law j).Inv (fun _ => False) s' ∧
      (LS.law j).abs s' = (ids.filterMap (L[·]?)).map (· j) := by
    intro j
    obtain ⟨n1, n2⟩ := (LS.law j).new_ok (fun _ => False)
    obtain ⟨s', a1, a2, a3⟩ := extractCol h j ids hids n1 (by rw [n2]; simpa using hl)
    exact ⟨s', a1, a2, by rw [a3, n2]; simp⟩
  choose g g1 g2 g3 using hc
  refine ⟨⟨EXTRACTION_FMT, sig.domain, sig.name, sig.version, sig.columns, ids, g⟩, ?_, ⟨rfl, rfl, rfl, rfl, rfl⟩, rfl,
    fun j => ⟨g2 j, g3 j⟩⟩
  unfold Tbl.extractSelection
  simp only [okBind]
  rw [seqFin_ok g1, okBind]

theorem extract_all {t : Tbl S} {L : List (Row S)} {d : Nat → Prop} (h : Aligned t L d) (sig : Sig) (hm : L.length ≤ S.max) :
    t.extractSelection sig .all = t.extractSelection sig (.these (liveIds 0 L.length t.free)) := by
  unfold Tbl.extractSelection
  simp only []
  rw [iterIds_ok h hm]

theorem WF.contains_view {t : Tbl S} {L : List (Row S)} (h : WF t L) (i : Nat) : t.contains i = (t.view i).isSome := by
  rw [Bool.eq_iff_iff, h.contains_iff, h.view]
  by_cases hf : i ∈ t.free
  · simp [hf]
  · simp [hf]

theorem Added.nil (t : Tbl S) : Added t t [] [] := ⟨rfl, List.Pairwise.nil, by simp, by simp, by simp, fun _ _ => rfl⟩

theorem Added.cons {t t1 t2 : Tbl S} {L L1 : List (Row S)} (h : WF t L) (h1 : WF t1 L1) {i : Nat} {r : Row S} {ids : List Nat}
    {rows : List (Row S)} (a : Added t t1 [i] [r]) (b : Added t1 t2 ids rows) : Added t t2 (i :: ids) (r :: rows) := by
  have hv : t1.view i = some r := a.new (i, r) (by simp)
  have hi : i ∉ ids := by
    intro hm
    have := b.fresh i hm
    rw [h1.contains_view, hv] at this
    simp at this
  have hfr : ∀ x ∈ ids, t.contains x = false := by
    intro x hx'
    have h2 := b.fresh x hx'
    have hne : x ≠ i := fun e => hi (e ▸ hx')
    rw [h1.contains_view, a.old x (by simpa using hne)] at h2
    rw [h.contains_view, h2]
  have hlow : ∀ k < i, t.contains k = true := by
    intro k hk
    rcases a.lowest i (by simp) k hk with h | h
    · exact h
    · simp at h; omega
  refine ⟨by simp [b.len], List.pairwise_cons.2 ⟨?_, b.asc⟩, ?_, ?_, ?_, ?_⟩
  · intro x hx
    rcases Nat.lt_trichotomy i x with h | h | h
    · exact h
    · subst h; exact absurd hx hi
    · have := hlow x h
      rw [hfr x hx] at this; cases this
  · intro x hx
    rcases List.mem_cons.1 hx with rfl | hx'
    · exact a.fresh _ (by simp)
    · exact hfr x hx'
  · intro x hx k hk
    rcases List.mem_cons.1 hx with rfl | hx'
    · exact Or.inl (hlow k hk)
    · rcases b.lowest x hx' k hk with h2 | h2
      · by_cases e : k = i
        · subst e; exact Or.inr (by simp)
        · rw [h1.contains_view, a.old k (by simpa using e), ← h.contains_view] at h2
          exact Or.inl h2
      · exact Or.inr (by simp [h2])
  · intro p hp
    rw [List.zip_cons_cons] at hp
    rcases List.mem_cons.1 hp with rfl | hp
    · simp only []; rw [b.old i hi, hv]
    · exact b.new p hp
  · intro x hx
    simp only [List.mem_cons, not_or] at hx
    rw [b.old x hx.2, a.old x (by simpa using hx.1)]

/-- What pushing rows one after another does to a lock. -/
structure Pushed (w w' : W S) (ids : List Nat) : Prop where
  changes : S.kind = .consistent → w'.changes = ids.foldl Select.push w.changes
  quiet : S.kind ≠ .consistent → w'.changes = w.changes
  pushed : S.kind = .consistent → w'.pushed = (w.pushed || !ids.isEmpty)
  delete : w'.delete = w.delete

theorem push_one {K : Type} [LinearOrder K] {key : Row S → K} {w : W S} (hk : S.kind ≠ .sorted) (hw : Reach key true w.tbl)
    (row : Row S) (hl : w.tbl.len ≤ S.max) :
    ∃ w' i, w.push row = .ok (w', i) ∧ Reach key true w'.tbl ∧ w'.tbl.len ≤ w.tbl.len + 1 ∧
      Added w.tbl w'.tbl [i] [row] ∧ Pushed w w' [i] := by
  obtain ⟨L, h⟩ := hw.wf
  have hev : ∀ i, Pushed w (w.eventAdd i) [i] := by
    intro i
    refine ⟨fun hc => ?_, fun hc => ?_, fun hc => ?_, ?_⟩ <;> unfold W.eventAdd <;> by_cases hk : S.kind = .consistent <;> simp_all
  have main : ∃ w' i, w.push row = .ok (w', i) ∧ w'.tbl.len ≤ w.tbl.len + 1 ∧ Pushed w w' [i] := by
    rcases h.push row with ⟨old, rest, t', hf, e1, e2, e3⟩ | ⟨t', hf, hle, e1, e2, e3⟩ | ⟨hf, hlen, e1⟩
    · refine ⟨_, old, e1, ?_, ?_⟩
      · simp only []; rw [e3.len, h.len]; simp
      · have := hev old; exact ⟨this.changes, this.quiet, this.pushed, this.delete⟩
    · refine ⟨_, L.length, e1, ?_, ?_⟩
      · simp only []; rw [e3.len, h.len]; simp
      · have := hev L.length; exact ⟨this.changes, this.quiet, this.pushed, this.delete⟩
    · rw [h.len] at hl; omega
  obtain ⟨w', i, e1, e2, e3⟩ := main
  have hr : Reach key true w'.tbl := by
    obtain ⟨v', f1, f2⟩ := push_lock w w' row i e1
    refine hw.step (op := .push row) hk (by simp [TOp.clears]) ?_
    simp only [TOp.run]
    rw [f1, okBind]
    simp only []
    rw [f2]
  obtain ⟨L', h'⟩ := hr.wf
  obtain ⟨c1, c2, c3, c4⟩ := C01_push_fresh w w' hw row i e1
  have hlow := (C02_push_takes_lowest w w' hw row i e1).2
  refine ⟨w', i, e1, hr, e2, ⟨rfl, by simp, by simpa using c1, ?_, ?_, ?_⟩, e3⟩
  · intro x hx k hk'
    simp only [List.mem_singleton] at hx
    subst hx
    exact Or.inl (hlow k hk')
  · intro p hp
    simp only [List.zip_cons_cons, List.zip_nil_right, List.mem_singleton] at hp
    subst hp
    simp only []
    have hi := (h'.contains_iff i).1 c2
    rw [h'.view, if_neg hi.2]
    rw [h'.getRow hi.1 hi.2] at c3
    injection c3 with c3
    rw [List.getElem?_eq_getElem hi.1, c3]
  · intro k hk'
    exact (c4 k (by simpa using hk')).2

theorem Pushed.cons {w w1 w2 : W S} {i : Nat} {ids : List Nat} (a : Pushed w w1 [i]) (b : Pushed w1 w2 ids) :
    Pushed w w2 (i :: ids) := by
  refine ⟨fun hk => ?_, fun hk => ?_, fun hk => ?_, ?_⟩
  · rw [b.changes hk, a.changes hk]; rfl
  · rw [b.quiet hk, a.quiet hk]
  · rw [b.pushed hk, a.pushed hk]; simp
  · rw [b.delete, a.delete]

theorem foldl_push (ids l : List Nat) : ids.foldl Select.push (.these l) = .these (l ++ ids) := by
  induction ids generalizing l with
  | nil => simp
  | cons i ids ih => rw [List.foldl_cons]; simp only [Select.push]; rw [ih]; simp

end Tables

section Universes
variable {T : Type} [DecidableEq T] {S : T → Schema} [LS : ∀ t, LawfulSchema (S t)]
variable {K : Type} [LinearOrder K] {key : (t : T) → Row (S t) → K}

theorem restorePush_ok {t : T} {fl : T → FlushLock} {own : List (Own S t)} {x : Extraction (S t)} {nt : Bool}
    (hk : (S t).kind ≠ .sorted) {pairs : List (Nat × Nat)} {rows : List (Row (S t))}
    (hrows : List.Forall₂ (fun (p : Nat × Nat) r => ∃ r0, x.rowNo p.2 = .ok r0 ∧ updateRow fl own r0 = .ok r) pairs rows)
    {w : W (S t)} (hw : Reach (key t) true w.tbl) (hl : w.tbl.len + rows.length ≤ (S t).max + 1) (rm : List (Nat × Nat)) :
    ∃ w' ids, restorePush fl own x nt pairs w rm = .ok (w', if nt then rm else rm ++ (pairs.map Prod.fst).zip ids) ∧
      Reach (key t) true w'.tbl ∧ w'.tbl.len ≤ w.tbl.len + rows.length ∧ Added w.tbl w'.tbl ids rows ∧ Pushed w w' ids := by
  induction hrows generalizing w rm with
  | nil =>
    refine ⟨w, [], ?_, hw, by simp, Added.nil _, ⟨fun _ => rfl, fun _ => rfl, fun _ => by simp, rfl⟩⟩
    unfold restorePush
    cases nt <;> simp
  | cons hp hrest ih =>
    rename_i p r pairs rows
    obtain ⟨old, k⟩ := p
    obtain ⟨r0, h1, h2⟩ := hp
    simp only [List.length_cons] at hl
    obtain ⟨w1, i, a1, a2, a3, a4, a5⟩ := push_one hk hw r (by omega)
    unfold restorePush
    simp only [] at h1
    rw [h1, okBind, h2, okBind, a1, okBind]
    simp only []
    obtain ⟨w2, ids, b1, b2, b3, b4, b5⟩ := ih a2 (by omega) (if nt then rm else rm ++ [(old, i)])
    obtain ⟨L, hL⟩ := hw.wf
    obtain ⟨L1, hL1⟩ := a2.wf
    refine ⟨w2, i :: ids, ?_, b2, by simp; omega, Added.cons hL hL1 a4 b4, a5.cons b5⟩
    rw [b1]
    cases nt <;> simp

theorem updateRow_ok {t : T} {fl : T → FlushLock} (own : List (Own S t)) (hnd : (own.map (·.col)).Nodup) (row : Row (S t))
    (h : ∀ o ∈ own, ((fl o.parent).remap (o.key (row o.col))).isSome = true) :
    ∃ row', updateRow fl own row = .ok row' ∧ Remapped fl own row row' := by
  unfold updateRow
  induction own generalizing row with
  | nil => exact ⟨row, rfl, by simp, fun _ _ => rfl⟩
  | cons o own ih =>
    rw [List.map_cons, List.nodup_cons] at hnd
    have h0 := h o (by simp)
    obtain ⟨new, hnew⟩ := Option.isSome_iff_exists.1 h0
    rw [List.foldlM_cons, hnew]
    simp only [okBind]
    have hne : ∀ o' ∈ own, o'.col ≠ o.col := by
      intro o' ho' e
      exact hnd.1 (List.mem_map.2 ⟨o', ho', e⟩)
    obtain ⟨row', a1, a2, a3⟩ := ih hnd.2 (Function.update row o.col (o.key.symm new)) (by
      intro o' ho'
      rw [Function.update_of_ne (hne o' ho')]
      exact h o' (by simp [ho']))
    refine ⟨row', a1, ?_, ?_⟩
    · intro o' ho'
      rcases List.mem_cons.1 ho' with rfl | ho'
      · rw [hnew, a3 o'.col hne, Function.update_self]
        simp
      · have := a2 o' ho'
        rw [Function.update_of_ne (hne o' ho')] at this
        exact this
    · intro j hj
      rw [a3 j (fun o' ho' => hj o' (by simp [ho'])), Function.update_of_ne (hj o (by simp)).symm]

theorem updateRow_err {t : T} {fl : T → FlushLock} (own : List (Own S t)) (hnd : (own.map (·.col)).Nodup) (row : Row (S t))
    (h : ∃ o ∈ own, (fl o.parent).remap (o.key (row o.col)) = none) : updateRow fl own row = .error .noRemapping := by
  unfold updateRow
  induction own generalizing row with
  | nil => obtain ⟨o, ho, -⟩ := h; cases ho
  | cons o own ih =>
    rw [List.map_cons, List.nodup_cons] at hnd
    rw [List.foldlM_cons]
    cases hnew : (fl o.parent).remap (o.key (row o.col)) with
    | none => rfl
    | some new =>
      simp only [okBind]
      have hne : ∀ o' ∈ own, o'.col ≠ o.col := by
        intro o' ho' e
        exact hnd.1 (List.mem_map.2 ⟨o', ho', e⟩)
      refine ih hnd.2 _ ?_
      obtain ⟨o', ho', hn⟩ := h
      rcases List.mem_cons.1 ho' with rfl | ho'
      · rw [hnew] at hn; cases hn
      · exact ⟨o', ho', by rw [Function.update_of_ne (hne o' ho')]; exact hn⟩

theorem metaLoop_ok (theirs mine : List ColumnMeta) (i : Nat) (m : Bool) (h : i + mine.length ≤ theirs.length) :
    metaLoop theirs mine i m = .ok (m || decide (mine ≠ (theirs.drop i).take mine.length)) := by
  induction mine generalizing i m with
  | nil => simp [metaLoop]
  | cons c mine ih =>
    simp only [List.length_cons] at h
    unfold metaLoop
    rw [checkedGet_ok (show i < theirs.length by omega), okBind, ih _ _ (by omega)]
    have : (theirs.drop i).take (mine.length + 1) = theirs[i] :: (theirs.drop (i + 1)).take mine.length := by
      rw [List.drop_eq_getElem_cons (show i < theirs.length by omega), List.take_succ_cons]
    rw [List.length_cons, this]
    congr 1
    cases m
    · by_cases e1 : c = theirs[i]
      · by_cases e2 : mine = (theirs.drop (i + 1)).take mine.length
        · simp [e1]
        · simp [e1]
      · simp [e1]
    · simp

theorem metaLoop_short (theirs mine : List ColumnMeta) (i : Nat) (m : Bool) (hi : i ≤ theirs.length)
    (h : theirs.length < i + mine.length) : metaLoop theirs mine i m = .error .vecOob := by
  induction mine generalizing i m with
  | nil => simp at h; omega
  | cons c mine ih =>
    simp only [List.length_cons] at h
    unfold metaLoop
    by_cases hlt : i < theirs.length
    · rw [checkedGet_ok hlt, okBind]
      exact ih _ _ (by omega) (by omega)
    · unfold checkedGet
      rw [List.getElem?_eq_none (by omega)]
      rfl

theorem validate_matches {S : Schema} {x : Extraction S} {sig : Sig} (h : x.Matches sig) : x.validate sig = .ok none := by
  unfold Extraction.validate
  rw [h.fmt, h.domain, h.name, h.version, h.columns]
  simp only [EXTRACTION_FMT, ne_eq, not_true_eq_false, if_false]
  rw [metaLoop_ok _ _ _ _ (by simp), okBind]
  simp

theorem lookup_zip_reverse {ids new : List Nat} (hnd : ids.Nodup) (hlen : new.length = ids.length) (k : Nat) (hk : k < ids.length) :
    (ids.zip new).reverse.lookup ids[k] = some (new[k]'(by omega)) := by
  induction ids generalizing new k with
  | nil => simp at hk
  | cons i ids ih =>
    cases new with
    | nil => simp at hlen
    | cons n new =>
      rw [List.nodup_cons] at hnd
      rw [List.zip_cons_cons, List.reverse_cons, List.lookup_append]
      cases k with
      | zero =>
        simp only [List.getElem_cons_zero]
        have : (ids.zip new).reverse.lookup i = none := by
          rw [List.lookup_eq_none_iff]
          rintro ⟨a, b⟩ hp
          have := (List.of_mem_zip (List.mem_reverse.1 hp)).1
          simp only [bne_iff_ne, ne_eq]
          rintro rfl
          exact hnd.1 this
        rw [this]
        simp
      | succ k =>
        have := ih hnd.2 (new := new) (by simpa using hlen) k (by simpa using hk)
        simp only [List.getElem_cons_succ]
        rw [this]
        simp

/-- Every foreign table can be read. -/
theorem peekAll_ok {t : T} {own : List (Own S t)} {env : Env S} (h : ∀ o ∈ own, env.writer o.parent = false) :
    own.forM (fun o => do let _ ← env.peek o.parent; Except.ok ()) = (Except.ok () : R Unit) := by
  induction own with
  | nil => rfl
  | cons o own ih =>
    have := ih (fun o' ho' => h o' (by simp [ho']))
    rw [List.forM_eq_forM] at this ⊢
    rw [List.forM_cons]
    unfold Env.peek at this ⊢
    rw [if_neg (by simp [h o (by simp)])]
    simp only [okBind]
    exact this

theorem yields_pairs {t : T} {fl : T → FlushLock} {own : List (Own S t)} {x : Extraction (S t)} {ids : List Nat}
    {rows rows' : List (Row (S t))} (hy : x.Yields ids rows) (hu : List.Forall₂ (fun r r' => updateRow fl own r = .ok r') rows rows') :
    List.Forall₂ (fun (p : Nat × Nat) r => ∃ r0, x.rowNo p.2 = .ok r0 ∧ updateRow fl own r0 = .ok r) x.selection.zipIdx rows' := by
  rw [List.forall₂_iff_get]
  have hlen := hu.length_eq
  refine ⟨by rw [hy.sel, List.length_zipIdx, ← hlen, hy.len], ?_⟩
  intro i h1 h2
  simp only [List.get_eq_getElem, List.getElem_zipIdx, Nat.zero_add]
  have hi : i < rows.length := by omega
  refine ⟨rows[i], hy.row i hi, ?_⟩
  have := (List.forall₂_iff_get.1 hu).2 i hi h2
  simpa using this

variable {cfg : Cfg S} {rank : T → Nat}

/-- Restoring into a consistent table: the rows are pushed, the table of new ids is stored (if anybody
can ask for it) and the trackers are told. -/
theorem restore_consistent {ev : Event} (hse : Searchable cfg) (hac : Acyclic cfg rank)
    (hr : ev.isRemoval = false) (hh : cfg.handlers[ev.id]? = some .null) {n : Nat} {t : T} (hn : rank t < n)
    (hk : (S t).kind = .consistent) {u : Uni S} (hu : Unlocked u.env) (hrd : Ready key cfg u.env.tbl)
    (hleak : (u.fl t).leaked = 0) {sig : Sig} {own : List (Own S t)} (hown : ∀ o ∈ own, o.parent ≠ t)
    {x : Extraction (S t)} (hx : x.Matches sig) {ids : List Nat} {rows rows' : List (Row (S t))} (hy : x.Yields ids rows)
    (hup : List.Forall₂ (fun r r' => updateRow u.fl own r = .ok r') rows rows')
    (hcap : (u.env.tbl t).len + rows.length ≤ (S t).max) :
    ∃ u' new, restore key cfg n t sig own x ev u = .ok (none, u') ∧ Unlocked u'.env ∧ Ready key cfg u'.env.tbl ∧
      Added (u.env.tbl t) (u'.env.tbl t) new rows' ∧ (∀ s, s ≠ t → u'.env.tbl s = u.env.tbl s) ∧
      (∀ s, s ≠ t → u'.fl s = u.fl s) ∧ (u'.fl t).leaked = 0 ∧ (u'.fl t).identity = (u.fl t).identity ∧
      (u'.fl t).remapped = (if ids = [] ∨ (u.fl t).identity = true then (u.fl t).remapped
        else if cfg.trackers t = [] then [] else ids.zip new) ∧
      ∃ log, u'.env.log = u.env.log ++ log ∧ (ids = [] → log = []) ∧
        (ids ≠ [] → List.Forall₂ (fun (o : Observer) (c : Call S) => c.name = o.name ∧ c.event = ev ∧
          SelPerm c.sel (.these new) ∧ (o.sort = true → SelSorted c.sel) ∧ c.seen = u'.env.tbl)
          (observers ev (cfg.trackers t)) (log.filter (fun c => c.table = t))) := by
  obtain ⟨env1, a1, a2, a3, a4⟩ := unlocked_lock hu t
  have hlen := hup.length_eq
  obtain ⟨w', new, b1, b2, b3, b4, b5⟩ := restorePush_ok (key := key) (nt := (cfg.trackers t).isEmpty) (by simp [hk])
    (yields_pairs hy hup) (w := W.lock (u.env.tbl t)) (hrd.reach t) (by show (u.env.tbl t).len + _ ≤ _; omega) []
  have hb : ({ u with env := env1 } : Uni S).fl = u.fl := rfl
  have hch : w'.changes = .these new := by rw [b5.changes hk]; simp [W.lock, foldl_push]
  have hpd : (w'.pushed && w'.delete) = false := by rw [b5.delete]; simp [W.lock]
  have hnl : new.length = ids.length := by rw [b4.len, ← hlen, hy.len]
  have hsel : x.selection.zipIdx.map Prod.fst = ids := by rw [List.zipIdx_map_fst, hy.sel]
  have hready : Ready key cfg (Function.update env1.tbl t w'.tbl) := by
    rw [a3]
    refine ⟨?_, ?_, ?_⟩
    · intro s
      by_cases e : s = t
      · subst e; rw [Function.update_self]; exact b2
      · rw [Function.update_of_ne e]; exact hrd.reach s
    · intro s
      by_cases e : s = t
      · subst e; rw [Function.update_self]
        have : w'.tbl.len ≤ (u.env.tbl s).len + rows'.length := b3
        omega
      · rw [Function.update_of_ne e]; exact hrd.room s
    · intro p fk hfk hb L
      have hne : fk.child ≠ t := by
        intro e
        have := hse.sorted p fk hfk hb
        rw [e, hk] at this; cases this
      rw [Function.update_of_ne hne]
      exact hrd.inOrder p fk hfk hb L
  have hrun : ∀ (f : FlushLock) (env' : Env S), (u.fl t).setRemapping ((if (cfg.trackers t).isEmpty = true then [] else ids.zip new)) = .ok f →
      flush cfg n t w' ev env1 = .ok env' → ids ≠ [] →
      restore key cfg n t sig own x ev u = .ok (none, ⟨env', Function.update u.fl t f⟩) := by
    intro f env' hf hfl hne
    unfold restore
    rw [a1, okBind]
    simp only []
    unfold restoreExtract
    rw [validate_matches hx, okBind]
    simp only []
    rw [peekAll_ok (by intro o ho; rw [a2.2]; simp [hown o ho]), okBind]
    unfold mergeExtract
    rw [if_neg (by simp [hk]), b1, okBind]
    simp only [List.nil_append]
    rw [hsel, hf, hch]
    have : (Select.these new).isEmpty = false := by
      cases new with
      | nil => simp at hnl; exact absurd (List.eq_nil_of_length_eq_zero hnl.symm) hne
      | cons => rfl
    rw [this]
    simp only [okBind, Bool.false_eq_true, if_false]
    rw [hfl]
    rfl
  by_cases he : ids = []
  · subst he
    have hn0 : new = [] := List.eq_nil_of_length_eq_zero (by simpa using hnl)
    subst hn0
    refine ⟨⟨env1.unlock t w'.tbl, u.fl⟩, [], ?_, a2.unlock _, by rw [unlock_tbl]; exact hready, ?_, ?_, fun _ _ => rfl, hleak, rfl, by simp,
      [], by simp [Env.unlock, Env.put, a4], fun _ => rfl, fun h => absurd rfl h⟩
    · unfold restore
      rw [a1, okBind]
      simp only []
      unfold restoreExtract
      rw [validate_matches hx, okBind]
      simp only []
      rw [peekAll_ok (by intro o ho; rw [a2.2]; simp [hown o ho]), okBind]
      unfold mergeExtract
      rw [if_neg (by simp [hk]), b1, okBind]
      simp only []
      have : w'.changes.isEmpty = true := by rw [hch]; rfl
      rw [this]
      simp only [if_true]
      unfold W.drop
      rw [if_neg (by simp [this]), okBind]
    · simp only [unlock_tbl, Function.update_self]; exact b4
    · intro s hs
      simp only [unlock_tbl]
      rw [Function.update_of_ne hs, a3]
  · have hne : w'.changes.isEmpty = false := by
      rw [hch]
      cases new with
      | nil => simp at hnl; exact absurd (List.eq_nil_of_length_eq_zero hnl.symm) he
      | cons => rfl
    obtain ⟨env', c1, c2, c3, -, c4⟩ := flush_null hse hac hr hh hn a2 hready hpd
    obtain ⟨log, l1, l2, -⟩ := (c4 hne).log
    obtain ⟨f, f1, f2, f3, f4⟩ : ∃ f, (u.fl t).setRemapping (if (cfg.trackers t).isEmpty = true then [] else ids.zip new) = .ok f ∧
        f.leaked = 0 ∧ f.identity = (u.fl t).identity ∧
        f.remapped = (if ids = [] ∨ (u.fl t).identity = true then (u.fl t).remapped
          else if cfg.trackers t = [] then [] else ids.zip new) := by
      unfold FlushLock.setRemapping
      rw [if_neg (by simp [hleak])]
      by_cases hid : (u.fl t).identity = true
      · rw [if_pos hid]; exact ⟨_, rfl, hleak, rfl, by simp [hid]⟩
      · rw [if_neg hid]
        refine ⟨_, rfl, hleak, rfl, ?_⟩
        simp [he, hid, List.isEmpty_iff]
    refine ⟨⟨env', Function.update u.fl t f⟩, new, hrun f env' f1 c1 he, c2, by rw [c3]; exact hready, ?_, ?_, ?_, ?_, ?_, ?_, log, ?_, ?_, ?_⟩
    · simp only [c3, Function.update_self]; exact b4
    · intro s hs
      simp only [c3]
      rw [Function.update_of_ne hs, a3]
    · intro s hs
      simp only []
      rw [Function.update_of_ne hs]
    · simp [f2]
    · simp [f3]
    · simp only [Function.update_self]; exact f4
    · simp only []; rw [l1]; simp [Env.unlock, Env.put, a4]
    · exact fun h => absurd h he
    · intro _
      refine l2.imp ?_
      rintro o c ⟨c1', c2', c3', c4', c5'⟩
      refine ⟨c1', c2', by rw [← hch]; exact c3', c4', ?_⟩
      rw [c5', c3, unlock_tbl]

/-- Restoring into an append, bag or list table: rows are pushed; there is nobody to tell. -/
theorem restore_quiet (ev : Event) (n : Nat) {t : T} (hk : (S t).kind ≠ .consistent) (hk' : (S t).kind ≠ .sorted)
    {u : Uni S} (hu : Unlocked u.env) (hrd : Reach (key t) true (u.env.tbl t))
    {sig : Sig} {own : List (Own S t)} (hown : ∀ o ∈ own, o.parent ≠ t)
    {x : Extraction (S t)} (hx : x.Matches sig) {ids : List Nat} {rows rows' : List (Row (S t))} (hy : x.Yields ids rows)
    (hup : List.Forall₂ (fun r r' => updateRow u.fl own r = .ok r') rows rows')
    (hcap : (u.env.tbl t).len + rows.length ≤ (S t).max + 1) :
    ∃ u' new, restore key cfg n t sig own x ev u = .ok (none, u') ∧ Unlocked u'.env ∧ Reach (key t) true (u'.env.tbl t) ∧
      Added (u.env.tbl t) (u'.env.tbl t) new rows' ∧ (∀ s, s ≠ t → u'.env.tbl s = u.env.tbl s) ∧
      u'.fl = u.fl ∧ u'.env.log = u.env.log ∧ (u'.env.tbl t).len ≤ (u.env.tbl t).len + rows.length := by
  obtain ⟨env1, a1, a2, a3, a4⟩ := unlocked_lock hu t
  have hlen := hup.length_eq
  obtain ⟨w', new, b1, b2, b3, b4, b5⟩ := restorePush_ok (key := key) (nt := (cfg.trackers t).isEmpty) hk'
    (yields_pairs hy hup) (w := W.lock (u.env.tbl t)) hrd (by show (u.env.tbl t).len + _ ≤ _; omega) []
  have he : w'.changes.isEmpty = true := by rw [b5.quiet hk]; rfl
  refine ⟨⟨env1.unlock t w'.tbl, u.fl⟩, new, ?_, a2.unlock _, ?_, ?_, ?_, rfl, ?_, ?_⟩
  · unfold restore
    rw [a1, okBind]
    simp only []
    unfold restoreExtract
    rw [validate_matches hx, okBind]
    simp only []
    rw [peekAll_ok (by intro o ho; rw [a2.2]; simp [hown o ho]), okBind]
    unfold mergeExtract
    rw [if_neg hk', b1, okBind]
    simp only [he, if_true]
    unfold W.drop
    rw [if_neg (by simp [he]), okBind]
  · simp only [unlock_tbl, Function.update_self]; exact b2
  · simp only [unlock_tbl, Function.update_self]; exact b4
  · intro s hs
    simp only [unlock_tbl]
    rw [Function.update_of_ne hs, a3]
  · simp [Env.unlock, Env.put, a4]
  · simp only [unlock_tbl, Function.update_self]; rw [hlen]; exact b3

/-- Restoring into a sorted table (which cannot have trackers): the rows are merged as extracted. -/
theorem restore_sorted (ev : Event) (n : Nat) {t : T} (hk : (S t).kind = .sorted) (htr : cfg.trackers t = [])
    {u : Uni S} (hu : Unlocked u.env) (hrd : Reach (key t) true (u.env.tbl t))
    {sig : Sig} {own : List (Own S t)} (hown : ∀ o ∈ own, o.parent ≠ t)
    {x : Extraction (S t)} (hx : x.Matches sig) {ids : List Nat} {rows L : List (Row (S t))} (hy : x.Yields ids rows)
    (hL : Holds (u.env.tbl t) L) (hcap : L.length + rows.length ≤ (S t).max) :
    ∃ u' L', restore key cfg n t sig own x ev u = .ok (none, u') ∧ Unlocked u'.env ∧ Reach (key t) true (u'.env.tbl t) ∧
      Holds (u'.env.tbl t) L' ∧ L'.Perm (L ++ rows) ∧ (SortedBy (key t) L → SortedBy (key t) L') ∧
      (∀ s, s ≠ t → u'.env.tbl s = u.env.tbl s) ∧ u'.fl = u.fl ∧ u'.env.log = u.env.log ∧ L' = mergeSpec (key t) L (sortRows (key t) rows) := by
  obtain ⟨env1, a1, a2, a3, a4⟩ := unlocked_lock hu t
  have hperm : (sortRows (key t) rows).Perm rows := List.mergeSort_perm _ _
  have hrows : (List.range x.selection.length).mapM x.rowNo = .ok rows := by
    apply mapM_ok
    · rw [hy.sel, hy.len]; simp
    · intro k h1 h2
      simp only [List.getElem_range]
      exact hy.row k h2
  rcases merge_cases (u.env.tbl t) hrd hk L (sortRows (key t) rows) hL with ⟨t1, log1, e1, e2, -⟩ | ⟨-, -, e3⟩
  swap
  · rw [hperm.length_eq] at e3; omega
  have hm : (u.env.tbl t).mergeVec (key t) rows = .ok t1 := by
    unfold Tbl.mergeVec
    rw [e1, okBind]
  refine ⟨⟨env1.unlock t t1, u.fl⟩, mergeSpec (key t) L (sortRows (key t) rows), ?_, a2.unlock _, ?_, ?_, ?_, ?_, ?_, rfl, ?_, rfl⟩
  · unfold restore
    rw [a1, okBind]
    simp only []
    unfold restoreExtract
    rw [validate_matches hx, okBind]
    simp only []
    rw [peekAll_ok (by intro o ho; rw [a2.2]; simp [hown o ho]), okBind]
    unfold mergeExtract
    rw [if_pos hk, if_pos (by simp [htr]), hrows, okBind]
    have : (W.lock (u.env.tbl t)).tbl = u.env.tbl t := rfl
    rw [this, hm, okBind]
    simp only [okBind]
    have : (W.lock (u.env.tbl t)).changes.isEmpty = true := rfl
    simp only [this, if_true]
    unfold W.drop
    rw [if_neg (by simp [hk]), okBind]
  · simp only [unlock_tbl, Function.update_self]
    refine hrd.step (op := .merge (sortRows (key t) rows)) hk (by simp [TOp.clears]) ?_
    simp only [TOp.run]
    rw [e1, okBind]
  · simp only [unlock_tbl, Function.update_self]; exact e2
  · exact (mergeSpec_perm _ _ _).trans (List.Perm.append_left L hperm)
  · intro hs; exact mergeSpec_sorted _ _ _ hs (sortRows_sorted rows)
  · intro s hs
    simp only [unlock_tbl]
    rw [Function.update_of_ne hs, a3]
  · simp [Env.unlock, Env.put, a4]

/-- Ascending ids of which every lower one is also listed are `0, 1, …`. -/
theorem asc_initial {ids : List Nat} (h : ids.Pairwise (· < ·)) (hl : ∀ i ∈ ids, ∀ k < i, k ∈ ids) :
    ids = List.range ids.length := by
  have hnd : ids.Nodup := h.imp (fun h => Nat.ne_of_lt h)
  have hmem : ∀ i ∈ ids, i < ids.length := by
    intro i hi
    have hsub : List.range (i + 1) ⊆ ids := by
      intro k hk
      rw [List.mem_range] at hk
      rcases Nat.lt_or_ge k i with hk' | hk'
      · exact hl i hi k hk'
      · have : k = i := by omega
        subst this; exact hi
    have := (List.nodup_range (n := i + 1)).length_le_of_subset hsub
    rw [List.length_range] at this; omega
  have hperm : ids.Perm (List.range ids.length) := by
    refine List.Subperm.perm_of_length_le ?_ (by simp)
    refine List.subperm_of_subset hnd ?_
    intro i hi
    rw [List.mem_range]; exact hmem i hi
  exact hperm.eq_of_pairwise (le := (· < ·)) (by intro a b _ _ h1 h2; omega) h List.pairwise_lt_range

end Universes
end V11
