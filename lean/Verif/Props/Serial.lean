import Verif.Lemmas.Serial
import Verif.Props.DemoUni

/-!
# Serialisation, extraction, restoring: C34–C38

`serCol`/`deCol` are `Serialize`/`Deserialize` of a column. `restore key cfg n t sig own x ev u` is
`t::write(universe).restore_extract(universe, x, ev)` with a stack for `n` nested flushes; its value is
`none` for `Ok(())` and `some e` for `Err(e)`. `own` lists the table's `#[foreign_auto]` columns.
-/

set_option linter.unusedSimpArgs false
set_option linter.unusedSectionVars false
set_option linter.unusedVariables false

namespace V11

/-! ## C34 -/

section Columns
variable {E : Type} {max : Nat} {C : TCol E} [LC : LawfulCol max C]

/-- C34: any sequence of elements that fits the row-id type is read back as a column with exactly these
elements, which serialises to the same sequence; an index finds exactly the positions holding a value
(below the maximal id, see C12). -/
theorem C34_deserialise (l : List E) (hl : l.length ≤ max + 1) :
    ∃ s, deCol C l = .ok s ∧ serCol C s = .ok l ∧ C.len s = l.length ∧ C.toList s = l ∧
      (∀ i (h : i < l.length), C.index s i = .ok l[i]) ∧
      ∀ find, C.find = some find → ∀ e, ∃ out, find s e = .ok out ∧ out.Pairwise (· < ·) ∧
        ∀ i, i ∈ out ↔ i < max ∧ l[i]? = some e := by
  obtain ⟨s, a1, a2, a3⟩ := deCol_ok (max := max) (C := C) hl
  refine ⟨s, a1, by rw [serCol_ok a2, a3], by rw [LC.len_ok, a3], by rw [LC.toList_ok a2, a3], ?_, ?_⟩
  · intro i h
    rw [LC.index_ok i a2 (by rw [a3]; exact h)]
    simp [a3]
  · intro f hf e
    obtain ⟨out, b1, b2, b3⟩ := LC.find_ok hf e a2
    refine ⟨out, b1, b2, ?_⟩
    intro i
    rw [b3, a3]; simp

/-- C34: a sequence that does not fit the row-id type makes an indexed column panic. -/
theorem C34_deserialise_too_long [LinearOrder E] (D : TCol E) [LD : LawfulCol max D] (l : List E) (hl : max + 1 < l.length) :
    deCol (btreeIndex max D) l = .error .idxOverflow := by
  have hsplit : l = l.take (max + 1) ++ l.drop (max + 1) := (List.take_append_drop _ _).symm
  obtain ⟨n1, n2⟩ := (indexLawful (max := max) (C := D)).new_ok (fun _ => False)
  obtain ⟨s, a1, a2, a3⟩ := pushes_ok (max := max) (C := btreeIndex max D) (l.take (max + 1)) n1 (by rw [n2]; simp)
  unfold deCol
  rw [hsplit, List.foldlM_append, a1, okBind]
  cases hd : l.drop (max + 1) with
  | nil =>
    have := congrArg List.length hd
    simp at this; omega
  | cons e rest =>
    rw [List.foldlM_cons]
    have hlen : (btreeIndex max D).len s = max + 1 := by
      rw [(indexLawful (max := max) (C := D)).len_ok, a3, n2]; simp; omega
    have : (btreeIndex max D).push s e = .error .idxOverflow := by
      rcases (indexLawful (max := max) (C := D)).push_full e a2 (by rw [a3, n2]; simp; omega) with h | ⟨s', h, -⟩
      · exact h
      · exfalso
        have hlen' : D.len s.inner = max + 1 := hlen
        revert h
        show (do
          let inner ← D.push s.inner e
          let ni ← fromUsize max (D.len s.inner)
          .ok { inner := inner, index := BSet.insert (toLex (e, ni)) s.index } : R (IndexState E D)) = .ok s' → False
        rw [hlen']
        cases D.push s.inner e with
        | error p => intro h; cases h
        | ok inner =>
          rw [okBind]
          unfold fromUsize
          rw [if_neg (by omega), errBind]
          intro h; cases h
    rw [this, errBind]

end Columns

section OneTable
variable {S : Schema} [LS : LawfulSchema S] {K : Type} [LinearOrder K] {key : Row S → K} {c : Bool}

/-- C34: each column of a table, whatever was done to the table, is written as its cells in id order, and
reading that back gives a column with the same cells. -/
theorem C34_table_columns_round_trip (t : Tbl S) (ht : Reach key c t) (j : Fin (S.n + 1)) :
    ∃ l s, serCol (S.C j) (t.cols j) = .ok l ∧ l.length = t.len ∧ (∀ i (h : i < l.length), t.cell j i = .ok l[i]) ∧
      deCol (S.C j) l = .ok s ∧ serCol (S.C j) s = .ok l ∧ (S.C j).len s = (S.C j).len (t.cols j) ∧
      ∀ i, i < t.len → (S.C j).index s i = (S.C j).index (t.cols j) i := by
  obtain ⟨L, d, h⟩ := ht.aligned
  have hl : (L.map (· j)).length ≤ S.max + 1 := by simpa using h.rep.le
  obtain ⟨s, a1, a2, a3, -, a5, -⟩ := C34_deserialise (max := S.max) (C := S.C j) (L.map (· j)) hl
  refine ⟨L.map (· j), s, ?_, ?_, ?_, a1, a2, ?_, ?_⟩
  · rw [serCol_ok (h.rep.inv j), h.rep.abs]
  · rw [h.rep.len]; simp
  · intro i hi
    rw [h.cell j (by simpa using hi)]; simp
  · rw [a3, h.rep.colLen]; simp
  · intro i hi
    rw [h.rep.len] at hi
    rw [a5 i (by simpa using hi), (LS.law j).index_ok i (h.rep.inv j) (by rw [h.rep.abs]; simpa using hi)]
    simp [h.rep.abs]

/-- A column of booleans with a pending cached write, and an index, round-trip. -/
example : (do
    let s ← boolCol.push boolCol.new true
    let s ← boolCol.push s false
    let (_, put) ← boolCol.indexMut s 1
    serCol boolCol (put true)) = .ok [true, true] ∧
    (do
      let s ← deCol (btreeIndex 255 (vecCol Nat)) [5, 7, 5]
      btreeFind 255 (vecCol Nat) s 5) = .ok [0, 2] := by decide

/-! ## C35: extracting -/

/-- C35: extracting live rows succeeds; the extraction describes the table and yields the rows at those
ids, in the order of the selection. -/
theorem C35_extract_these (t : Tbl S) (ht : Reach key true t) (sig : Sig) (ids : List Nat)
    (hids : ∀ i ∈ ids, t.contains i = true) (hl : ids.length ≤ S.max + 1) :
    ∃ x rows, t.extractSelection sig (.these ids) = .ok x ∧ x.Matches sig ∧ x.Yields ids rows ∧
      rows.map some = ids.map t.view := by
  obtain ⟨L, h⟩ := ht.wf
  have hlt : ∀ i ∈ ids, i < L.length := fun i hi => ((h.contains_iff i).1 (hids i hi)).1
  obtain ⟨x, a1, a2, a3, a4⟩ := extract_these h.aligned sig ids hlt hl
  have hmap : (ids.filterMap (L[·]?)).map some = ids.map t.view := by
    clear a1 a2 a3 a4 hl
    induction ids with
    | nil => rfl
    | cons i ids ih =>
      have hi := (h.contains_iff i).1 (hids i (by simp))
      simp only [List.map_cons]
      rw [← ih (fun x hx => hids x (by simp [hx])) (fun x hx => hlt x (by simp [hx])), h.view, if_neg hi.2,
        List.getElem?_eq_getElem hi.1, List.filterMap_cons, List.getElem?_eq_getElem hi.1]
      rfl
  refine ⟨x, _, a1, a2, ⟨a3, ?_, fun k hk => a4.rowNo k hk⟩, hmap⟩
  have := congrArg List.length hmap
  simpa using this

/-- C35: extracting everything yields exactly the live rows in ascending id order (on a table that does not
use the very last id). -/
theorem C35_extract_all (t : Tbl S) (ht : Reach key true t) (sig : Sig) (hl : t.len ≤ S.max) :
    ∃ x ids rows, t.extractSelection sig .all = .ok x ∧ x.Matches sig ∧ x.Yields ids rows ∧
      ids.Pairwise (· < ·) ∧ (∀ i, i ∈ ids ↔ t.contains i = true) ∧ rows.map some = ids.map t.view := by
  obtain ⟨L, h⟩ := ht.wf
  rw [h.len] at hl
  have hmem : ∀ i, i ∈ liveIds 0 L.length t.free ↔ t.contains i = true := by
    intro i
    rw [h.contains_iff]
    simp [liveIds, List.mem_range']
  have hlen : (liveIds 0 L.length t.free).length ≤ L.length := by
    unfold liveIds
    refine (List.length_filter_le _ _).trans ?_
    simp
  obtain ⟨x, rows, a1, a2, a3, a4⟩ := C35_extract_these t ht sig _ (fun i hi => (hmem i).1 hi) (by omega)
  refine ⟨x, _, rows, ?_, a2, a3, ?_, hmem, a4⟩
  · rw [extract_all h.aligned sig hl, a1]
  · unfold liveIds
    exact List.Pairwise.filter _ (List.pairwise_lt_range' 1)

end OneTable

section Universes
variable {T : Type} [DecidableEq T] {S : T → Schema} [LS : ∀ t, LawfulSchema (S t)]
variable {K : Type} [LinearOrder K] {key : (t : T) → Row (S t) → K} {cfg : Cfg S} {rank : T → Nat}

theorem updateRows_nil {t : T} (fl : T → FlushLock) (rows : List (Row (S t))) :
    List.Forall₂ (fun r r' => updateRow fl [] r = .ok r') rows rows := by
  induction rows with
  | nil => exact List.Forall₂.nil
  | cons r rows ih => exact List.Forall₂.cons rfl ih

/-- C35: restoring an extraction into a consistent table without foreign columns puts its rows at the
lowest unused ids, in order, changes no other row and no other table, and the trackers are told exactly the
new ids. -/
theorem C35_restore_consistent {ev : Event} (hse : Searchable cfg) (hac : Acyclic cfg rank)
    (hr : ev.isRemoval = false) (hh : cfg.handlers[ev.id]? = some .null) {n : Nat} {t : T} (hn : rank t < n)
    (hk : (S t).kind = .consistent) {u : Uni S} (hu : Unlocked u.env) (hrd : Ready key cfg u.env.tbl)
    (hleak : (u.fl t).leaked = 0) {sig : Sig} {x : Extraction (S t)} (hx : x.Matches sig) {ids : List Nat}
    {rows : List (Row (S t))} (hy : x.Yields ids rows) (hcap : (u.env.tbl t).len + rows.length ≤ (S t).max) :
    ∃ u' new log, restore key cfg n t sig [] x ev u = .ok (none, u') ∧ Unlocked u'.env ∧ Ready key cfg u'.env.tbl ∧
      Added (u.env.tbl t) (u'.env.tbl t) new rows ∧ (∀ s, s ≠ t → u'.env.tbl s = u.env.tbl s) ∧
      u'.env.log = u.env.log ++ log ∧ (ids = [] → log = []) ∧
      (ids ≠ [] → List.Forall₂ (fun (o : Observer) (c : Call S) => c.name = o.name ∧ c.event = ev ∧
          SelPerm c.sel (.these new) ∧ (o.sort = true → SelSorted c.sel) ∧ c.seen = u'.env.tbl)
          (observers ev (cfg.trackers t)) (log.filter (fun c => c.table = t))) := by
  obtain ⟨u', new, a1, a2, a3, a4, a5, -, -, -, -, log, b1, b2, b3⟩ :=
    restore_consistent hse hac hr hh hn hk hu hrd hleak (own := []) (by simp) hx hy (updateRows_nil u.fl rows) hcap
  exact ⟨u', new, log, a1, a2, a3, a4, a5, b1, b2, b3⟩

/-- New ids in an empty table are `0, 1, …`. -/
theorem Added.ofEmpty {t : T} {x x' : Tbl (S t)} {ids : List Nat} {rows : List (Row (S t))} (h : Added x x' ids rows)
    (he : ∀ i, x.contains i = false) : ids = List.range rows.length := by
  rw [← h.len]
  refine asc_initial h.asc ?_
  intro i hi k hk
  rcases h.lowest i hi k hk with h1 | h1
  · rw [he k] at h1; cases h1
  · exact h1

/-- C35: extracting live rows of a consistent table in one universe and restoring them into the empty table
of another reproduces them as rows `0..n`, in the order of the selection. -/
theorem C35_round_trip {ev : Event} (hse : Searchable cfg) (hac : Acyclic cfg rank)
    (hr : ev.isRemoval = false) (hh : cfg.handlers[ev.id]? = some .null) {n : Nat} {t : T} (hn : rank t < n)
    (hk : (S t).kind = .consistent) {u : Uni S} (hu : Unlocked u.env) (hrd : Ready key cfg u.env.tbl)
    (hleak : (u.fl t).leaked = 0) (hempty : u.env.tbl t = Tbl.new) (sig : Sig)
    (src : Tbl (S t)) (hsrc : Reach (key t) true src) (ids : List Nat) (hids : ∀ i ∈ ids, src.contains i = true)
    (hl : ids.length ≤ (S t).max) :
    ∃ x u', src.extractSelection sig (.these ids) = .ok x ∧ restore key cfg n t sig [] x ev u = .ok (none, u') ∧
      (∀ k (h : k < ids.length), (u'.env.tbl t).view k = src.view ids[k]) ∧
      ∀ k, ids.length ≤ k → (u'.env.tbl t).contains k = false := by
  obtain ⟨x, rows, a1, a2, a3, a4⟩ := C35_extract_these src hsrc sig ids hids (by omega)
  have hnew : (Tbl.new : Tbl (S t)).len = 0 := WF.new.len
  obtain ⟨u', new, log, b1, b2, b3, b4, b5, -⟩ := C35_restore_consistent hse hac hr hh hn hk hu hrd hleak a2 a3
    (by rw [hempty, hnew, a3.len]; omega)
  have he : ∀ i, (u.env.tbl t).contains i = false := by
    intro i
    rw [hempty, ← Bool.not_eq_true, WF.new.contains_iff]; simp
  have hids' := b4.ofEmpty he
  refine ⟨x, u', a1, b1, ?_, ?_⟩
  · intro k hk
    have hk' : k < rows.length := by rw [a3.len]; exact hk
    have := b4.new (k, rows[k]) (by
      rw [hids', List.mem_iff_getElem]
      exact ⟨k, by simp; exact hk', by simp⟩)
    simp only [] at this
    rw [this]
    have h2 := congrArg (·[k]?) a4
    simp only [List.getElem?_map, List.getElem?_eq_getElem hk', List.getElem?_eq_getElem hk] at h2
    simpa using h2
  · intro k hk
    obtain ⟨L', h'⟩ := (b3.reach t).wf
    rw [h'.contains_view, b4.old k (by rw [hids', List.mem_range, a3.len]; omega), hempty, WF.new.view]
    simp [Tbl.new]

/-- C35: the same for append, bag and list tables. -/
theorem C35_restore_plain (ev : Event) (n : Nat) {t : T} (hk : (S t).kind ≠ .consistent) (hk' : (S t).kind ≠ .sorted)
    {u : Uni S} (hu : Unlocked u.env) (hrd : Reach (key t) true (u.env.tbl t)) {sig : Sig}
    {x : Extraction (S t)} (hx : x.Matches sig) {ids : List Nat} {rows : List (Row (S t))} (hy : x.Yields ids rows)
    (hcap : (u.env.tbl t).len + rows.length ≤ (S t).max + 1) :
    ∃ u' new, restore key cfg n t sig [] x ev u = .ok (none, u') ∧ Unlocked u'.env ∧ Reach (key t) true (u'.env.tbl t) ∧
      Added (u.env.tbl t) (u'.env.tbl t) new rows ∧ (∀ s, s ≠ t → u'.env.tbl s = u.env.tbl s) := by
  obtain ⟨u', new, a1, a2, a3, a4, a5, -, -⟩ :=
    restore_quiet (cfg := cfg) ev n hk hk' hu hrd (own := []) (by simp) hx hy (updateRows_nil u.fl rows) hcap
  exact ⟨u', new, a1, a2, a3, a4, a5⟩

/-- C35: a sorted table gains exactly the extracted rows and stays sorted. -/
theorem C35_restore_sorted (ev : Event) (n : Nat) {t : T} (hk : (S t).kind = .sorted) (htr : cfg.trackers t = [])
    {u : Uni S} (hu : Unlocked u.env) (hrd : Reach (key t) true (u.env.tbl t)) {sig : Sig}
    {x : Extraction (S t)} (hx : x.Matches sig) {ids : List Nat} {rows L : List (Row (S t))} (hy : x.Yields ids rows)
    (hL : Holds (u.env.tbl t) L) (hs : SortedBy (key t) L) (hcap : L.length + rows.length ≤ (S t).max) :
    ∃ u' L', restore key cfg n t sig [] x ev u = .ok (none, u') ∧ Unlocked u'.env ∧
      Holds (u'.env.tbl t) L' ∧ L'.Perm (L ++ rows) ∧ SortedBy (key t) L' ∧ (∀ s, s ≠ t → u'.env.tbl s = u.env.tbl s) := by
  obtain ⟨u', L', a1, a2, a3, a4, a5, a6, a7, -⟩ := restore_sorted ev n hk htr hu hrd (own := []) (by simp) hx hy hL hcap
  exact ⟨u', L', a1, a2, a4, a5, a6 hs, a7⟩

/-! ## C36 -/

theorem updateRows_ok {t : T} {fl : T → FlushLock} {own : List (Own S t)} (hnd : (own.map (·.col)).Nodup)
    (rows : List (Row (S t))) (h : ∀ r ∈ rows, ∀ o ∈ own, ((fl o.parent).remap (o.key (r o.col))).isSome = true) :
    ∃ rows', List.Forall₂ (fun r r' => updateRow fl own r = .ok r') rows rows' ∧
      List.Forall₂ (Remapped fl own) rows rows' := by
  induction rows with
  | nil => exact ⟨[], List.Forall₂.nil, List.Forall₂.nil⟩
  | cons r rows ih =>
    obtain ⟨rows', h1, h2⟩ := ih (fun r hr => h r (by simp [hr]))
    obtain ⟨r', g1, g2⟩ := updateRow_ok own hnd r (h r (by simp))
    exact ⟨r' :: rows', List.Forall₂.cons g1 h1, List.Forall₂.cons g2 h2⟩

/-- C36: rows restored into a consistent table reference the parents' new ids, everything else in them is
as extracted. -/
theorem C36_restored_keys_follow_remapping {ev : Event} (hse : Searchable cfg) (hac : Acyclic cfg rank)
    (hr : ev.isRemoval = false) (hh : cfg.handlers[ev.id]? = some .null) {n : Nat} {t : T} (hn : rank t < n)
    (hk : (S t).kind = .consistent) {u : Uni S} (hu : Unlocked u.env) (hrd : Ready key cfg u.env.tbl)
    (hleak : (u.fl t).leaked = 0) {sig : Sig} {own : List (Own S t)} (hown : ∀ o ∈ own, o.parent ≠ t)
    (hnd : (own.map (·.col)).Nodup) {x : Extraction (S t)} (hx : x.Matches sig) {ids : List Nat} {rows : List (Row (S t))}
    (hy : x.Yields ids rows) (hmap : ∀ r ∈ rows, ∀ o ∈ own, ((u.fl o.parent).remap (o.key (r o.col))).isSome = true)
    (hcap : (u.env.tbl t).len + rows.length ≤ (S t).max) :
    ∃ u' new rows', restore key cfg n t sig own x ev u = .ok (none, u') ∧ Unlocked u'.env ∧
      List.Forall₂ (Remapped u.fl own) rows rows' ∧ Added (u.env.tbl t) (u'.env.tbl t) new rows' ∧
      ∀ s, s ≠ t → u'.env.tbl s = u.env.tbl s := by
  obtain ⟨rows', h1, h2⟩ := updateRows_ok hnd rows hmap
  obtain ⟨u', new, a1, a2, a3, a4, a5, -⟩ := restore_consistent hse hac hr hh hn hk hu hrd hleak hown hx hy h1 hcap
  exact ⟨u', new, rows', a1, a2, h2, a4, a5⟩

/-- C36: the same for append, bag and list tables. -/
theorem C36_restored_keys_follow_remapping_plain (ev : Event) (n : Nat) {t : T} (hk : (S t).kind ≠ .consistent)
    (hk' : (S t).kind ≠ .sorted) {u : Uni S} (hu : Unlocked u.env) (hrd : Reach (key t) true (u.env.tbl t))
    {sig : Sig} {own : List (Own S t)} (hown : ∀ o ∈ own, o.parent ≠ t)
    (hnd : (own.map (·.col)).Nodup) {x : Extraction (S t)} (hx : x.Matches sig) {ids : List Nat} {rows : List (Row (S t))}
    (hy : x.Yields ids rows) (hmap : ∀ r ∈ rows, ∀ o ∈ own, ((u.fl o.parent).remap (o.key (r o.col))).isSome = true)
    (hcap : (u.env.tbl t).len + rows.length ≤ (S t).max + 1) :
    ∃ u' new rows', restore key cfg n t sig own x ev u = .ok (none, u') ∧ Unlocked u'.env ∧
      List.Forall₂ (Remapped u.fl own) rows rows' ∧ Added (u.env.tbl t) (u'.env.tbl t) new rows' ∧
      ∀ s, s ≠ t → u'.env.tbl s = u.env.tbl s := by
  obtain ⟨rows', h1, h2⟩ := updateRows_ok hnd rows hmap
  obtain ⟨u', new, a1, a2, a3, a4, a5, -⟩ := restore_quiet (cfg := cfg) ev n hk hk' hu hrd hown hx hy h1 hcap
  exact ⟨u', new, rows', a1, a2, h2, a4, a5⟩

theorem restorePush_inv {t : T} {fl : T → FlushLock} {own : List (Own S t)} {x : Extraction (S t)} {nt : Bool}
    (pairs : List (Nat × Nat)) {w : W (S t)} {rm : List (Nat × Nat)} {r : W (S t) × List (Nat × Nat)}
    (h : restorePush fl own x nt pairs w rm = .ok r) :
    ∀ p ∈ pairs, ∃ row row', x.rowNo p.2 = .ok row ∧ updateRow fl own row = .ok row' := by
  induction pairs generalizing w rm with
  | nil => simp
  | cons p pairs ih =>
    obtain ⟨old, k⟩ := p
    unfold restorePush at h
    cases h1 : x.rowNo k with
    | error q => rw [h1] at h; cases h
    | ok row =>
      rw [h1, okBind] at h
      cases h2 : updateRow fl own row with
      | error q => rw [h2] at h; cases h
      | ok row' =>
        rw [h2, okBind] at h
        cases h3 : w.push row' with
        | error q => rw [h3] at h; cases h
        | ok z =>
          rw [h3, okBind] at h
          intro p hp
          rcases List.mem_cons.1 hp with rfl | hp
          · exact ⟨row, row', h1, h2⟩
          · exact ih h p hp

theorem restoreExtract_inv {ev : Event} {n : Nat} {t : T} {sig : Sig} {own : List (Own S t)} {x : Extraction (S t)}
    {u u' : Uni S} (h : restore key cfg n t sig own x ev u = .ok (none, u')) :
    ∃ w r, mergeExtract (key t) u.fl own x (cfg.trackers t).isEmpty w = .ok r := by
  unfold restore at h
  cases h0 : u.env.lock t with
  | error q => rw [h0] at h; cases h
  | ok y =>
    obtain ⟨w, env⟩ := y
    rw [h0, okBind] at h
    simp only [] at h
    unfold restoreExtract at h
    cases h1 : x.validate sig with
    | error q => rw [h1] at h; cases h
    | ok v =>
      rw [h1, okBind] at h
      cases v with
      | some e =>
        simp only [] at h
        cases h2 : w.drop with
        | error q => rw [h2] at h; cases h
        | ok tb => rw [h2, okBind] at h; injection h with h; injection h with h; cases h
      | none =>
        simp only [] at h
        cases h2 : own.forM (fun o => do let _ ← env.peek o.parent; Except.ok ()) with
        | error q => rw [h2] at h; cases h
        | ok _ =>
          rw [h2, okBind] at h
          cases h3 : mergeExtract (key t) u.fl own x (cfg.trackers t).isEmpty w with
          | error q => rw [h3] at h; cases h
          | ok r => exact ⟨w, r, h3⟩

/-- C36: if some row references a parent for which no new id is known, restoring (into anything but a sorted
table) does not succeed. -/
theorem C36_missing_remapping_panics (ev : Event) (n : Nat) {t : T} (hk : (S t).kind ≠ .sorted) (u : Uni S) {sig : Sig}
    {own : List (Own S t)} (hnd : (own.map (·.col)).Nodup) {x : Extraction (S t)} {ids : List Nat}
    {rows : List (Row (S t))} (hy : x.Yields ids rows) (r : Row (S t)) (hr : r ∈ rows) (o : Own S t) (ho : o ∈ own)
    (hmiss : (u.fl o.parent).remap (o.key (r o.col)) = none) (u' : Uni S) :
    restore key cfg n t sig own x ev u ≠ .ok (none, u') := by
  intro h
  obtain ⟨w, z, h1⟩ := restoreExtract_inv h
  unfold mergeExtract at h1
  rw [if_neg hk] at h1
  obtain ⟨k, hk1, hk2⟩ := List.mem_iff_getElem.1 hr
  have hsl : x.selection.length = rows.length := by rw [hy.sel, hy.len]
  obtain ⟨row, row', g1, g2⟩ := restorePush_inv _ h1 (x.selection[k]'(by omega), k) (by
    rw [List.mem_iff_getElem]
    exact ⟨k, by simp; omega, by simp⟩)
  simp only [] at g1
  rw [hy.row k hk1] at g1
  injection g1 with g1
  subst g1
  rw [updateRow_err own hnd _ ⟨o, ho, by rw [hk2]; exact hmiss⟩] at g2
  cases g2

/-- C36: restoring rows into a consistent table that other tables reference records where each row went. -/
theorem C36_remapping_recorded {ev : Event} (hse : Searchable cfg) (hac : Acyclic cfg rank)
    (hr : ev.isRemoval = false) (hh : cfg.handlers[ev.id]? = some .null) {n : Nat} {t : T} (hn : rank t < n)
    (hk : (S t).kind = .consistent) (htr : cfg.trackers t ≠ []) {u : Uni S} (hu : Unlocked u.env)
    (hrd : Ready key cfg u.env.tbl) (hleak : (u.fl t).leaked = 0) (hid : (u.fl t).identity = false) {sig : Sig}
    {x : Extraction (S t)} (hx : x.Matches sig) {ids : List Nat} (hnd : ids.Nodup) {rows : List (Row (S t))}
    (hy : x.Yields ids rows) (hcap : (u.env.tbl t).len + rows.length ≤ (S t).max) :
    ∃ u', restore key cfg n t sig [] x ev u = .ok (none, u') ∧
      ∀ k (h : k < ids.length), ∃ i, (u'.fl t).remap ids[k] = some i ∧
        (u'.env.tbl t).view i = some (rows[k]'(by rw [hy.len]; exact h)) := by
  obtain ⟨u', new, a1, a2, a3, a4, a5, a6, a7, a8, a9, -⟩ :=
    restore_consistent hse hac hr hh hn hk hu hrd hleak (own := []) (by simp) hx hy (updateRows_nil u.fl rows) hcap
  refine ⟨u', a1, ?_⟩
  intro k hk
  have hne : ids ≠ [] := by rintro rfl; simp at hk
  have hnl : new.length = ids.length := by rw [a4.len, hy.len]
  have hkr : k < rows.length := by rw [hy.len]; exact hk
  have hkn : k < new.length := by omega
  refine ⟨new[k], ?_, a4.new (new[k], rows[k]) ?_⟩
  · unfold FlushLock.remap
    rw [a8, hid, a9]
    simp only [Bool.false_eq_true, if_false, hne, hid, or_self, htr]
    exact lookup_zip_reverse hnd hnl k hk
  · rw [List.mem_iff_getElem]
    exact ⟨k, by simp; omega, by simp⟩

/-- C36, parent and child together: extract rows of a parent and rows of a child that references them;
restore the parent's rows, then the child's, anywhere. Each restored child row is as extracted except that
its foreign column now references a live row of the parent with the contents of the row it referenced
when it was extracted. -/
theorem C36_parent_then_child {ev : Event} (hse : Searchable cfg) (hac : Acyclic cfg rank)
    (hr : ev.isRemoval = false) (hh : cfg.handlers[ev.id]? = some .null) {n : Nat} {p c : T} (hne : c ≠ p)
    (hnp : rank p < n) (hnc : rank c < n) (hkp : (S p).kind = .consistent) (hkc : (S c).kind = .consistent)
    (htr : cfg.trackers p ≠ []) {u : Uni S} (hu : Unlocked u.env) (hrd : Ready key cfg u.env.tbl)
    (hleak : ∀ t, (u.fl t).leaked = 0) (hid : (u.fl p).identity = false) {sigp sigc : Sig}
    {xp : Extraction (S p)} (hxp : xp.Matches sigp) {idp : List Nat} (hnd : idp.Nodup) {rowsp : List (Row (S p))}
    (hyp : xp.Yields idp rowsp) {xc : Extraction (S c)} (hxc : xc.Matches sigc) {idc : List Nat} {rowsc : List (Row (S c))}
    (hyc : xc.Yields idc rowsc) (o : Own S c) (hop : o.parent = p) (hrefs : ∀ r ∈ rowsc, o.key (r o.col) ∈ idp)
    (hcapp : (u.env.tbl p).len + rowsp.length ≤ (S p).max) (hcapc : (u.env.tbl c).len + rowsc.length ≤ (S c).max) :
    ∃ (u1 u2 : Uni S) (new : List Nat), restore key cfg n p sigp [] xp ev u = .ok (none, u1) ∧ restore key cfg n c sigc [o] xc ev u1 = .ok (none, u2) ∧
      new.length = rowsc.length ∧
      ∀ k (h : k < rowsc.length) (h' : k < new.length), ∃ r', (u2.env.tbl c).view new[k] = some r' ∧
        (∀ j, j ≠ o.col → r' j = rowsc[k] j) ∧
        ∃ m, ∃ (hm : m < idp.length), idp[m] = o.key (rowsc[k] o.col) ∧
          (u2.env.tbl p).view (o.key (r' o.col)) = some (rowsp[m]'(by rw [hyp.len]; exact hm)) := by
  obtain ⟨u1, newp, a1, a2, a3, a4, a5, a6, a7, a8, a9, -⟩ :=
    restore_consistent hse hac hr hh hnp hkp hu hrd (hleak p) (own := []) (by simp) hxp hyp (updateRows_nil u.fl rowsp) hcapp
  have hnl : newp.length = idp.length := by rw [a4.len, hyp.len]
  have hremap : ∀ m (hm : m < idp.length), (u1.fl p).remap idp[m] = some (newp[m]'(by omega)) := by
    intro m hm
    have hne' : idp ≠ [] := by rintro rfl; simp at hm
    unfold FlushLock.remap
    rw [a8, hid, a9]
    simp only [Bool.false_eq_true, if_false, hne', hid, or_self, htr]
    exact lookup_zip_reverse hnd hnl m hm
  have hleakc : (u1.fl c).leaked = 0 := by rw [a6 c hne]; exact hleak c
  have hmap : ∀ r ∈ rowsc, ∀ o' ∈ [o], ((u1.fl o'.parent).remap (o'.key (r o'.col))).isSome = true := by
    intro r hr' o' ho'
    simp only [List.mem_singleton] at ho'
    subst ho'
    rw [hop]
    obtain ⟨m, hm, e⟩ := List.mem_iff_getElem.1 (hrefs r hr')
    rw [← e, hremap m hm]; rfl
  obtain ⟨u2, newc, rows', b1, b2, b3, b4, b5⟩ := C36_restored_keys_follow_remapping hse hac hr hh hnc hkc a2 a3 hleakc
    (own := [o]) (by simp [hop]; exact hne.symm) (by simp) hxc hyc hmap (by rw [a5 c hne]; exact hcapc)
  have hlen := b3.length_eq
  refine ⟨u1, u2, newc, a1, b1, by rw [b4.len, hlen], ?_⟩
  intro k h h'
  have hk' : k < rows'.length := by omega
  have hv := b4.new (newc[k], rows'[k]) (by
    rw [List.mem_iff_getElem]
    exact ⟨k, by simp; omega, by simp⟩)
  obtain ⟨c1, c2⟩ := (List.forall₂_iff_get.1 b3).2 k h hk'
  simp only [List.get_eq_getElem] at c1 c2
  refine ⟨rows'[k], hv, ?_, ?_⟩
  · intro j hj
    exact c2 j (by simpa using hj.symm)
  · obtain ⟨m, hm, e⟩ := List.mem_iff_getElem.1 (hrefs rowsc[k] (List.getElem_mem h))
    refine ⟨m, hm, e, ?_⟩
    have h1 := c1 o (by simp)
    rw [hop, ← e, hremap m hm] at h1
    injection h1 with h1
    rw [← h1, b5 p hne.symm]
    exact a4.new (newp[m], rowsp[m]'(by rw [hyp.len]; exact hm)) (by
      rw [List.mem_iff_getElem]
      exact ⟨m, by rw [List.length_zip, hyp.len]; omega, by simp⟩)

/-- C36, the defect: rows restored into a sorted table keep their old foreign keys whatever the remapping
says, and are accepted even if a key has no remapping. -/
theorem C36_sorted_tables_never_remap (ev : Event) (n : Nat) {t : T} (hk : (S t).kind = .sorted) (htr : cfg.trackers t = [])
    {u : Uni S} (hu : Unlocked u.env) (hrd : Reach (key t) true (u.env.tbl t))
    {sig : Sig} {own : List (Own S t)} (hown : ∀ o ∈ own, o.parent ≠ t)
    {x : Extraction (S t)} (hx : x.Matches sig) {ids : List Nat} {rows L : List (Row (S t))} (hy : x.Yields ids rows)
    (hL : Holds (u.env.tbl t) L) (hcap : L.length + rows.length ≤ (S t).max) :
    ∃ u' L', restore key cfg n t sig own x ev u = .ok (none, u') ∧ Holds (u'.env.tbl t) L' ∧ L'.Perm (L ++ rows) := by
  obtain ⟨u', L', a1, a2, a3, a4, a5, -⟩ := restore_sorted ev n hk htr hu hrd hown hx hy hL hcap
  exact ⟨u', L', a1, a4, a5⟩

/-- C36, a second defect: restoring an extraction without rows leaves the table of new ids of the previous
restore in force (no flush happens), so children restored afterwards still follow the earlier one. -/
theorem C36_empty_restore_keeps_old_remapping {ev : Event} (hse : Searchable cfg) (hac : Acyclic cfg rank)
    (hr : ev.isRemoval = false) (hh : cfg.handlers[ev.id]? = some .null) {n : Nat} {t : T} (hn : rank t < n)
    (hk : (S t).kind = .consistent) {u : Uni S} (hu : Unlocked u.env) (hrd : Ready key cfg u.env.tbl)
    (hleak : (u.fl t).leaked = 0) {sig : Sig} {x : Extraction (S t)} (hx : x.Matches sig) (hempty : x.selection = []) :
    ∃ u', restore key cfg n t sig [] x ev u = .ok (none, u') ∧ u'.env.log = u.env.log ∧
      ∀ old, (u'.fl t).remap old = (u.fl t).remap old := by
  have hcap : (u.env.tbl t).len + ([] : List (Row (S t))).length ≤ (S t).max := by
    simpa using hrd.room t
  obtain ⟨u', new, a1, a2, a3, a4, a5, a6, a7, a8, a9, log, b1, b2, -⟩ :=
    restore_consistent hse hac hr hh hn hk hu hrd hleak (own := []) (by simp) hx (ids := []) (rows := [])
      ⟨hempty, rfl, by simp⟩ (updateRows_nil u.fl []) hcap
  refine ⟨u', a1, by rw [b1, b2 rfl]; simp, ?_⟩
  intro old
  unfold FlushLock.remap
  rw [a8, a9]
  simp

/-! ## C37 -/

section Validate
variable {Sc : Schema}

theorem validate_cases (x : Extraction Sc) (sig : Sig)
    (hhead : x.fmt = 0 ∧ x.domain = sig.domain ∧ x.name = sig.name ∧ x.schema = sig.version) :
    x.validate sig = if x.columns.length < sig.columns.length then .error .vecOob
      else if x.columns = sig.columns then .ok none else .ok (some "column format mismatch") := by
  obtain ⟨h1, h2, h3, h4⟩ := hhead
  unfold Extraction.validate
  rw [h1, h2, h3, h4]
  simp only [EXTRACTION_FMT, ne_eq, not_true_eq_false, if_false]
  by_cases hl : x.columns.length < sig.columns.length
  · rw [if_pos hl, metaLoop_short _ _ _ _ (by omega) (by omega), errBind]
  · rw [if_neg hl, metaLoop_ok _ _ _ _ (by omega), okBind]
    by_cases e : x.columns = sig.columns
    · rw [if_pos e, e]; simp
    · rw [if_neg e]
      by_cases e2 : sig.columns.length = x.columns.length
      · have : sig.columns ≠ x.columns := Ne.symm e
        simp [e2, this]
      · simp [e2]

/-- C37: an extraction is accepted exactly if it describes this table: same format, domain, name, version and
columns. -/
theorem C37_accepts_iff (x : Extraction Sc) (sig : Sig) : x.validate sig = .ok none ↔ x.Matches sig := by
  constructor
  · intro h
    have hhead : x.fmt = 0 ∧ x.domain = sig.domain ∧ x.name = sig.name ∧ x.schema = sig.version := by
      unfold Extraction.validate at h
      split at h
      · cases h
      · split at h
        · cases h
        · split at h
          · cases h
          · split at h
            · cases h
            · rename_i h1 h2 h3 h4
              exact ⟨not_not.1 h1, not_not.1 h2, not_not.1 h3, not_not.1 h4⟩
    rw [validate_cases x sig hhead] at h
    split at h
    · cases h
    · split at h
      · rename_i e; exact ⟨hhead.1, hhead.2.1, hhead.2.2.1, hhead.2.2.2, e⟩
      · cases h
  · exact validate_matches

/-- C37, the defect: it panics exactly if everything but the columns fits and there are too few of them. -/
theorem C37_panics_iff (x : Extraction Sc) (sig : Sig) (p : Panic) :
    x.validate sig = .error p ↔ p = .vecOob ∧ x.fmt = 0 ∧ x.domain = sig.domain ∧ x.name = sig.name ∧
      x.schema = sig.version ∧ x.columns.length < sig.columns.length := by
  by_cases hhead : x.fmt = 0 ∧ x.domain = sig.domain ∧ x.name = sig.name ∧ x.schema = sig.version
  · rw [validate_cases x sig hhead]
    split
    · rename_i h; simp only [Except.error.injEq]; exact ⟨fun e => ⟨e.symm, hhead.1, hhead.2.1, hhead.2.2.1, hhead.2.2.2, h⟩, fun e => e.1.symm⟩
    · rename_i h
      constructor
      · intro e; split at e <;> cases e
      · intro e; exact absurd e.2.2.2.2.2 h
  · constructor
    · intro h
      exfalso
      unfold Extraction.validate at h
      split at h
      · cases h
      · split at h
        · cases h
        · split at h
          · cases h
          · split at h
            · cases h
            · rename_i h1 h2 h3 h4
              exact hhead ⟨not_not.1 h1, not_not.1 h2, not_not.1 h3, not_not.1 h4⟩
    · intro h; exact absurd ⟨h.2.1, h.2.2.1, h.2.2.2.1, h.2.2.2.2.1⟩ hhead

/-- C37: in all other cases it is rejected with an error. -/
theorem C37_rejects_iff (x : Extraction Sc) (sig : Sig) : (∃ e, x.validate sig = .ok (some e)) ↔
    (x.fmt ≠ 0 ∨ x.domain ≠ sig.domain ∨ x.name ≠ sig.name ∨ x.schema ≠ sig.version) ∨
    (sig.columns.length ≤ x.columns.length ∧ x.columns ≠ sig.columns) := by
  have h1 := C37_accepts_iff x sig
  have h2 := C37_panics_iff x sig
  constructor
  · rintro ⟨e, he⟩
    by_contra hc
    simp only [not_or, not_not, not_and, ne_eq] at hc
    obtain ⟨⟨c1, c2, c3, c4⟩, c5⟩ := hc
    by_cases hl : sig.columns.length ≤ x.columns.length
    · rw [h1.2 ⟨c1, c2, c3, c4, c5 hl⟩] at he; cases he
    · rw [(h2 .vecOob).2 ⟨rfl, c1, c2, c3, c4, by omega⟩] at he; cases he
  · intro hc
    cases hv : x.validate sig with
    | error p =>
      obtain ⟨-, d1, d2, d3, d4, d5⟩ := (h2 p).1 hv
      rcases hc with (h | h | h | h) | h
      · exact absurd d1 h
      · exact absurd d2 h
      · exact absurd d3 h
      · exact absurd d4 h
      · omega
    | ok v =>
      cases v with
      | some e => exact ⟨e, rfl⟩
      | none =>
        obtain ⟨d1, d2, d3, d4, d5⟩ := h1.1 hv
        rcases hc with (h | h | h | h) | h
        · exact absurd d1 h
        · exact absurd d2 h
        · exact absurd d3 h
        · exact absurd d4 h
        · exact absurd d5 h.2

end Validate

/-- C37: a rejected extraction leaves every table, every remapping and the trackers' logs alone, and the lock is
released. -/
theorem C37_rejected_leaves_everything (ev : Event) (n : Nat) {t : T} {u : Uni S} (hu : Unlocked u.env) {sig : Sig}
    {own : List (Own S t)} {x : Extraction (S t)} {e : String} (hx : x.validate sig = .ok (some e)) :
    ∃ u', restore key cfg n t sig own x ev u = .ok (some e, u') ∧ Unlocked u'.env ∧ u'.env.tbl = u.env.tbl ∧
      u'.env.log = u.env.log ∧ u'.fl = u.fl := by
  obtain ⟨env1, a1, a2, a3, a4⟩ := unlocked_lock hu t
  refine ⟨⟨env1.unlock t (u.env.tbl t), u.fl⟩, ?_, a2.unlock _, ?_, by simp [Env.unlock, Env.put, a4], rfl⟩
  · unfold restore
    rw [a1, okBind]
    simp only []
    unfold restoreExtract
    rw [hx, okBind]
    simp only []
    unfold W.drop
    rw [if_neg (by simp [W.lock, Select.isEmpty]), okBind]
    rfl
  · simp only [unlock_tbl, a3, Function.update_eq_self]

theorem mapM_inv {α β : Type} {f : α → R β} {l : List α} {g : List β} (h : l.mapM f = .ok g) : ∀ a ∈ l, ∃ b, f a = .ok b := by
  induction l generalizing g with
  | nil => simp
  | cons a l ih =>
    rw [List.mapM_cons] at h
    cases h1 : f a with
    | error p => rw [h1] at h; cases h
    | ok b =>
      rw [h1] at h
      simp only [okBind] at h
      cases h2 : l.mapM f with
      | error p => rw [h2] at h; cases h
      | ok bs =>
        intro a' ha'
        rcases List.mem_cons.1 ha' with rfl | ha'
        · exact ⟨b, h1⟩
        · exact ih h2 a' ha'

theorem restoreMergeEach_inv {t : T} {fl : T → FlushLock} {own : List (Own S t)} {x : Extraction (S t)}
    (pairs : List (Nat × Nat)) {w : W (S t)} {rm : List (Nat × Nat)} {r : W (S t) × List (Nat × Nat)}
    (h : restoreMergeEach (key t) fl own x pairs w rm = .ok r) : ∀ p ∈ pairs, ∃ row, x.rowNo p.2 = .ok row := by
  induction pairs generalizing w rm with
  | nil => simp
  | cons p pairs ih =>
    obtain ⟨old, k⟩ := p
    unfold restoreMergeEach at h
    cases h1 : x.rowNo k with
    | error q => rw [h1] at h; cases h
    | ok row =>
      rw [h1, okBind] at h
      cases h2 : updateRow fl own row with
      | error q => rw [h2] at h; cases h
      | ok row' =>
        rw [h2, okBind] at h
        cases h3 : w.tbl.mergeSingle (key t) row' with
        | error q => rw [h3] at h; cases h
        | ok z =>
          rw [h3, okBind] at h
          intro p hp
          rcases List.mem_cons.1 hp with rfl | hp
          · exact ⟨row, h1⟩
          · exact ih h p hp

/-- C37: the lengths of the columns are not validated: an extraction with a column shorter than its selection is
accepted by validation, but restoring it never succeeds. -/
theorem C37_short_data_not_rejected (ev : Event) (n : Nat) {t : T} (u : Uni S) {sig : Sig} {own : List (Own S t)}
    {x : Extraction (S t)} (hx : x.Matches sig) (j : Fin ((S t).n + 1))
    (hshort : (((S t).C j).toList (x.data j)).length < x.selection.length) :
    x.validate sig = .ok none ∧ ∀ r, restore key cfg n t sig own x ev u ≠ .ok r := by
  refine ⟨validate_matches hx, ?_⟩
  rintro ⟨v, u'⟩ h
  have hno : ∀ row, x.rowNo (((S t).C j).toList (x.data j)).length ≠ .ok row := by
    intro row hrow
    unfold Extraction.rowNo at hrow
    have := seqFin_inv hrow j
    simp at this
  have hv : v = none := by
    unfold restore at h
    cases h0 : u.env.lock t with
    | error q => rw [h0] at h; cases h
    | ok y =>
      obtain ⟨w, env⟩ := y
      rw [h0, okBind] at h
      simp only [] at h
      unfold restoreExtract at h
      rw [validate_matches hx, okBind] at h
      simp only [] at h
      cases h2 : own.forM (fun o => do let _ ← env.peek o.parent; Except.ok ()) with
      | error q => rw [h2] at h; cases h
      | ok _ =>
        rw [h2, okBind] at h
        cases h3 : mergeExtract (key t) u.fl own x (cfg.trackers t).isEmpty w with
        | error q => rw [h3] at h; cases h
        | ok r =>
          rw [h3, okBind] at h
          split at h
          · cases h4 : r.1.drop with
            | error q => rw [h4] at h; cases h
            | ok tb => rw [h4, okBind] at h; injection h with h; injection h with h; exact h.symm
          · cases h4 : (u.fl t).setRemapping r.2 with
            | error q => rw [h4] at h; cases h
            | ok f =>
              rw [h4, okBind] at h
              cases h5 : flush cfg n t r.1 ev env with
              | error q => rw [h5] at h; cases h
              | ok e => rw [h5, okBind] at h; injection h with h; injection h with h; exact h.symm
  subst hv
  obtain ⟨w, r, h1⟩ := restoreExtract_inv h
  have hmem : (x.selection[(((S t).C j).toList (x.data j)).length]'hshort, (((S t).C j).toList (x.data j)).length) ∈ x.selection.zipIdx := by
    rw [List.mem_iff_getElem]
    exact ⟨_, by simpa using hshort, by simp⟩
  unfold mergeExtract at h1
  split at h1
  · split at h1
    · cases h2 : (List.range x.selection.length).mapM x.rowNo with
      | error q => rw [h2] at h1; cases h1
      | ok rows =>
        obtain ⟨row, hrow⟩ := mapM_inv h2 _ (List.mem_range.2 hshort)
        exact hno row hrow
    · obtain ⟨row, hrow⟩ := restoreMergeEach_inv _ h1 _ hmem
      exact hno row hrow
  · obtain ⟨row, row', hrow, -⟩ := restorePush_inv _ h1 _ hmem
    exact hno row hrow

/-! ## C38 -/

/-- C38: without a remapping `live_flush` leaves the flush lock and the remappings as they were. -/
theorem C38_live_flush_clean {n : Nat} {t : T} {w w' : W (S t)} {ev : Event} {u u' : Uni S}
    (hnone : (u.fl t).remapped = []) (h : liveFlushU cfg n t w ev u = .ok (w', u')) : u'.fl = u.fl := by
  have hno : (u.fl t).hasRemapping = false := by unfold FlushLock.hasRemapping; rw [hnone]; rfl
  unfold liveFlushU at h
  split at h
  · injection h with h; injection h with h1 h2; rw [← h2]
  · cases e : liveFlush cfg n t w ev u.env with
    | error p => rw [e] at h; cases h
    | ok z =>
      rw [e, okBind] at h
      injection h with h; injection h with h1 h2
      rw [← h2]
      simp [hno]

/-- C38, the defect: with a remapping each `live_flush` that has something to flush keeps one more read guard of
the flush lock for ever, and the remapping is not cleared. -/
theorem C38_live_flush_leaks {n : Nat} {t : T} {w w' : W (S t)} {ev : Event} {u u' : Uni S}
    (hsome : (u.fl t).remapped ≠ []) (hch : w.changes.isEmpty = false) (h : liveFlushU cfg n t w ev u = .ok (w', u')) :
    (u'.fl t).leaked = (u.fl t).leaked + 1 ∧ (u'.fl t).remapped = (u.fl t).remapped ∧ ∀ s, s ≠ t → u'.fl s = u.fl s := by
  have hyes : (u.fl t).hasRemapping = true := by
    unfold FlushLock.hasRemapping
    cases e : (u.fl t).remapped with
    | nil => exact absurd e hsome
    | cons _ _ => rfl
  unfold liveFlushU at h
  rw [if_neg (by simp [hch])] at h
  cases e : liveFlush cfg n t w ev u.env with
  | error p => rw [e] at h; cases h
  | ok z =>
    rw [e, okBind] at h
    injection h with h; injection h with h1 h2
    rw [← h2]
    refine ⟨by simp [hyes], by simp [hyes], ?_⟩
    intro s hs
    simp only []
    rw [Function.update_of_ne hs]

/-- What a program does to the flush locks: flushes of every kind, restores, new trackers. -/
inductive FlushUse (key : (t : T) → Row (S t) → K) (cfg : Cfg S) : Uni S → Uni S → Prop
  | live {n : Nat} {t : T} {w w' : W (S t)} {ev : Event} {u u' : Uni S} : liveFlushU cfg n t w ev u = .ok (w', u') → FlushUse key cfg u u'
  | restore {n : Nat} {t : T} {sig : Sig} {own : List (Own S t)} {x : Extraction (S t)} {ev : Event} {w : W (S t)} {u u' : Uni S}
      {v : Option String} : restoreExtract key cfg n t sig own x ev w u = .ok (v, u') → FlushUse key cfg u u'
  | other {u : Uni S} {env : Env S} : FlushUse key cfg u { u with env := env }

/-- Any number of such steps. -/
inductive FlushUses (key : (t : T) → Row (S t) → K) (cfg : Cfg S) : Uni S → Uni S → Prop
  | refl {u : Uni S} : FlushUses key cfg u u
  | step {u u1 u2 : Uni S} : FlushUses key cfg u u1 → FlushUse key cfg u1 u2 → FlushUses key cfg u u2

theorem setRemapping_leaked {f f' : FlushLock} {rm : List (Nat × Nat)} (h : f.setRemapping rm = .ok f') : f'.leaked = f.leaked := by
  unfold FlushLock.setRemapping at h
  split at h
  · cases h
  · split at h <;> · injection h with h; rw [← h]

theorem flushUse_leaked {u u' : Uni S} (h : FlushUse key cfg u u') (s : T) : (u.fl s).leaked ≤ (u'.fl s).leaked := by
  cases h with
  | other => exact le_refl _
  | live h =>
    rename_i n t w w' ev
    unfold liveFlushU at h
    split at h
    · injection h with h; injection h with h1 h2; rw [← h2]
    · cases e : liveFlush cfg n t w ev u.env with
      | error p => rw [e] at h; cases h
      | ok z =>
        rw [e, okBind] at h
        injection h with h; injection h with h1 h2
        rw [← h2]
        by_cases hs : s = t
        · subst hs
          simp only [Function.update_self]
          split <;> simp
        · simp [Function.update_of_ne hs]
  | restore h =>
    rename_i n t sig own x ev w v
    unfold restoreExtract at h
    cases h1 : x.validate sig with
    | error q => rw [h1] at h; cases h
    | ok v =>
      rw [h1, okBind] at h
      cases v with
      | some e =>
        simp only [] at h
        cases h2 : w.drop with
        | error q => rw [h2] at h; cases h
        | ok tb => rw [h2, okBind] at h; injection h with h; injection h with h h'; rw [← h']
      | none =>
        simp only [] at h
        cases h2 : own.forM (fun o => do let _ ← u.env.peek o.parent; Except.ok ()) with
        | error q => rw [h2] at h; cases h
        | ok _ =>
          rw [h2, okBind] at h
          cases h3 : mergeExtract (key t) u.fl own x (cfg.trackers t).isEmpty w with
          | error q => rw [h3] at h; cases h
          | ok r =>
            rw [h3, okBind] at h
            split at h
            · cases h4 : r.1.drop with
              | error q => rw [h4] at h; cases h
              | ok tb => rw [h4, okBind] at h; injection h with h; injection h with h h'; rw [← h']
            · cases h4 : (u.fl t).setRemapping r.2 with
              | error q => rw [h4] at h; cases h
              | ok f =>
                rw [h4, okBind] at h
                cases h5 : flush cfg n t r.1 ev u.env with
                | error q => rw [h5] at h; cases h
                | ok e =>
                  rw [h5, okBind] at h; injection h with h; injection h with h h'
                  rw [← h']
                  by_cases hs : s = t
                  · subst hs
                    simp only [Function.update_self]
                    rw [setRemapping_leaked h4]
                  · simp [Function.update_of_ne hs]

/-- C38: once a guard has leaked it stays: whatever is flushed or restored afterwards, registering a tracker on
that table never returns. -/
theorem C38_leak_is_forever {u u' : Uni S} (h : FlushUses key cfg u u') {t : T} (hleak : (u.fl t).leaked ≠ 0) (tr : Tracker S) :
    (u'.fl t).leaked ≠ 0 ∧ registerTracker cfg u' t tr = .error .deadlock := by
  have hl : (u.fl t).leaked ≤ (u'.fl t).leaked := by
    induction h with
    | refl => exact le_refl _
    | step _ hs ih => exact le_trans ih (flushUse_leaked hs t)
  refine ⟨by omega, ?_⟩
  unfold registerTracker
  split
  · rfl
  · rw [if_pos (by omega)]

/-- C38: and restoring anything into that (consistent) table never succeeds either, unless nothing is restored. -/
theorem C38_leak_blocks_restore {n : Nat} {t : T} (hk : (S t).kind = .consistent) {sig : Sig} {own : List (Own S t)}
    {x : Extraction (S t)} {ev : Event} {u u' : Uni S} (hleak : (u.fl t).leaked ≠ 0) (hsel : x.selection ≠ []) (hrd : Reach (key t) true (u.env.tbl t)) :
    restore key cfg n t sig own x ev u ≠ .ok (none, u') := by
  intro h
  unfold restore at h
  cases h0 : u.env.lock t with
  | error q => rw [h0] at h; cases h
  | ok y =>
    obtain ⟨w, env⟩ := y
    rw [h0, okBind] at h
    have hw : w = W.lock (u.env.tbl t) := by
      unfold Env.lock at h0
      split at h0
      · cases h0
      · injection h0 with h0; injection h0 with h0 h0'; exact h0.symm
    simp only [] at h
    unfold restoreExtract at h
    cases h1 : x.validate sig with
    | error q => rw [h1] at h; cases h
    | ok v =>
      rw [h1, okBind] at h
      cases v with
      | some e =>
        simp only [] at h
        cases h2 : w.drop with
        | error q => rw [h2] at h; cases h
        | ok tb => rw [h2, okBind] at h; injection h with h; injection h with h; cases h
      | none =>
        simp only [] at h
        cases h2 : own.forM (fun o => do let _ ← env.peek o.parent; Except.ok ()) with
        | error q => rw [h2] at h; cases h
        | ok _ =>
          rw [h2, okBind] at h
          cases h3 : mergeExtract (key t) u.fl own x (cfg.trackers t).isEmpty w with
          | error q => rw [h3] at h; cases h
          | ok r =>
            rw [h3, okBind] at h
            have hne : r.1.changes.isEmpty = false := by
              unfold mergeExtract at h3
              rw [if_neg (by simp [hk])] at h3
              exact restorePush_changes hk _ (by simpa using hsel) h3
            rw [hne] at h
            simp only [Bool.false_eq_true, if_false] at h
            unfold FlushLock.setRemapping at h
            rw [if_pos hleak, errBind] at h
            cases h
where
  restorePush_changes {t : T} (hk : (S t).kind = .consistent) {fl : T → FlushLock} {own : List (Own S t)} {x : Extraction (S t)} {nt : Bool}
      (pairs : List (Nat × Nat)) (hp : pairs ≠ []) {w : W (S t)} {rm : List (Nat × Nat)} {r : W (S t) × List (Nat × Nat)}
      (h : restorePush fl own x nt pairs w rm = .ok r) : r.1.changes.isEmpty = false := by
    have keep : ∀ (pairs : List (Nat × Nat)) (w : W (S t)) (rm : List (Nat × Nat)) (r : W (S t) × List (Nat × Nat)),
        w.changes.isEmpty = false → restorePush fl own x nt pairs w rm = .ok r → r.1.changes.isEmpty = false := by
      intro pairs
      induction pairs with
      | nil => intro w rm r hw h; unfold restorePush at h; injection h with h; rw [← h]; exact hw
      | cons p pairs ih =>
        intro w rm r hw h
        obtain ⟨old, k⟩ := p
        unfold restorePush at h
        cases h1 : x.rowNo k with
        | error q => rw [h1] at h; cases h
        | ok row =>
          rw [h1, okBind] at h
          cases h2 : updateRow fl own row with
          | error q => rw [h2] at h; cases h
          | ok row' =>
            rw [h2, okBind] at h
            cases h3 : w.push row' with
            | error q => rw [h3] at h; cases h
            | ok z =>
              rw [h3, okBind] at h
              have := (push_book hk (w' := z.1) (i := z.2) h3).empty
              exact ih _ _ _ (by rw [this]; simp) h
    cases pairs with
    | nil => exact absurd rfl hp
    | cons p pairs =>
      obtain ⟨old, k⟩ := p
      unfold restorePush at h
      cases h1 : x.rowNo k with
      | error q => rw [h1] at h; cases h
      | ok row =>
        rw [h1, okBind] at h
        cases h2 : updateRow fl own row with
        | error q => rw [h2] at h; cases h
        | ok row' =>
          rw [h2, okBind] at h
          cases h3 : w.push row' with
          | error q => rw [h3] at h; cases h
          | ok z =>
            rw [h3, okBind] at h
            have := (push_book hk (w' := z.1) (i := z.2) h3).empty
            exact keep _ _ _ _ (by rw [this]; simp) h

end Universes

/-! ## A run

The universe of `DemoUni`: parents `0..2` of table 0, children of table 1, grandchildren in the sorted table 2. -/

def uniSig (t : Fin 3) : Sig where
  domain := "demo"
  name := if t = 0 then "parents" else if t = 1 then "children" else "grandchildren"
  version := 3
  columns := [⟨"a", "Vec<u32>", 0⟩, ⟨"b", "Vec<u32>", 0⟩]

/-- Table 1 references table 0, table 2 references table 1. -/
def uniOwn1 : Own UniS 1 := { parent := 0, col := 0, key := Equiv.refl Nat }
def uniOwn2 : Own UniS 2 := { parent := 1, col := 0, key := Equiv.refl Nat }

def evRestore : Event := ⟨1, false, true⟩

def uniUni : Uni UniS := { env := uniEnv, fl := fun _ => FlushLock.new }

/-- Extract some rows of a table and restore them. -/
def uniCopy (t : Fin 3) (own : List (Own UniS t)) (ids : List Nat) (u : Uni UniS) : R (Option String × Uni UniS) := do
  let x ← (uniTbl t).extractSelection (uniSig t) (.these ids)
  restore uniKey uniCfg 3 t (uniSig t) own x evRestore u

def getUni (r : R (Option String × Uni UniS)) : Uni UniS :=
  match r with
  | .ok (_, u) => u
  | .error _ => uniUni

def uniU1 : Uni UniS := getUni (uniCopy 0 [] [2, 0] uniUni)
def uniU2 : Uni UniS := getUni (uniCopy 1 [uniOwn1] [0, 2] uniU1)

/-- Parents 2 and 0 go to 3 and 4; children 0 and 2 go to 3 and 4 and reference 4 and 3 now. -/
example : uniView (uniU2.env.tbl 0) 6 = [some (10, 0), some (11, 0), some (12, 0), some (12, 0), some (10, 0), none] ∧
    uniView (uniU2.env.tbl 1) 6 = [some (0, 20), some (0, 21), some (2, 22), some (4, 20), some (3, 22), none] ∧
    (uniU2.fl 1).remap 2 = some 4 := by decide

/-- The grandchild of child 2, restored after child 2 went to 4, still references child 2. -/
example : ∃ u' L', uniCopy 2 [uniOwn2] [3] uniU2 = .ok (none, u') ∧ Holds (u'.env.tbl 2) L' ∧
    (L'.map uniVals).Perm [(0, 30), (1, 31), (1, 32), (2, 33), (2, 33)] := by
  obtain ⟨x, rows, h1, h2, h3, h4⟩ := C35_extract_these (uniTbl 2) (uniTbl_reach 2) (uniSig 2) [3] (by decide) (by decide)
  have e2 : uniU2.env.tbl 2 = uniTbl 2 := rfl
  have hrow : rows.map uniVals = [(2, 33)] := by
    have : (rows.map some).map (Option.map uniVals) = [some (2, 33)] := by rw [h4]; decide
    match rows, this with
    | [r], h => simpa using h
  have hH : Holds (uniU2.env.tbl 2) [uniRow 2 0 30, uniRow 2 1 31, uniRow 2 1 32, uniRow 2 2 33] := by
    rw [e2]; exact uniHolds rfl (by decide)
  obtain ⟨u', L', a1, a2, a3⟩ := C36_sorted_tables_never_remap (key := uniKey) (cfg := uniCfg) evRestore 3 (t := 2) rfl rfl (u := uniU2)
    ⟨fun t => by match t with | 0 => rfl | 1 => rfl | 2 => rfl, fun t => by match t with | 0 => rfl | 1 => rfl | 2 => rfl⟩
    (by rw [e2]; exact uniTbl_reach 2) (sig := uniSig 2) (own := [uniOwn2]) (by decide) h2 h3 hH
    (by have := congrArg List.length hrow; simp only [List.length_map] at this; rw [this]; decide)
  refine ⟨u', L', ?_, a2, ?_⟩
  · unfold uniCopy
    rw [h1, okBind, a1]
  · have := a3.map uniVals
    rw [List.map_append, hrow] at this
    exact this

/-- Restoring children whose parents were not restored panics. -/
example : (match uniCopy 1 [uniOwn1] [0, 2] uniUni with | .error e => decide (e = .noRemapping) | .ok _ => false) = true := by
  decide

/-- Extracting everything skips the deleted child 3. -/
example : (match (uniTbl 1).extractSelection (uniSig 1) .all with
    | .ok x => decide (x.selection = [0, 1, 2] ∧ (x.rowNo 2).map uniVals = .ok (2, 22) ∧ x.validate (uniSig 1) = .ok none ∧
        x.validate (uniSig 0) = .ok (some "wrong name"))
    | .error _ => false) = true := by decide

/-- A description with a column missing panics instead of being rejected. -/
example : (match (uniTbl 1).extractSelection (uniSig 1) .all with
    | .ok x => decide (({ x with columns := x.columns.take 1 } : Extraction (UniS 1)).validate (uniSig 1) = .error .vecOob)
    | .error _ => false) = true := by decide

/-- C36's premises hold of this run: the parents' extraction matches, yields two rows and their new ids are known. -/
example : ∃ x : Extraction (UniS 0), ∃ rows, x.Matches (uniSig 0) ∧ x.Yields [2, 0] rows ∧ rows.length = 2 ∧
    Unlocked uniUni.env ∧ Ready uniKey uniCfg uniUni.env.tbl ∧ Searchable uniCfg ∧ Acyclic uniCfg uniRank ∧
    uniCfg.handlers[evRestore.id]? = some .null ∧ (uniUni.fl 0).leaked = 0 ∧ uniCfg.trackers 0 ≠ [] := by
  obtain ⟨x, rows, -, h2, h3, -⟩ := C35_extract_these (uniTbl 0) (uniTbl_reach 0) (uniSig 0) [2, 0] (by decide) (by decide)
  exact ⟨x, rows, h2, h3, h3.len, uniUnlocked, uniReady, uniStandard.searchable, uniAcyclic, rfl, rfl, by simp [uniCfg]⟩

/-- After restoring parents a later `live_flush` of that table leaks the guard, and from then on registering a
tracker and restoring parents wait for ever. -/
def uniLeak : R (W (UniS 0) × Uni UniS) := do
  let (w, env) ← uniU1.env.lock 0
  let (w, _) ← w.push (uniRow 0 77 0)
  liveFlushU uniCfg 3 0 w evCreate { uniU1 with env := env }

example : (uniU1.fl 0).hasRemapping = true ∧ (match uniLeak with
    | .ok (_, u) => decide ((u.fl 0).leaked = 1 ∧ (u.fl 0).remap 2 = some 3 ∧
        (match uniCopy 0 [] [0] { u with env := uniU1.env } with | .error e => decide (e = .deadlock) | .ok _ => false) = true)
    | .error _ => false) = true := by decide

end V11
