import Verif.Model.Save
import Verif.Spec.Save
import Verif.Props.Serial
import Verif.Lemmas.Tell
import Verif.Spec.History

/-!
# Saving and loading
-/

set_option linter.unusedSimpArgs false
set_option linter.unusedSectionVars false
set_option linter.unusedVariables false

namespace V11

section OneTable
variable {S : Schema} [LS : LawfulSchema S] {K : Type} [LinearOrder K] {key : Row S → K}

/-- Written and read again, an extraction has the same rows. -/
theorem Extraction.Carries.wire {x : Extraction S} {rows : List (Row S)} (h : x.Carries rows) (hl : rows.length ≤ S.max + 1) :
    ∃ x', x.wire = .ok x' ∧ x'.Carries rows ∧ x'.selection = x.selection ∧ ∀ sig, x.Matches sig → x'.Matches sig := by
  have hc : ∀ j, ∃ s', (do
      let l ← serCol (S.C j) (x.data j)
      deCol (S.C j) l) = .ok s' ∧ (LS.law j).Inv (fun _ => False) s' ∧ (LS.law j).abs s' = rows.map (· j) := by
    intro j
    obtain ⟨s', a1, a2, a3⟩ := deCol_ok (max := S.max) (C := S.C j) (LC := LS.law j) (l := rows.map (· j)) (by simpa using hl)
    refine ⟨s', ?_, a2, a3⟩
    rw [serCol_ok (LC := LS.law j) (h j).1, okBind, (h j).2, a1]
  choose g g1 g2 g3 using hc
  refine ⟨{ x with data := g }, ?_, fun j => ⟨g2 j, g3 j⟩, rfl, fun sig hx => ⟨hx.fmt, hx.domain, hx.name, hx.version, hx.columns⟩⟩
  unfold Extraction.wire
  rw [seqFin_ok g1, okBind]

/-- `x` describes the table and holds exactly its live rows, in ascending order of their ids. -/
def Snapshot (t : Tbl S) (sig : Sig) (x : Extraction S) (ids : List Nat) (rows : List (Row S)) : Prop :=
  x.Matches sig ∧ x.Yields ids rows ∧ ids.Pairwise (· < ·) ∧ (∀ i, i ∈ ids ↔ t.contains i = true) ∧ rows.map some = ids.map t.view

theorem snapshot {t : Tbl S} (ht : Reach key true t) (sig : Sig) (hl : t.len ≤ S.max) :
    ∃ x0 x ids rows, t.extractSelection sig .all = .ok x0 ∧ x0.wire = .ok x ∧ Snapshot t sig x ids rows := by
  obtain ⟨x0, ids, rows, a1, a2, a3, a4, a5, a6⟩ := C35_extract_all t ht sig hl
  obtain ⟨L, h⟩ := ht.wf
  have hlt : ∀ i ∈ ids, i < L.length := fun i hi => ((h.contains_iff i).1 ((a5 i).1 hi)).1
  have hids : ids = liveIds 0 L.length t.free := by
    refine List.Perm.eq_of_pairwise (le := (· < ·)) (by intro a b _ _ h1 h2; omega) a4
      (by unfold liveIds; exact List.Pairwise.filter _ (List.pairwise_lt_range' 1)) ?_
    refine (List.perm_ext_iff_of_nodup (a4.imp (fun h => Nat.ne_of_lt h)) ?_).2 ?_
    · unfold liveIds; exact List.Nodup.filter _ List.nodup_range'
    · intro i
      rw [a5, h.contains_iff]
      simp [liveIds, List.mem_range']
  have hlen : ids.length ≤ L.length := by
    rw [hids]; unfold liveIds
    refine (List.length_filter_le _ _).trans ?_
    simp
  have hL : L.length ≤ S.max := by rw [← h.len]; exact hl
  obtain ⟨x1, b1, -, b3, b4⟩ := extract_these h.aligned sig ids hlt (by omega)
  rw [extract_all h.aligned sig hL, ← hids, b1] at a1
  injection a1 with a1
  subst a1
  have hflen : (ids.filterMap (L[·]?)).length ≤ S.max + 1 := by
    refine (List.length_filterMap_le _ _).trans ?_
    omega
  obtain ⟨x', c1, c2, c3, c4⟩ := b4.wire hflen
  refine ⟨x1, x', ids, rows, ?_, c1, c4 _ a2, ⟨by rw [c3, b3], a3.len, ?_⟩, a4, a5, a6⟩
  · rw [extract_all h.aligned sig hL, ← hids, b1]
  · intro k hk
    have hk' : k < (ids.filterMap (L[·]?)).length := by
      by_contra hc
      have := b4.rowNo_end k (by omega)
      rw [a3.row k hk] at this
      cases this
    rw [c2.rowNo k hk', ← b4.rowNo k hk', a3.row k hk]

theorem Snapshot.length {t : Tbl S} {sig : Sig} {x : Extraction S} {ids : List Nat} {rows : List (Row S)} (h : Snapshot t sig x ids rows) :
    rows.length = ids.length := h.2.1.len

theorem Snapshot.at {t : Tbl S} {sig : Sig} {x : Extraction S} {ids : List Nat} {rows : List (Row S)} (h : Snapshot t sig x ids rows)
    {k : Nat} (hk : k < ids.length) (hk' : k < rows.length) : t.view ids[k] = some rows[k] := by
  have := congrArg (fun l => l[k]?) h.2.2.2.2
  simpa [hk, hk'] using this.symm

end OneTable

section Universes
variable {T : Type} [DecidableEq T] {S : T → Schema} [LS : ∀ t, LawfulSchema (S t)]
variable {K : Type} [LinearOrder K] {key : (t : T) → Row (S t) → K} {cfg : Cfg S} {rank : T → Nat}

/-- Restoring into any table that is not sorted. -/
theorem load_one {ev : Event} (hse : Searchable cfg) (hac : Acyclic cfg rank)
    (hr : ev.isRemoval = false) (hh : cfg.handlers[ev.id]? = some .null) {n : Nat} {t : T} (hn : rank t < n)
    (hk : (S t).kind ≠ .sorted) {u : Uni S} (hu : Unlocked u.env) (hrd : Ready key cfg u.env.tbl)
    (hleak : (u.fl t).leaked = 0) {sig : Sig} {own : List (Own S t)} (hown : ∀ o ∈ own, o.parent ≠ t)
    {x : Extraction (S t)} (hx : x.Matches sig) {ids : List Nat} {rows rows' : List (Row (S t))} (hy : x.Yields ids rows)
    (hup : List.Forall₂ (fun r r' => updateRow u.fl own r = .ok r') rows rows')
    (hcap : (u.env.tbl t).len + rows.length ≤ (S t).max) :
    ∃ u' new, restore key cfg n t sig own x ev u = .ok (none, u') ∧ Unlocked u'.env ∧ Ready key cfg u'.env.tbl ∧
      Added (u.env.tbl t) (u'.env.tbl t) new rows' ∧ (∀ s, s ≠ t → u'.env.tbl s = u.env.tbl s) ∧
      (∀ s, s ≠ t → u'.fl s = u.fl s) ∧ (u'.fl t).identity = (u.fl t).identity ∧
      ((S t).kind = .consistent → cfg.trackers t ≠ [] → (u.fl t).identity = false → ids.Nodup →
        ∀ k (h : k < ids.length) (h' : k < new.length), (u'.fl t).remap ids[k] = some new[k]) := by
  by_cases hc : (S t).kind = .consistent
  · obtain ⟨u', new, a1, a2, a3, a4, a5, a6, a7, a8, a9, -⟩ := restore_consistent hse hac hr hh hn hc hu hrd hleak hown hx hy hup hcap
    refine ⟨u', new, a1, a2, a3, a4, a5, a6, a8, ?_⟩
    intro _ htr hid hnd k h h'
    have hne : ids ≠ [] := by rintro rfl; simp at h
    unfold FlushLock.remap
    rw [a8, hid, a9]
    simp only [Bool.false_eq_true, if_false, hne, hid, or_self, htr]
    exact lookup_zip_reverse hnd (by rw [a4.len, ← hup.length_eq, hy.len]) k h
  · obtain ⟨u', new, a1, a2, a3, a4, a5, a6, -, a8⟩ := restore_quiet (cfg := cfg) (key := key) ev n hc hk hu (hrd.reach t) hown hx hy hup (by omega)
    refine ⟨u', new, a1, a2, ⟨?_, ?_, ?_⟩, a4, a5, fun s _ => by rw [a6], by rw [a6], fun h => absurd h hc⟩
    · intro s
      by_cases e : s = t
      · subst e; exact a3
      · rw [a5 s e]; exact hrd.reach s
    · intro s
      by_cases e : s = t
      · subst e; omega
      · rw [a5 s e]; exact hrd.room s
    · intro p fk hfk hb L
      have hne : fk.child ≠ t := by
        intro e
        have := hse.sorted p fk hfk hb
        rw [e] at this; exact hk this
      rw [a5 _ hne]
      exact hrd.inOrder p fk hfk hb L

/-- The tables `pre` have been loaded. -/
structure Half (key : (t : T) → Row (S t) → K) (cfg : Cfg S) (own : (t : T) → List (Own S t)) (src : (t : T) → Tbl (S t)) (u0 : Uni S)
    (pre : List T) (u : Uni S) (place : T → Nat → Nat) : Prop where
  unlocked : Unlocked u.env
  ready : Ready key cfg u.env.tbl
  copied : ∀ t ∈ pre, (S t).kind ≠ .sorted → CopiedTo own place (leads u0 place) src u0.env.tbl u.env.tbl t
  joined : ∀ t ∈ pre, (S t).kind = .sorted → Joined key src u0.env.tbl u.env.tbl t
  left : ∀ t, (u.fl t).identity = (u0.fl t).identity
  same : ∀ t, t ∉ pre → u.env.tbl t = u0.env.tbl t
  flush : ∀ t, t ∉ pre → u.fl t = u0.fl t
  remap : ∀ t ∈ pre, (u0.fl t).identity = false → (S t).kind = .consistent → cfg.trackers t ≠ [] → ∀ i, (src t).contains i = true → (u.fl t).remap i = some (place t i)

theorem Half.step {ev : Event} (hse : Searchable cfg) (hac : Acyclic cfg rank)
    (hr : ev.isRemoval = false) (hh : cfg.handlers[ev.id]? = some .null) {n : Nat} {t : T} (hn : rank t < n)
    (hk : (S t).kind ≠ .sorted) {own : (t : T) → List (Own S t)} {src : (t : T) → Tbl (S t)} {u0 u : Uni S} {pre : List T} {place : T → Nat → Nat}
    (h : Half key cfg own src u0 pre u place) (ht : t ∉ pre) (hleak : (u0.fl t).leaked = 0)
    (hpre : ∀ s ∈ pre, ∀ o ∈ own s, o.parent ∈ pre)
    (hown : ∀ o ∈ own t, o.parent ∈ pre)
    (hpar : ∀ o ∈ own t, (u0.fl o.parent).identity = true ∨ ((S o.parent).kind = .consistent ∧ cfg.trackers o.parent ≠ []))
    (hnd : ((own t).map (·.col)).Nodup) (hwf : ∀ i, (src t).contains i = ((src t).view i).isSome)
    (hwhole : ∀ i r, (src t).view i = some r → ∀ o ∈ own t, (src o.parent).contains (o.key (r o.col)) = true)
    {sig : Sig} {x : Extraction (S t)} {ids : List Nat} {rows : List (Row (S t))} (hx : Snapshot (src t) sig x ids rows)
    (hcap : (u0.env.tbl t).len + rows.length ≤ (S t).max) :
    ∃ u' place', restore key cfg n t sig (own t) x ev u = .ok (none, u') ∧ Half key cfg own src u0 (pre ++ [t]) u' place' := by
  have hview : ∀ k (h1 : k < ids.length) (h2 : k < rows.length), (src t).view ids[k] = some rows[k] := fun k h1 h2 => hx.at h1 h2
  have hmap : ∀ r ∈ rows, ∀ o ∈ own t, (u.fl o.parent).remap (o.key (r o.col)) = some (leads u0 place o.parent (o.key (r o.col))) := by
    intro r hrr o ho
    obtain ⟨k, hk1, hk2⟩ := List.mem_iff_getElem.1 hrr
    unfold leads
    by_cases hid : (u0.fl o.parent).identity = true
    · rw [if_pos hid]; unfold FlushLock.remap; rw [h.left, hid]; rfl
    rw [if_neg hid]
    have hcons := (hpar o ho).resolve_left hid
    refine h.remap _ (hown o ho) (by simpa using hid) hcons.1 hcons.2 _ ?_
    have hk3 : k < ids.length := by rw [← hx.length]; exact hk1
    refine hwhole ids[k] r ?_ o ho
    rw [hview k hk3 hk1, hk2]
  have hup : ∀ r ∈ rows, ∃ r', updateRow u.fl (own t) r = .ok r' ∧ Remapped u.fl (own t) r r' := by
    intro r hrr
    refine updateRow_ok _ hnd r ?_
    intro o ho
    rw [hmap r hrr o ho]; rfl
  obtain ⟨rows', g1, g2⟩ : ∃ rows', List.Forall₂ (fun r r' => updateRow u.fl (own t) r = .ok r') rows rows' ∧
      List.Forall₂ (Remapped u.fl (own t)) rows rows' := by
    clear hmap hview hx hcap
    induction rows with
    | nil => exact ⟨[], .nil, .nil⟩
    | cons r rows ih =>
      obtain ⟨r', e1, e2⟩ := hup r (by simp)
      obtain ⟨rows', f1, f2⟩ := ih (fun r hr => hup r (by simp [hr]))
      exact ⟨r' :: rows', .cons e1 f1, .cons e2 f2⟩
  have hs : u.env.tbl t = u0.env.tbl t := h.same t ht
  have hf : u.fl t = u0.fl t := h.flush t ht
  have hownt : ∀ o ∈ own t, o.parent ≠ t := fun o ho e => ht (e ▸ hown o ho)
  obtain ⟨u', new, a1, a2, a3, a4, a5, a6, a6i, a7⟩ := load_one (key := key) hse hac hr hh hn hk h.unlocked h.ready (by rw [hf]; exact hleak)
    hownt hx.1 hx.2.1 g1 (by rw [hs]; exact hcap)
  rw [hs] at a4
  have hidn : ids.Nodup := hx.2.2.1.imp (fun h => Nat.ne_of_lt h)
  have hl1 : new.length = ids.length := by rw [a4.len, ← g1.length_eq, hx.length]
  have hl2 : rows.length = ids.length := hx.length
  have hl3 : rows'.length = ids.length := by rw [← g1.length_eq, hl2]
  let pt : Nat → Nat := fun i => new.getD (ids.idxOf i) 0
  have hpt : ∀ k (h1 : k < ids.length) (h2 : k < new.length), pt ids[k] = new[k] := by
    intro k h1 h2
    show new.getD (ids.idxOf ids[k]) 0 = new[k]
    rw [hidn.idxOf_getElem k h1]
    simp [h2]
  have hlive : ∀ i, (src t).contains i = true → ∃ k, ∃ (h1 : k < ids.length), ids[k] = i := by
    intro i hi
    obtain ⟨k, h1, h2⟩ := List.mem_iff_getElem.1 ((hx.2.2.2.1 i).2 hi)
    exact ⟨k, h1, h2⟩
  have hupd : ∀ s, s ≠ t → Function.update place t pt s = place s := fun s e => Function.update_of_ne e _ _
  have hlead : ∀ s, s ≠ t → leads u0 (Function.update place t pt) s = leads u0 place s := by
    intro s e; funext k; unfold leads; rw [hupd s e]
  refine ⟨u', Function.update place t pt, a1, a2, a3, ?_, ?_, ?_, ?_, ?_, ?_⟩
  · intro s hs' hks
    rcases List.mem_append.1 hs' with hs' | hs'
    · have hne : s ≠ t := fun e => ht (e ▸ hs')
      have hc := h.copied s hs' hks
      refine ⟨?_, ?_, ?_, ?_, ?_⟩
      · rw [hupd s hne]; exact hc.fresh
      · rw [hupd s hne]; exact hc.order
      · intro i r hi
        rw [hupd s hne, a5 s hne]
        obtain ⟨r', c1, c2, c3⟩ := hc.row i r hi
        refine ⟨r', c1, ?_, c3⟩
        intro o ho
        have : o.parent ≠ t := fun e => ht (e ▸ hpre s hs' o ho)
        rw [hlead _ this]; exact c2 o ho
      · rw [hupd s hne, a5 s hne]; exact hc.rest
      · rw [hupd s hne, a5 s hne]; exact hc.lowest
    · simp only [List.mem_singleton] at hs'
      subst hs'
      have hu' : Function.update place s pt s = pt := Function.update_self _ _ _
      have hin : ∀ k (h2 : k < new.length), new[k] ∈ new := fun k h2 => List.getElem_mem h2
      refine ⟨?_, ?_, ?_, ?_, ?_⟩
      · intro i hi
        obtain ⟨k, h1, rfl⟩ := hlive i hi
        rw [hu', hpt k h1 (by omega)]
        exact a4.fresh _ (hin _ _)
      · intro i j hi hj hij
        obtain ⟨k, h1, rfl⟩ := hlive i hi
        obtain ⟨m, h2, rfl⟩ := hlive j hj
        rw [hu', hpt k h1 (by omega), hpt m h2 (by omega)]
        have hkm : k < m := by
          rcases Nat.lt_trichotomy k m with e | e | e
          · exact e
          · subst e; omega
          · have := List.pairwise_iff_getElem.1 hx.2.2.1 m k h2 h1 e
            omega
        exact List.pairwise_iff_getElem.1 a4.asc k m (by omega) (by omega) hkm
      · intro i r hi
        have hi' : (src s).contains i = true := by rw [hwf, hi]; rfl
        obtain ⟨k, h1, rfl⟩ := hlive i hi'
        rw [hview k h1 (by omega)] at hi
        injection hi with hi
        refine ⟨rows'[k], ?_, ?_, ?_⟩
        · rw [hu', hpt k h1 (by omega)]
          refine a4.new (new[k], rows'[k]) ?_
          rw [List.mem_iff_getElem]
          exact ⟨k, by simp; omega, by simp⟩
        · intro o ho
          have hne : o.parent ≠ s := hownt o ho
          rw [hlead _ hne]
          have := (List.forall₂_iff_get.1 g2).2 k (by omega) (by omega)
          simp only [List.get_eq_getElem] at this
          have h3 := this.1 o ho
          rw [hmap _ (List.getElem_mem _) o ho, hi] at h3
          injection h3 with h3
          exact h3.symm
        · have := (List.forall₂_iff_get.1 g2).2 k (by omega) (by omega)
          simp only [List.get_eq_getElem] at this
          rw [← hi]
          exact this.2
      · intro j hj
        refine a4.old j ?_
        intro hm
        obtain ⟨k, h1, rfl⟩ := List.mem_iff_getElem.1 hm
        refine hj ids[k] ((hx.2.2.2.1 _).1 (List.getElem_mem _)) ?_
        rw [hu']; exact hpt k (by omega) h1
      · intro i hi j hj
        obtain ⟨k, h1, rfl⟩ := hlive i hi
        rw [hu', hpt k h1 (by omega)] at hj
        obtain ⟨L', hL'⟩ := (a3.reach s).wf
        rw [hL'.contains_view]
        rcases a4.lowest _ (hin k (by omega)) j hj with e | e
        · by_cases hjn : j ∈ new
          · have := a4.fresh j hjn
            rw [e] at this; cases this
          · rw [a4.old j hjn]
            have hL0 := (h.ready.reach s).wf
            rw [hs] at hL0
            obtain ⟨L0, hL0⟩ := hL0
            rw [← hL0.contains_view]; exact e
        · obtain ⟨m, h2, rfl⟩ := List.mem_iff_getElem.1 e
          rw [a4.new (new[m], rows'[m]) (by rw [List.mem_iff_getElem]; exact ⟨m, by simp; omega, by simp⟩)]
          rfl
  · intro s hs' hks
    rcases List.mem_append.1 hs' with hs' | hs'
    · have hne : s ≠ t := fun e => ht (e ▸ hs')
      have := h.joined s hs' hks
      unfold Joined at this ⊢
      rw [a5 s hne]; exact this
    · simp only [List.mem_singleton] at hs'
      subst hs'
      exact absurd hks hk
  · intro s
    by_cases e : s = t
    · subst e; rw [a6i, h.left]
    · rw [a6 s e, h.left]
  · intro s hs'
    simp only [List.mem_append, List.mem_singleton, not_or] at hs'
    rw [a5 s hs'.2]; exact h.same s hs'.1
  · intro s hs'
    simp only [List.mem_append, List.mem_singleton, not_or] at hs'
    rw [a6 s hs'.2]; exact h.flush s hs'.1
  · intro s hs' hid hc htr i hi
    rcases List.mem_append.1 hs' with hs' | hs'
    · have hne : s ≠ t := fun e => ht (e ▸ hs')
      rw [hupd s hne, a6 s hne]
      exact h.remap s hs' hid hc htr i hi
    · simp only [List.mem_singleton] at hs'
      subst hs'
      obtain ⟨k, h1, rfl⟩ := hlive i hi
      rw [Function.update_self, hpt k h1 (by omega)]
      exact a7 hc htr (by rw [hf]; exact hid) hidn k h1 (by omega)

/-- An extraction of a sorted table has its rows. -/
theorem Snapshot.sorted {t : T} {tb : Tbl (S t)} {sig : Sig} {x : Extraction (S t)} {ids : List Nat} {rows A : List (Row (S t))} (h : Snapshot tb sig x ids rows)
    (ht : Reach (key t) true tb) (hk : (S t).kind = .sorted) (hA : Holds tb A) : rows = A := by
  obtain ⟨L, hL⟩ := ht.wf
  have hne : (S t).kind ≠ .consistent := by rw [hk]; decide
  have e := (hL.holds' hne).unique hA
  subst e
  have hf : tb.free = [] := hL.kind hne
  have hc : ∀ i, tb.contains i = true ↔ i < L.length := by
    intro i; rw [hL.contains_iff, hf]; simp
  have hids : ids = List.range ids.length := asc_initial h.2.2.1 (by
    intro i hi k hk
    rw [h.2.2.2.1, hc] at hi ⊢; omega)
  have hl : ids.length = L.length := by
    refine Nat.le_antisymm ?_ ?_
    · by_contra hlt
      have : L.length ∈ ids := by rw [hids, List.mem_range]; omega
      rw [h.2.2.2.1, hc] at this; omega
    · by_contra hlt
      have : ids.length ∈ ids := by rw [h.2.2.2.1, hc]; omega
      rw [hids, List.mem_range] at this
      simp at this
  have hr := h.length
  refine List.ext_getElem (by omega) ?_
  intro k h1 h2
  have := h.at (k := k) (by omega) h1
  have e2 : ids[k]'(by omega) = k := by
    have := congrArg (fun l => l[k]?) hids
    simp only [List.getElem?_range (show k < ids.length by omega)] at this
    rw [List.getElem?_eq_getElem (by omega)] at this
    injection this
  rw [e2] at this
  have hv : tb.view k = some L[k] := by
    rw [hL.view_iff' hne, List.getElem?_eq_getElem h2]
  rw [hv] at this
  injection this with this
  exact this.symm

/-- A sorted table. -/
theorem Half.merge {ev : Event} (hsr : SortsByRef cfg key) {n : Nat} {t : T}
    (hk : (S t).kind = .sorted) {own : (t : T) → List (Own S t)} {src : (t : T) → Tbl (S t)} {u0 u : Uni S} {pre : List T} {place : T → Nat → Nat}
    (h : Half key cfg own src u0 pre u place) (ht : t ∉ pre) (htr : cfg.trackers t = []) (hown : ∀ o ∈ own t, o.parent ∈ pre)
    (hsrc : Reach (key t) true (src t))
    {sig : Sig} {x : Extraction (S t)} {ids : List Nat} {rows : List (Row (S t))} (hx : Snapshot (src t) sig x ids rows)
    (hcap : (u0.env.tbl t).len + rows.length ≤ (S t).max) :
    ∃ u', restore key cfg n t sig (own t) x ev u = .ok (none, u') ∧ Half key cfg own src u0 (pre ++ [t]) u' place := by
  have hne : (S t).kind ≠ .consistent := by rw [hk]; decide
  have hs : u.env.tbl t = u0.env.tbl t := h.same t ht
  obtain ⟨B, hB⟩ := (h.ready.reach t).wf
  have hB' := hB.holds' hne
  obtain ⟨u', L, a1, a2, a3, a4, a5, a6, a7, a8, -, a9⟩ := restore_sorted (key := key) (cfg := cfg) ev n hk htr h.unlocked (h.ready.reach t)
    (fun o ho e => ht (e ▸ hown o ho)) hx.1 hx.2.1 hB' (by rw [← hB'.1, hs]; exact hcap)
  refine ⟨u', a1, a2, ⟨?_, ?_, ?_⟩, ?_, ?_, ?_, ?_, ?_, ?_⟩
  · intro s
    by_cases e : s = t
    · subst e; exact a3
    · rw [a7 s e]; exact h.ready.reach s
  · intro s
    by_cases e : s = t
    · subst e
      rw [a4.1, a5.length_eq, List.length_append, ← hB'.1, hs]; exact hcap
    · rw [a7 s e]; exact h.ready.room s
  · intro p fk hfk hb L2 hL2
    by_cases e : fk.child = t
    · subst e
      have e2 := hL2.unique a4
      subst e2
      have h1 := h.ready.inOrder p fk hfk hb B hB'
      have h2 : SortedBy (key fk.child) B := h1.imp (fun h => (hsr p fk hfk hb _ _).2 h)
      exact (a6 h2).imp (fun h => (hsr p fk hfk hb _ _).1 h)
    · rw [a7 _ e] at hL2
      exact h.ready.inOrder p fk hfk hb L2 hL2
  · intro s hs' hks
    rcases List.mem_append.1 hs' with hs' | hs'
    · have hne : s ≠ t := fun e => ht (e ▸ hs')
      have hc := h.copied s hs' hks
      exact ⟨hc.fresh, hc.order, by rw [a7 s hne]; exact hc.row, by rw [a7 s hne]; exact hc.rest, by rw [a7 s hne]; exact hc.lowest⟩
    · simp only [List.mem_singleton] at hs'
      subst hs'
      exact absurd hk hks
  · intro s hs' hks
    rcases List.mem_append.1 hs' with hs' | hs'
    · have hne : s ≠ t := fun e => ht (e ▸ hs')
      have := h.joined s hs' hks
      unfold Joined at this ⊢
      rw [a7 s hne]; exact this
    · simp only [List.mem_singleton] at hs'
      subst hs'
      intro A B2 hA hB2
      rw [← hs] at hB2
      have e1 := hB2.unique hB'
      subst e1
      have e2 := hx.sorted hsrc hk hA
      subst e2
      refine ⟨L, a4, a5, a6, ?_⟩
      intro e3 hsA
      subst e3
      rw [a9]
      have : sortRows (key s) rows = rows := by
        unfold sortRows
        refine List.mergeSort_of_pairwise ?_
        exact hsA.imp (fun h => by simpa using h)
      rw [this]
      cases rows <;> simp [mergeSpec]
  · intro s; rw [a8, h.left]
  · intro s hs'
    simp only [List.mem_append, List.mem_singleton, not_or] at hs'
    rw [a7 s hs'.2]; exact h.same s hs'.1
  · intro s hs'
    simp only [List.mem_append, List.mem_singleton, not_or] at hs'
    rw [a8]; exact h.flush s hs'.1
  · intro s hs' hid hc htr' i hi
    rcases List.mem_append.1 hs' with hs' | hs'
    · rw [a8]; exact h.remap s hs' hid hc htr' i hi
    · simp only [List.mem_singleton] at hs'
      subst hs'
      exact absurd hc hne

theorem load_all {ev : Event} (hse : Searchable cfg) (hac : Acyclic cfg rank)
    (hr : ev.isRemoval = false) (hh : cfg.handlers[ev.id]? = some .null) {n : Nat} {sig : (t : T) → Sig}
    {own : (t : T) → List (Own S t)} {src : (t : T) → Tbl (S t)} {u0 : Uni S} {x : (t : T) → Extraction (S t)} (rest : List T)
    {u : Uni S} {pre : List T} {place : T → Nat → Nat}
    (h : Half key cfg own src u0 pre u place) (hpf : ParentsFirst own (pre ++ rest)) (hpre : ∀ s ∈ pre, ∀ o ∈ own s, o.parent ∈ pre)
    (hone : ∀ t ∈ rest, rank t < n ∧ ((S t).kind = .sorted → SortsByRef cfg key ∧ cfg.trackers t = [] ∧ Reach (key t) true (src t)) ∧ (u0.fl t).leaked = 0 ∧
      ((S t).kind ≠ .sorted → ∀ o ∈ own t, (u0.fl o.parent).identity = true ∨ ((S o.parent).kind = .consistent ∧ cfg.trackers o.parent ≠ [])) ∧ ((own t).map (·.col)).Nodup ∧
      (∀ i, (src t).contains i = ((src t).view i).isSome) ∧
      (∀ i r, (src t).view i = some r → ∀ o ∈ own t, (src o.parent).contains (o.key (r o.col)) = true) ∧
      ∃ ids rows, Snapshot (src t) (sig t) (x t) ids rows ∧ (u0.env.tbl t).len + rows.length ≤ (S t).max) :
    ∃ u' place', loadAll key cfg n sig own ev (rest.map (fun t => ⟨t, x t⟩)) u = .ok u' ∧
      Half key cfg own src u0 (pre ++ rest) u' place' := by
  induction rest generalizing pre u place with
  | nil => exact ⟨u, place, rfl, by simpa using h⟩
  | cons t rest ih =>
    obtain ⟨b1, b2, b3, b5, b6, b7, b8, ids, rows, b9, b10⟩ := hone t (by simp)
    have hown := hpf.first pre t rest rfl
    have ht : t ∉ pre := by
      have := hpf.nodup
      rw [List.nodup_append] at this
      intro hm
      exact this.2.2 t hm t (by simp) rfl
    have hone1 : ∃ u' place', restore key cfg n t (sig t) (own t) (x t) ev u = .ok (none, u') ∧ Half key cfg own src u0 (pre ++ [t]) u' place' := by
      by_cases hk : (S t).kind = .sorted
      · obtain ⟨u1, c1, c2⟩ := h.merge (ev := ev) (n := n) (b2 hk).1 hk ht (b2 hk).2.1 hown (b2 hk).2.2 b9 b10
        exact ⟨u1, place, c1, c2⟩
      · exact h.step hse hac hr hh b1 hk ht b3 hpre hown (b5 hk) b6 b7 b8 b9 b10
    obtain ⟨u1, place1, c1, c2⟩ := hone1
    obtain ⟨u2, place2, d1, d2⟩ := ih c2 (by simpa using hpf) (by
      intro s hs o ho
      rcases List.mem_append.1 hs with hs | hs
      · exact List.mem_append_left _ (hpre s hs o ho)
      · simp only [List.mem_singleton] at hs
        subst hs
        exact List.mem_append_left _ (hown o ho)) (fun s hs => hone s (by simp [hs]))
    refine ⟨u2, place2, ?_, by simpa using d2⟩
    rw [List.map_cons]
    unfold loadAll
    simp only []
    rw [c1, okBind]
    exact d1

/-- Restoring into `t` leaves the new ids of other tables alone. -/
theorem restore_fl {ev : Event} {n : Nat} {t s : T} {sig : Sig} {own : List (Own S t)} {x : Extraction (S t)} {u u' : Uni S} {e : Option String}
    (h : restore key cfg n t sig own x ev u = .ok (e, u')) (hs : s ≠ t) : u'.fl s = u.fl s := by
  unfold restore at h
  obtain ⟨⟨w, env⟩, h1, h⟩ := bind_ok h
  simp only [] at h
  unfold restoreExtract at h
  obtain ⟨v, h2, h⟩ := bind_ok h
  cases v with
  | some m =>
    simp only [] at h
    obtain ⟨tb, h3, h⟩ := bind_ok h
    injection h with h
    have := congrArg Prod.snd h
    simp only [] at this
    rw [← this]
  | none =>
    simp only [] at h
    obtain ⟨_, h3, h⟩ := bind_ok h
    obtain ⟨⟨w', rm⟩, h4, h⟩ := bind_ok h
    simp only [] at h
    cases hc : w'.changes.isEmpty with
    | true =>
      rw [hc] at h
      simp only [if_true] at h
      obtain ⟨tb, h5, h⟩ := bind_ok h
      injection h with h
      have := congrArg Prod.snd h
      simp only [] at this
      rw [← this]
    | false =>
      rw [hc] at h
      simp only [Bool.false_eq_true, if_false] at h
      obtain ⟨f, h5, h⟩ := bind_ok h
      obtain ⟨env', h6, h⟩ := bind_ok h
      injection h with h
      have := congrArg Prod.snd h
      simp only [] at this
      rw [← this]
      simp only []
      exact Function.update_of_ne hs _ _

theorem loadAll_append {ev : Event} {n : Nat} {sig : (t : T) → Sig} {own : (t : T) → List (Own S t)}
    (xs ys : List (Sigma fun t => Extraction (S t))) (u : Uni S) :
    loadAll key cfg n sig own ev (xs ++ ys) u = (do let u ← loadAll key cfg n sig own ev xs u; loadAll key cfg n sig own ev ys u) := by
  induction xs generalizing u with
  | nil => rfl
  | cons p xs ih =>
    obtain ⟨t, x⟩ := p
    rw [List.cons_append, loadAll, loadAll]
    cases hres : restore key cfg n t (sig t) (own t) x ev u with
    | error q => rfl
    | ok y =>
      obtain ⟨e, u1⟩ := y
      simp only [okBind]
      cases e with
      | some m => rfl
      | none => simp only []; exact ih u1

theorem loadAll_fl {ev : Event} {n : Nat} {sig : (t : T) → Sig} {own : (t : T) → List (Own S t)}
    (xs : List (Sigma fun t => Extraction (S t))) {u u' : Uni S} (h : loadAll key cfg n sig own ev xs u = .ok u') {s : T}
    (hs : ∀ x ∈ xs, x.1 ≠ s) : u'.fl s = u.fl s := by
  induction xs generalizing u with
  | nil => injection h with h; rw [h]
  | cons p xs ih =>
    obtain ⟨t, x⟩ := p
    unfold loadAll at h
    simp only [] at h
    obtain ⟨⟨e, u1⟩, h1, h⟩ := bind_ok h
    simp only [] at h
    cases e with
    | some m => cases h
    | none =>
      simp only [] at h
      rw [ih h (fun x hx => hs x (by simp [hx]))]
      exact restore_fl h1 (fun e => hs ⟨t, x⟩ (by simp) e.symm)

end Universes
end V11
