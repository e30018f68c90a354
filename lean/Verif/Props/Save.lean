import Verif.Lemmas.Save
import Verif.Spec.Usage

/-!
# Saving a universe's tables and loading them into another universe: C89

`saveAll sig src order` extracts the listed tables, writes the extractions and reads them again; `loadAll key cfg n sig own ev xs u`
restores them in order into the universe `u`, with a stack for `n` nested flushes. `own t` lists the `#[foreign_auto]` columns of `t`.
-/

set_option linter.unusedSimpArgs false
set_option linter.unusedSectionVars false
set_option linter.unusedVariables false

namespace V11
variable {T : Type} [DecidableEq T] {S : T → Schema} [LS : ∀ t, LawfulSchema (S t)]
variable {K : Type} [LinearOrder K] {key : (t : T) → Row (S t) → K} {cfg : Cfg S} {rank : T → Nat}

/-- C89: tables of which every foreign key is good, saved in an order with parents first, can be loaded into any universe with
room for them. Every live row of a table that is not sorted arrives, once, in an id that was not in use, in the order of the old ids; it is as it was
except that its foreign keys lead to where the rows it referenced went, unless ids of that table are left alone; every other row of that table is as
before. The rows of a sorted table arrive between those that were there, with the foreign keys they had. Every other table is as before. -/
theorem C89_any_tables {ev : Event} (hse : Searchable cfg) (hac : Acyclic cfg rank)
    (hr : ev.isRemoval = false) (hh : cfg.handlers[ev.id]? = some .null) {n : Nat} (sig : (t : T) → Sig)
    (own : (t : T) → List (Own S t)) (order : List T) (hpf : ParentsFirst own order) (hn : ∀ t ∈ order, rank t < n)
    (hsb : (∃ t ∈ order, (S t).kind = .sorted) → SortsByRef cfg key)
    (src : Env S) (hsu : Unlocked src) (hsr : ∀ t ∈ order, Reach (key t) true (src.tbl t)) (hw : Whole own src.tbl order)
    (u : Uni S) (hu : Unlocked u.env) (hrd : Ready key cfg u.env.tbl) (hrc : Accepts cfg own order u)
    (hroom : ∀ t ∈ order, (u.env.tbl t).len + (src.tbl t).len ≤ (S t).max) :
    ∃ xs u' place, saveAll sig src order = .ok xs ∧ loadAll key cfg n sig own ev xs u = .ok u' ∧ Unlocked u'.env ∧
      Ready key cfg u'.env.tbl ∧
      (∀ t ∈ order, (S t).kind ≠ .sorted → CopiedTo own place (leads u place) src.tbl u.env.tbl u'.env.tbl t) ∧
      (∀ t ∈ order, (S t).kind = .sorted → Joined key src.tbl u.env.tbl u'.env.tbl t) ∧
      ∀ t, t ∉ order → u'.env.tbl t = u.env.tbl t := by
  have hsnap : ∀ t, ∃ x : Extraction (S t), t ∈ order → saveOne sig src t = .ok ⟨t, x⟩ ∧
      ∃ ids rows, Snapshot (src.tbl t) (sig t) x ids rows ∧ (u.env.tbl t).len + rows.length ≤ (S t).max := by
    intro t
    by_cases ht : t ∈ order
    · have hl := hroom t ht
      obtain ⟨x0, x, ids, rows, a1, a2, a3⟩ := snapshot (hsr t ht) (sig t) (by omega)
      refine ⟨x, fun _ => ⟨?_, ids, rows, a3, ?_⟩⟩
      · unfold saveOne Env.peek
        rw [if_neg (by simp [hsu.2 t]), okBind, a1, okBind, a2, okBind]
      · obtain ⟨L, hL⟩ := (hsr t ht).wf
        have hsub : ids ⊆ List.range (src.tbl t).len := by
          intro i hi
          rw [List.mem_range, hL.len]
          exact ((hL.contains_iff i).1 ((a3.2.2.2.1 i).1 hi)).1
        have hnd : ids.Nodup := a3.2.2.1.imp (fun h => Nat.ne_of_lt h)
        have := hnd.length_le_of_subset hsub
        rw [List.length_range] at this
        have := a3.length
        omega
    · exact ⟨{ fmt := 0, domain := "", name := "", schema := 0, columns := [], selection := [], data := fun j => ((S t).C j).new },
        fun h => absurd h ht⟩
  choose x hx using hsnap
  have hsave : saveAll sig src order = .ok (order.map (fun t => (⟨t, x t⟩ : Sigma fun t => Extraction (S t)))) := by
    unfold saveAll
    refine mapM_ok (by simp) ?_
    intro k h1 h2
    rw [(hx _ (List.getElem_mem h1)).1]
    simp
  have h0 : Half key cfg own src.tbl u [] u (fun _ i => i) :=
    ⟨hu, hrd, by simp, by simp, fun _ => rfl, fun _ _ => rfl, fun _ _ => rfl, by simp⟩
  obtain ⟨u', place, b1, b2⟩ := load_all (x := x) (sig := sig) (n := n) hse hac hr hh order h0 (by simpa using hpf) (by simp) (by
    intro t ht
    obtain ⟨L, hL⟩ := (hsr t ht).wf
    exact ⟨hn t ht, fun hk => ⟨hsb ⟨t, ht, hk⟩, hrc.untracked t ht hk, hsr t ht⟩, hrc.unleaked t ht, hrc.parents t ht, hrc.columns t ht,
      hL.contains_view, hw t ht, (hx t ht).2⟩)
  exact ⟨_, u', place, hsave, b1, b2.unlocked, b2.ready, by simpa using b2.copied, by simpa using b2.joined, by simpa using b2.same⟩

/-- C89: if no listed table is sorted and no ids are left alone: every live row arrives, once, in an id that was not in use, in the order of the old ids; it is as it was
except that its foreign keys lead to where the rows it referenced went; every other row of the universe, and every other
table, is as before. -/
theorem C89_save_load {ev : Event} (hse : Searchable cfg) (hac : Acyclic cfg rank)
    (hr : ev.isRemoval = false) (hh : cfg.handlers[ev.id]? = some .null) {n : Nat} (sig : (t : T) → Sig)
    (own : (t : T) → List (Own S t)) (order : List T) (hpf : ParentsFirst own order) (hn : ∀ t ∈ order, rank t < n)
    (src : Env S) (hsu : Unlocked src) (hsr : ∀ t ∈ order, Reach (key t) true (src.tbl t)) (hw : Whole own src.tbl order)
    (u : Uni S) (hu : Unlocked u.env) (hrd : Ready key cfg u.env.tbl) (hrc : Receives cfg own order u)
    (hroom : ∀ t ∈ order, (u.env.tbl t).len + (src.tbl t).len ≤ (S t).max) :
    ∃ xs u' place, saveAll sig src order = .ok xs ∧ loadAll key cfg n sig own ev xs u = .ok u' ∧ Unlocked u'.env ∧
      Ready key cfg u'.env.tbl ∧ (∀ t ∈ order, Copied own place src.tbl u.env.tbl u'.env.tbl t) ∧
      ∀ t, t ∉ order → u'.env.tbl t = u.env.tbl t := by
  obtain ⟨xs, u', place, a1, a2, a3, a4, a5, -, a6⟩ := C89_any_tables hse hac hr hh (n := n) sig own order hpf hn
    (fun ⟨t, ht, hk⟩ => absurd hk (hrc.unsorted t ht)) src hsu hsr hw u hu hrd
    ⟨fun t ht hk => absurd hk (hrc.unsorted t ht), hrc.columns, fun t ht _ o ho => .inr (hrc.parents t ht o ho), hrc.unleaked⟩ hroom
  refine ⟨xs, u', place, a1, a2, a3, a4, ?_, a6⟩
  intro t ht
  have hc := a5 t ht (hrc.unsorted t ht)
  refine ⟨hc.fresh, hc.order, ?_, hc.rest, hc.lowest⟩
  intro i r hi
  obtain ⟨r', c1, c2, c3⟩ := hc.row i r hi
  refine ⟨r', c1, ?_, c3⟩
  intro o ho
  obtain ⟨pre, post, e⟩ := List.append_of_mem ht
  have hpo : o.parent ∈ order := by
    rw [e]; exact List.mem_append_left _ (hpf.first pre t post e o ho)
  rw [c2 o ho]
  unfold leads
  rw [if_neg (by rw [hrc.mapped _ hpo]; decide)]

/-- C89: if every foreign key was good in both universes, then those in the universe loaded into are exactly if the loaded rows whose foreign keys are not
changed (those of sorted tables, and those that reference a table whose ids are left alone) happen to reference a row there. -/
theorem C89_dangling (own : (t : T) → List (Own S t)) (order : List T) (hpf : ParentsFirst own order) (place : T → Nat → Nat) (u : Uni S)
    (src dst' : (t : T) → Tbl (S t)) (hsr : ∀ t ∈ order, Reach (key t) true (src t)) (hdr : ∀ t ∈ order, Reach (key t) true (u.env.tbl t))
    (hdr' : ∀ t ∈ order, Reach (key t) true (dst' t)) (hpc : ∀ t ∈ order, ∀ o ∈ own t, (S o.parent).kind = .consistent)
    (hs : Whole own src order) (hd : Whole own u.env.tbl order)
    (hc : ∀ t ∈ order, (S t).kind ≠ .sorted → CopiedTo own place (leads u place) src u.env.tbl dst' t)
    (hj : ∀ t ∈ order, (S t).kind = .sorted → Joined key src u.env.tbl dst' t) :
    Whole own dst' order ↔ ∀ t ∈ order, ∀ i r, (src t).view i = some r → ∀ o ∈ own t, ((S t).kind = .sorted ∨ (u.fl o.parent).identity = true) →
      (dst' o.parent).contains (o.key (r o.col)) = true := by
  have hlive : ∀ (u : (t : T) → Tbl (S t)), (∀ t ∈ order, Reach (key t) true (u t)) → ∀ t ∈ order, ∀ i, (u t).contains i = ((u t).view i).isSome := by
    intro u hu t ht i
    obtain ⟨L, hL⟩ := (hu t ht).wf
    exact hL.contains_view i
  have hpo : ∀ t ∈ order, ∀ o ∈ own t, o.parent ∈ order := by
    intro t ht o ho
    obtain ⟨pre, post, e⟩ := List.append_of_mem ht
    rw [e]; exact List.mem_append_left _ (hpf.first pre t post e o ho)
  have hns : ∀ t ∈ order, ∀ o ∈ own t, (S o.parent).kind ≠ .sorted := by
    intro t ht o ho; rw [hpc t ht o ho]; decide
  have hkeep : ∀ p ∈ order, (S p).kind ≠ .sorted → ∀ k, (u.env.tbl p).contains k = true → (dst' p).contains k = true := by
    intro p hp hk k hl
    rw [hlive dst' hdr' p hp, (hc p hp hk).rest k, ← hlive _ hdr p hp]
    · exact hl
    · intro i hi e
      have := (hc p hp hk).fresh i hi
      rw [e, hl] at this; cases this
  have hsorted : ∀ t ∈ order, (S t).kind = .sorted → ∃ A B L : List (Row (S t)), (∀ i, (src t).view i = A[i]?) ∧ (∀ i, (u.env.tbl t).view i = B[i]?) ∧
      (∀ i, (dst' t).view i = L[i]?) ∧ L.Perm (B ++ A) := by
    intro t ht hk
    have hne : (S t).kind ≠ .consistent := by rw [hk]; decide
    obtain ⟨A, hA⟩ := (hsr t ht).wf
    obtain ⟨B, hB⟩ := (hdr t ht).wf
    obtain ⟨L, g1, g2, -⟩ := hj t ht hk A B (hA.holds' hne) (hB.holds' hne)
    obtain ⟨L', hL'⟩ := (hdr' t ht).wf
    have e := (hL'.holds' hne).unique g1
    subst e
    exact ⟨A, B, L', hA.view_iff' hne, hB.view_iff' hne, hL'.view_iff' hne, g2⟩
  constructor
  · intro hw t ht i r hi o ho hcase
    by_cases hk : (S t).kind = .sorted
    · obtain ⟨A, B, L, v1, v2, v3, hp⟩ := hsorted t ht hk
      rw [v1] at hi
      have hm : r ∈ L := hp.mem_iff.2 (List.mem_append_right _ (List.mem_of_getElem? hi))
      obtain ⟨k, hk1⟩ := List.mem_iff_getElem?.1 hm
      exact hw t ht k r (by rw [v3, hk1]) o ho
    · have hid := hcase.resolve_left hk
      obtain ⟨r', c1, c2, c3⟩ := (hc t ht hk).row i r hi
      have := hw t ht _ r' c1 o ho
      rw [c2 o ho] at this
      unfold leads at this
      rw [if_pos hid] at this
      exact this
  · intro hun t ht k r' hk o ho
    have hp := hpo t ht o ho
    by_cases hks : (S t).kind = .sorted
    · obtain ⟨A, B, L, v1, v2, v3, hperm⟩ := hsorted t ht hks
      rw [v3] at hk
      have hm := hperm.mem_iff.1 (List.mem_of_getElem? hk)
      rcases List.mem_append.1 hm with hm | hm
      · obtain ⟨i, hi⟩ := List.mem_iff_getElem?.1 hm
        exact hkeep _ hp (hns t ht o ho) _ (hd t ht i r' (by rw [v2, hi]) o ho)
      · obtain ⟨i, hi⟩ := List.mem_iff_getElem?.1 hm
        exact hun t ht i r' (by rw [v1, hi]) o ho (.inl hks)
    · by_cases hpl : ∃ i, (src t).contains i = true ∧ place t i = k
      · obtain ⟨i, hi, rfl⟩ := hpl
        have hi' := hi
        rw [hlive src hsr t ht, Option.isSome_iff_exists] at hi'
        obtain ⟨r, hv⟩ := hi'
        obtain ⟨r1, c1, c2, -⟩ := (hc t ht hks).row i r hv
        rw [hk] at c1
        injection c1 with c1
        subst c1
        rw [c2 o ho]
        unfold leads
        by_cases hid : (u.fl o.parent).identity = true
        · rw [if_pos hid]
          exact hun t ht i r hv o ho (.inr hid)
        · rw [if_neg hid]
          have hpp := hs t ht i r hv o ho
          rw [hlive src hsr _ hp, Option.isSome_iff_exists] at hpp
          obtain ⟨q, hq⟩ := hpp
          obtain ⟨q', d1, -⟩ := (hc _ hp (hns t ht o ho)).row _ q hq
          rw [hlive dst' hdr' _ hp, d1]; rfl
      · have hrest := (hc t ht hks).rest k (fun i hi e => hpl ⟨i, hi, e⟩)
        rw [hk] at hrest
        exact hkeep _ hp (hns t ht o ho) _ (hd t ht k r' hrest.symm o ho)

/-- C89: if every foreign key of the listed tables was good in both universes, it is in the one loaded into. -/
theorem C89_keys_stay_good (own : (t : T) → List (Own S t)) (order : List T) (hpf : ParentsFirst own order) (place : T → Nat → Nat)
    (src dst dst' : (t : T) → Tbl (S t)) (hsr : ∀ t ∈ order, Reach (key t) true (src t)) (hdr : ∀ t ∈ order, Reach (key t) true (dst t))
    (hdr' : ∀ t ∈ order, Reach (key t) true (dst' t)) (hs : Whole own src order) (hd : Whole own dst order)
    (hc : ∀ t ∈ order, Copied own place src dst dst' t) : Whole own dst' order := by
  have hlive : ∀ (u : (t : T) → Tbl (S t)), (∀ t ∈ order, Reach (key t) true (u t)) → ∀ t ∈ order, ∀ i, (u t).contains i = ((u t).view i).isSome := by
    intro u hu t ht i
    obtain ⟨L, hL⟩ := (hu t ht).wf
    exact hL.contains_view i
  intro t ht k r' hk o ho
  obtain ⟨pre, post, e⟩ := List.append_of_mem ht
  have hpo : o.parent ∈ order := by
    rw [e]; exact List.mem_append_left _ (hpf.first pre t post e o ho)
  by_cases hpl : ∃ i, (src t).contains i = true ∧ place t i = k
  · obtain ⟨i, hi, rfl⟩ := hpl
    have hi' := hi
    rw [hlive src hsr t ht, Option.isSome_iff_exists] at hi'
    obtain ⟨r, hv⟩ := hi'
    obtain ⟨r1, c1, c2, -⟩ := (hc t ht).row i r hv
    rw [hk] at c1
    injection c1 with c1
    subst c1
    rw [c2 o ho]
    have hp := hs t ht i r hv o ho
    rw [hlive src hsr _ hpo, Option.isSome_iff_exists] at hp
    obtain ⟨q, hq⟩ := hp
    obtain ⟨q', d1, -⟩ := (hc _ hpo).row _ q hq
    rw [hlive dst' hdr' _ hpo, d1]; rfl
  · have hrest := (hc t ht).rest k (fun i hi e => hpl ⟨i, hi, e⟩)
    rw [hk] at hrest
    have hp := hd t ht k r' hrest.symm o ho
    have hold := (hc _ hpo).rest (o.key (r' o.col)) (by
      intro i hi e
      have := (hc _ hpo).fresh i hi
      rw [e, hp] at this; cases this)
    rw [hlive dst' hdr' _ hpo, hold, ← hlive dst hdr _ hpo]
    exact hp

/-- C89: in a table that was empty the rows get the ids `0, 1, …`: each one's id is the number of live rows that were before it. -/
theorem C89_into_empty {own : (t : T) → List (Own S t)} {place ref : T → Nat → Nat} {src dst dst' : (t : T) → Tbl (S t)} {t : T}
    (hsr : Reach (key t) true (src t)) (hdr' : Reach (key t) true (dst' t))
    (hc : CopiedTo own place ref src dst dst' t) (hempty : ∀ k, (dst t).view k = none) :
    (∀ k, (dst' t).contains k = true ↔ ∃ i, (src t).contains i = true ∧ place t i = k) ∧
    ∀ i, (src t).contains i = true → place t i = ((List.range i).filter (fun k => (src t).contains k)).length := by
  obtain ⟨L, hL⟩ := hsr.wf
  obtain ⟨L', hL'⟩ := hdr'.wf
  have hiff : ∀ k, (dst' t).contains k = true ↔ ∃ i, (src t).contains i = true ∧ place t i = k := by
    intro k
    constructor
    · intro hk
      by_contra hno
      have := hc.rest k (fun i hi e => hno ⟨i, hi, e⟩)
      rw [hempty] at this
      rw [hL'.contains_view, this] at hk
      cases hk
    · rintro ⟨i, hi, rfl⟩
      rw [hL.contains_view, Option.isSome_iff_exists] at hi
      obtain ⟨r, hr⟩ := hi
      obtain ⟨r', h1, -⟩ := hc.row i r hr
      rw [hL'.contains_view, h1]; rfl
  refine ⟨hiff, ?_⟩
  intro i hi
  have hmap : ((List.range i).filter (fun k => (src t).contains k)).map (place t) = List.range (place t i) := by
    have hasc : (((List.range i).filter (fun k => (src t).contains k)).map (place t)).Pairwise (· < ·) := by
      rw [List.pairwise_map]
      refine List.Pairwise.imp_of_mem ?_ (List.Pairwise.filter _ List.pairwise_lt_range)
      intro a b ha hb hab
      exact hc.order a b (List.mem_filter.1 ha).2 (List.mem_filter.1 hb).2 hab
    refine List.Perm.eq_of_pairwise (le := (· < ·)) (by intro a b _ _ h1 h2; omega) hasc List.pairwise_lt_range ?_
    refine (List.perm_ext_iff_of_nodup (hasc.imp (fun h => Nat.ne_of_lt h)) List.nodup_range).2 ?_
    intro k
    rw [List.mem_range, List.mem_map]
    constructor
    · rintro ⟨a, ha, rfl⟩
      obtain ⟨h1, h2⟩ := List.mem_filter.1 ha
      exact hc.order a i h2 hi (List.mem_range.1 h1)
    · intro hk
      obtain ⟨a, ha, e⟩ := (hiff k).1 (hc.lowest i hi k hk)
      refine ⟨a, List.mem_filter.2 ⟨?_, ha⟩, e⟩
      rw [List.mem_range]
      by_contra hge
      rcases Nat.lt_or_ge i a with h | h
      · have := hc.order i a hi ha h; omega
      · have : a = i := by omega
        subst this; omega
  have := congrArg List.length hmap
  simpa using this.symm

/-- C89: tables without gaps, sorted or not, loaded into a universe where they are empty, are the same: every row in its old id, every foreign
key as it was; whether ids are left alone or not. -/
theorem C89_identical {ev : Event} (hse : Searchable cfg) (hac : Acyclic cfg rank)
    (hr : ev.isRemoval = false) (hh : cfg.handlers[ev.id]? = some .null) {n : Nat} (sig : (t : T) → Sig)
    (own : (t : T) → List (Own S t)) (order : List T) (hpf : ParentsFirst own order) (hn : ∀ t ∈ order, rank t < n)
    (hsb : (∃ t ∈ order, (S t).kind = .sorted) → SortsByRef cfg key)
    (src : Env S) (hsu : Unlocked src) (hsr : ∀ t ∈ order, Reach (key t) true (src.tbl t)) (hw : Whole own src.tbl order)
    (hgap : ∀ t ∈ order, ∀ i, (src.tbl t).contains i = true → ∀ k < i, (src.tbl t).contains k = true)
    (hord : ∀ t ∈ order, (S t).kind = .sorted → ∀ L, Holds (src.tbl t) L → SortedBy (key t) L)
    (hpc : ∀ t ∈ order, ∀ o ∈ own t, (S o.parent).kind = .consistent)
    (u : Uni S) (hu : Unlocked u.env) (hrd : Ready key cfg u.env.tbl) (hrc : Accepts cfg own order u)
    (hempty : ∀ t ∈ order, ∀ k, (u.env.tbl t).view k = none)
    (hroom : ∀ t ∈ order, (u.env.tbl t).len + (src.tbl t).len ≤ (S t).max) :
    ∃ xs u', saveAll sig src order = .ok xs ∧ loadAll key cfg n sig own ev xs u = .ok u' ∧
      ∀ t ∈ order, ∀ i, (u'.env.tbl t).view i = (src.tbl t).view i := by
  obtain ⟨xs, u', place, a1, a2, a3, a4, a5, a5', a6⟩ := C89_any_tables hse hac hr hh (n := n) sig own order hpf hn hsb src hsu hsr hw u hu hrd hrc hroom
  refine ⟨xs, u', a1, a2, ?_⟩
  have hsame : ∀ t ∈ order, (S t).kind ≠ .sorted → ∀ i, (src.tbl t).contains i = true → place t i = i := by
    intro t ht hks i hi
    rw [(C89_into_empty (hsr t ht) (a4.reach t) (a5 t ht hks) (hempty t ht)).2 i hi]
    rw [List.filter_eq_self.2]
    · simp
    · intro k hk
      exact hgap t ht i hi k (List.mem_range.1 hk)
  intro t ht i
  obtain ⟨L, hL⟩ := (hsr t ht).wf
  obtain ⟨L', hL'⟩ := (a4.reach t).wf
  by_cases hks : (S t).kind = .sorted
  · have hne : (S t).kind ≠ .consistent := by rw [hks]; decide
    obtain ⟨B, hB⟩ := (hrd.reach t).wf
    have hB0 : B = [] := by
      have := hempty t ht 0
      rw [hB.view_iff' hne] at this
      simpa using this
    obtain ⟨L2, g1, -, -, g2⟩ := a5' t ht hks L B (hL.holds' hne) (hB.holds' hne)
    have e := (hL'.holds' hne).unique g1
    rw [hL'.view_iff' hne, hL.view_iff' hne, e, g2 hB0 (hord t ht hks L (hL.holds' hne))]
  cases hv : (src.tbl t).view i with
  | none =>
    have hn' : (u'.env.tbl t).contains i = false := by
      rw [Bool.eq_false_iff]
      intro hc
      obtain ⟨k, h1, h2⟩ := ((C89_into_empty (hsr t ht) (a4.reach t) (a5 t ht hks) (hempty t ht)).1 i).1 hc
      rw [hsame t ht hks k h1] at h2
      subst h2
      rw [hL.contains_view, hv] at h1; cases h1
    rw [hL'.contains_view] at hn'
    exact Option.isSome_eq_false_iff.1 hn' |> Option.isNone_iff_eq_none.1
  | some r =>
    obtain ⟨r', c1, c2, c3⟩ := (a5 t ht hks).row i r hv
    rw [hsame t ht hks i (by rw [hL.contains_view, hv]; rfl)] at c1
    rw [c1]
    congr 1
    funext j
    by_cases hj : ∃ o ∈ own t, o.col = j
    · obtain ⟨o, ho, rfl⟩ := hj
      have hpo : o.parent ∈ order := by
        obtain ⟨pre, post, e⟩ := List.append_of_mem ht
        rw [e]; exact List.mem_append_left _ (hpf.first pre t post e o ho)
      have h1 := c2 o ho
      have hpk : (S o.parent).kind ≠ .sorted := by rw [hpc t ht o ho]; decide
      unfold leads at h1
      rw [hsame _ hpo hpk _ (hw t ht i r hv o ho)] at h1
      rw [ite_self] at h1
      exact o.key.injective h1
    · exact c3 j (fun o ho e => hj ⟨o, ho, e⟩)

/-- C89, the defect: a row of a sorted table that references an id not below the number of live rows of that table references nothing after
both have been loaded into a universe where that table is empty. -/
theorem C89_sorted_broken {ev : Event} (hse : Searchable cfg) (hac : Acyclic cfg rank)
    (hr : ev.isRemoval = false) (hh : cfg.handlers[ev.id]? = some .null) {n : Nat} (sig : (t : T) → Sig)
    (own : (t : T) → List (Own S t)) (order : List T) (hpf : ParentsFirst own order) (hn : ∀ t ∈ order, rank t < n)
    (hsb : SortsByRef cfg key)
    (src : Env S) (hsu : Unlocked src) (hsr : ∀ t ∈ order, Reach (key t) true (src.tbl t)) (hw : Whole own src.tbl order)
    (u : Uni S) (hu : Unlocked u.env) (hrd : Ready key cfg u.env.tbl) (hrc : Accepts cfg own order u)
    (hroom : ∀ t ∈ order, (u.env.tbl t).len + (src.tbl t).len ≤ (S t).max)
    (t : T) (ht : t ∈ order) (hk : (S t).kind = .sorted) (o : Own S t) (ho : o ∈ own t) (hpc : (S o.parent).kind = .consistent)
    (hempty : ∀ k, (u.env.tbl o.parent).view k = none) (i : Nat) (r : Row (S t)) (hi : (src.tbl t).view i = some r)
    (hbig : liveCount (src.tbl o.parent) ≤ o.key (r o.col)) :
    ∃ xs u' k, saveAll sig src order = .ok xs ∧ loadAll key cfg n sig own ev xs u = .ok u' ∧ (u'.env.tbl t).view k = some r ∧
      (u'.env.tbl o.parent).contains (o.key (r o.col)) = false := by
  obtain ⟨xs, u', place, a1, a2, a3, a4, a5, a6, a7⟩ := C89_any_tables hse hac hr hh (n := n) sig own order hpf hn (fun _ => hsb) src hsu hsr hw u hu hrd hrc hroom
  have hne : (S t).kind ≠ .consistent := by rw [hk]; decide
  have hpo : o.parent ∈ order := by
    obtain ⟨pre, post, e⟩ := List.append_of_mem ht
    rw [e]; exact List.mem_append_left _ (hpf.first pre t post e o ho)
  obtain ⟨A, hA⟩ := (hsr t ht).wf
  obtain ⟨B, hB⟩ := (hrd.reach t).wf
  obtain ⟨L', hL'⟩ := (a4.reach t).wf
  obtain ⟨L, g1, g2, -⟩ := a6 t ht hk A B (hA.holds' hne) (hB.holds' hne)
  have e := (hL'.holds' hne).unique g1
  subst e
  rw [hA.view_iff' hne] at hi
  have hm : r ∈ L' := g2.mem_iff.2 (List.mem_append_right _ (List.mem_of_getElem? hi))
  obtain ⟨k, hk1⟩ := List.mem_iff_getElem?.1 hm
  refine ⟨xs, u', k, a1, a2, by rw [hL'.view_iff' hne, hk1], ?_⟩
  rw [Bool.eq_false_iff]
  intro hc
  obtain ⟨h1, h2⟩ := C89_into_empty (hsr _ hpo) (a4.reach _) (a5 _ hpo (by rw [hpc]; decide)) hempty
  obtain ⟨j, j1, j2⟩ := (h1 _).1 hc
  rw [h2 j j1] at j2
  obtain ⟨M, hM⟩ := (hsr _ hpo).wf
  have hjl : j < (src.tbl o.parent).len := by
    rw [hM.len]; exact ((hM.contains_iff j).1 j1).1
  have hlt : ((List.range j).filter (fun k => (src.tbl o.parent).contains k)).length < liveCount (src.tbl o.parent) := by
    unfold liveCount
    have hsplit : List.range (src.tbl o.parent).len = List.range j ++ j :: (List.range ((src.tbl o.parent).len - (j + 1))).map (fun x => j + 1 + x) := by
      have : (src.tbl o.parent).len = (j + 1) + ((src.tbl o.parent).len - (j + 1)) := by omega
      rw [this, List.range_add, List.range_succ]
      simp
    rw [hsplit, List.filter_append, List.filter_cons, if_pos (by simpa using j1)]
    simp
  omega

/-- C89: the order matters: if a table that has a row is loaded before a table it references and that is not in place from an
earlier load, loading panics, whatever the state. -/
theorem C89_children_first {ev : Event} {n : Nat} (sig : (t : T) → Sig) (own : (t : T) → List (Own S t)) (pre post : List T) (t : T)
    (hk : (S t).kind ≠ .sorted) (hnd : ((own t).map (·.col)).Nodup) (o : Own S t) (ho : o ∈ own t) (hno : o.parent ∉ pre)
    (src : Env S) (hsr : Reach (key t) true (src.tbl t)) (hl : (src.tbl t).len ≤ (S t).max) (i : Nat) (hi : (src.tbl t).contains i = true)
    (u : Uni S) (hnew : u.fl o.parent = FlushLock.new) (xs : List (Sigma fun t => Extraction (S t)))
    (hxs : saveAll sig src (pre ++ t :: post) = .ok xs) (u' : Uni S) : loadAll key cfg n sig own ev xs u ≠ .ok u' := by
  intro h
  unfold saveAll at hxs
  rw [List.mapM_append] at hxs
  obtain ⟨xa, h1, hxs⟩ := bind_ok hxs
  obtain ⟨xb, h2, hxs⟩ := bind_ok hxs
  injection hxs with hxs
  subst hxs
  rw [List.mapM_cons] at h2
  obtain ⟨xt, h3, h2⟩ := bind_ok h2
  obtain ⟨xc, h4, h2⟩ := bind_ok h2
  injection h2 with h2
  subst h2
  have hfst : ∀ (l : List T) (ys : List (Sigma fun t => Extraction (S t))), l.mapM (saveOne sig src) = .ok ys → ys.map Sigma.fst = l := by
    intro l
    induction l with
    | nil => intro ys h; injection h with h; subst h; rfl
    | cons a l ih =>
      intro ys h
      rw [List.mapM_cons] at h
      obtain ⟨y, g1, h⟩ := bind_ok h
      obtain ⟨ys', g2, h⟩ := bind_ok h
      injection h with h
      subst h
      rw [List.map_cons, ih ys' g2]
      unfold saveOne at g1
      obtain ⟨tb, -, g1⟩ := bind_ok g1
      obtain ⟨x1, -, g1⟩ := bind_ok g1
      obtain ⟨x2, -, g1⟩ := bind_ok g1
      injection g1 with g1
      rw [← g1]
  obtain ⟨x0, x, ids, rows, a1, a2, a3⟩ := snapshot hsr (sig t) hl
  have hxt : xt = ⟨t, x⟩ := by
    unfold saveOne at h3
    obtain ⟨tb, g1, h3⟩ := bind_ok h3
    unfold Env.peek at g1
    split at g1
    · cases g1
    · injection g1 with g1
      subst g1
      rw [a1, okBind, a2, okBind] at h3
      injection h3 with h3
      exact h3.symm
  subst hxt
  rw [loadAll_append] at h
  obtain ⟨u1, e1, h⟩ := bind_ok h
  have hfl : u1.fl o.parent = FlushLock.new := by
    rw [loadAll_fl xa e1, hnew]
    intro y hy e
    refine hno ?_
    rw [← hfst pre xa h1]
    exact List.mem_map.2 ⟨y, hy, e⟩
  rw [loadAll] at h
  obtain ⟨⟨e, u2⟩, e2, h⟩ := bind_ok h
  simp only [] at h
  cases e with
  | some m => cases h
  | none =>
    obtain ⟨k, hk1, hk2⟩ := List.mem_iff_getElem.1 ((a3.2.2.2.1 i).2 hi)
    have hk3 : k < rows.length := by rw [a3.length]; exact hk1
    exact C36_missing_remapping_panics ev n hk u1 hnd a3.2.1 rows[k] (List.getElem_mem _) o ho (by rw [hfl]; rfl) u2 e2

/-! ## Concretely -/

/-- The foreign columns of the demonstration universe: table 1 references table 0. -/
def saveOwn : (t : Fin 3) → List (Own UniS t)
  | 0 => []
  | 1 => [uniOwn1]
  | 2 => [uniOwn2]

/-- A universe of the same tables in which nothing is. -/
def saveEmpty : Uni UniS := { env := { tbl := fun _ => Tbl.new, reads := fun _ => 0, writer := fun _ => false, log := [] }, fl := fun _ => FlushLock.new }

/-- A row of table 0, and with it rows 0 and 1 of table 1, deleted. -/
def saveSrc : Env UniS :=
  match session uniCfg 3 uniKey 0 [.delete 0] evDelete uniEnv with
  | .ok env => env
  | .error _ => uniEnv

/-- What the first two tables look like after saving `src` and loading it into `u`. -/
def saveShow (order : List (Fin 3)) (src : Env UniS) (u : Uni UniS) : Option (List (Option (Nat × Nat)) × List (Option (Nat × Nat))) :=
  match (do let xs ← saveAll uniSig src order; loadAll uniKey uniCfg 3 uniSig saveOwn evRestore xs u) with
  | .ok u' => some (uniView (u'.env.tbl 0) 6, uniView (u'.env.tbl 1) 6)
  | .error _ => none

example : uniView (saveSrc.tbl 0) 4 = [none, some (11, 0), some (12, 0), none] ∧ uniView (saveSrc.tbl 1) 4 = [none, none, some (2, 22), none] := by
  decide +kernel

/-- Into an empty universe: row 2 of table 0 is now row 1, and the row that references it says so. -/
example : saveShow [0, 1] saveSrc saveEmpty =
    some ([some (11, 0), some (12, 0), none, none, none, none], [some (1, 22), none, none, none, none, none]) := by decide +kernel

/-- Into a universe with other rows: they stay, and the loaded rows are added with their references. -/
example : saveShow [0, 1] saveSrc uniUni =
    some ([some (10, 0), some (11, 0), some (12, 0), some (11, 0), some (12, 0), none],
      [some (0, 20), some (0, 21), some (2, 22), some (4, 22), none, none]) := by decide +kernel

/-- The child first: a panic. -/
example : saveShow [1, 0] saveSrc saveEmpty = none := by decide +kernel

/-- The hypotheses of `C89_save_load` and `C89_identical` hold here. -/
example : ParentsFirst saveOwn [0, 1] ∧ Whole saveOwn uniEnv.tbl [0, 1] ∧ Receives uniCfg saveOwn [0, 1] saveEmpty ∧
    Receives uniCfg saveOwn [0, 1] uniUni ∧ Unlocked saveEmpty.env ∧
    (∀ t ∈ ([0, 1] : List (Fin 3)), ∀ i, (uniTbl t).contains i = true → ∀ k < i, (uniTbl t).contains k = true) ∧
    ∀ t ∈ ([0, 1] : List (Fin 3)), (uniUni.env.tbl t).len + (uniEnv.tbl t).len ≤ (UniS t).max := by
  have hlen : ∀ t ∈ ([0, 1] : List (Fin 3)), ∀ i, (uniTbl t).contains i = true → i < 3 := by
    intro t ht i hi
    obtain ⟨L, hL⟩ := (uniTbl_reach t).wf
    have h1 := ((hL.contains_iff i).1 hi).1
    rw [← hL.len] at h1
    simp only [List.mem_cons, List.not_mem_nil, or_false] at ht
    have e0 : ∀ k < (uniTbl 0).len, (uniTbl 0).contains k = true → k < 3 := by decide +kernel
    have e1 : ∀ k < (uniTbl 1).len, (uniTbl 1).contains k = true → k < 3 := by decide +kernel
    rcases ht with rfl | rfl
    · exact e0 i h1 hi
    · exact e1 i h1 hi
  have hall : ∀ t ∈ ([0, 1] : List (Fin 3)), ∀ i < 3, (uniTbl t).contains i = true := by decide +kernel
  refine ⟨⟨by decide, ?_⟩, ?_, ⟨by decide, by decide, ?_, by decide, by decide⟩, ⟨by decide, by decide, ?_, by decide, by decide⟩, ⟨fun _ => rfl, fun _ => rfl⟩, ?_, by decide +kernel⟩
  · intro pre t post e o ho
    rcases pre with _ | ⟨a, _ | ⟨b, pre⟩⟩
    · simp only [List.nil_append, List.cons.injEq] at e
      obtain ⟨rfl, -⟩ := e
      cases ho
    · simp only [List.cons_append, List.nil_append, List.cons.injEq] at e
      obtain ⟨rfl, rfl, -⟩ := e
      simp only [saveOwn, List.mem_singleton] at ho
      subst ho
      simp [uniOwn1]
    · simp only [List.cons_append, List.cons.injEq] at e
      obtain ⟨-, -, e⟩ := e
      cases pre <;> cases e
  · intro t ht i r hi o ho
    have hi3 : i < 3 := by
      refine hlen t ht i ?_
      obtain ⟨L, hL⟩ := (uniTbl_reach t).wf
      rw [hL.contains_view]
      have : (uniTbl t).view i = some r := hi
      rw [this]; rfl
    simp only [List.mem_cons, List.not_mem_nil, or_false] at ht
    rcases ht with rfl | rfl
    · cases ho
    · simp only [saveOwn, List.mem_singleton] at ho
      subst ho
      have : ∀ k < 3, ∀ r, (uniTbl 1).view k = some r → (uniTbl 0).contains (r 0) = true := by
        intro k hk r hr
        have hv : ((uniTbl 1).view k).map uniVals = some (uniVals r) := by rw [hr]; rfl
        have hall' : ∀ k < 3, ∃ p ∈ [(0, 20), (0, 21), (2, 22)], ((uniTbl 1).view k).map uniVals = some p := by decide +kernel
        obtain ⟨p, hp, e⟩ := hall' k hk
        rw [hv] at e
        injection e with e
        have h0 : r 0 = (uniVals r).1 := rfl
        rw [h0, e]
        simp only [List.mem_cons, List.not_mem_nil, or_false] at hp
        rcases hp with rfl | rfl | rfl <;> decide +kernel
      exact this i hi3 r hi
  · intro t ht o ho
    simp only [List.mem_cons, List.not_mem_nil, or_false] at ht
    rcases ht with rfl | rfl
    · cases ho
    · simp only [saveOwn, List.mem_singleton] at ho
      subst ho
      exact ⟨rfl, by simp [uniOwn1, uniCfg]⟩
  · intro t ht o ho
    simp only [List.mem_cons, List.not_mem_nil, or_false] at ht
    rcases ht with rfl | rfl
    · cases ho
    · simp only [saveOwn, List.mem_singleton] at ho
      subst ho
      exact ⟨rfl, by simp [uniOwn1, uniCfg]⟩
  · intro t ht i hi k hk
    exact hall t ht k (by have := hlen t ht i hi; omega)

theorem saveBound {t : Fin 3} {x : Tbl (UniS t)} {i : Nat} {r : Row (UniS t)} (h : x.view i = some r) : i < x.len := by
  unfold Tbl.view at h
  split at h
  · rename_i hc
    unfold Tbl.contains at hc
    split at hc <;> simp_all
  · cases h

/-- Checked for every row by looking at each id in turn. -/
theorem saveCheck {t : Fin 3} {x : Tbl (UniS t)} {q : Row (UniS t) → Bool} (h : ∀ i < x.len, ((x.view i).map q) ≠ some false) (i : Nat) (r : Row (UniS t))
    (hi : x.view i = some r) : q r = true := by
  have := h i (saveBound hi)
  rw [hi] at this
  simpa using this

/-- `set_identity_remap` on table 0. -/
def saveAlone : Uni UniS := { saveEmpty with fl := Function.update saveEmpty.fl 0 { FlushLock.new with identity := true } }

theorem saveFirst : ParentsFirst saveOwn [0, 1, 2] := by
  refine ⟨by decide, ?_⟩
  intro pre t post e o ho
  rcases pre with _ | ⟨a, _ | ⟨b, _ | ⟨c, pre⟩⟩⟩
  · simp only [List.nil_append, List.cons.injEq] at e
    obtain ⟨rfl, -⟩ := e
    cases ho
  · simp only [List.cons_append, List.nil_append, List.cons.injEq] at e
    obtain ⟨rfl, rfl, -⟩ := e
    simp only [saveOwn, List.mem_singleton] at ho
    subst ho
    simp [uniOwn1]
  · simp only [List.cons_append, List.nil_append, List.cons.injEq] at e
    obtain ⟨rfl, rfl, rfl, -⟩ := e
    simp only [saveOwn, List.mem_singleton] at ho
    subst ho
    simp [uniOwn2]
  · simp only [List.cons_append, List.cons.injEq] at e
    obtain ⟨-, -, -, e⟩ := e
    cases pre <;> cases e

/-- The hypotheses of `C89_any_tables`, `C89_dangling` and `C89_sorted_broken` hold here, with a sorted table. -/
example : Whole saveOwn saveSrc.tbl [0, 1, 2] ∧ Accepts uniCfg saveOwn [0, 1, 2] saveEmpty ∧ Accepts uniCfg saveOwn [0, 1, 2] saveAlone ∧
    SortsByRef uniCfg uniKey ∧ (∃ r, (saveSrc.tbl 2).view 0 = some r ∧ liveCount (saveSrc.tbl uniOwn2.parent) ≤ uniOwn2.key (r uniOwn2.col)) ∧
    (∀ k, (saveEmpty.env.tbl uniOwn2.parent).view k = none) ∧
    ∀ t ∈ ([0, 1, 2] : List (Fin 3)), (saveEmpty.env.tbl t).len + (saveSrc.tbl t).len ≤ (UniS t).max := by
  refine ⟨?_, ⟨by decide, by decide, ?_, by decide⟩, ⟨by decide, by decide, ?_, by decide⟩, ?_, ?_, ?_, by decide +kernel⟩
  · intro t ht i r hi o ho
    simp only [List.mem_cons, List.not_mem_nil, or_false] at ht
    rcases ht with rfl | rfl | rfl
    · cases ho
    · simp only [saveOwn, List.mem_singleton] at ho
      subst ho
      exact saveCheck (q := fun r => (saveSrc.tbl uniOwn1.parent).contains (uniOwn1.key (r uniOwn1.col))) (by decide +kernel) i r hi
    · simp only [saveOwn, List.mem_singleton] at ho
      subst ho
      exact saveCheck (q := fun r => (saveSrc.tbl uniOwn2.parent).contains (uniOwn2.key (r uniOwn2.col))) (by decide +kernel) i r hi
  · intro t ht hk o ho
    simp only [List.mem_cons, List.not_mem_nil, or_false] at ht
    rcases ht with rfl | rfl | rfl
    · cases ho
    · simp only [saveOwn, List.mem_singleton] at ho
      subst ho
      exact .inr ⟨rfl, by simp [uniOwn1, uniCfg]⟩
    · exact absurd rfl hk
  · intro t ht hk o ho
    simp only [List.mem_cons, List.not_mem_nil, or_false] at ht
    rcases ht with rfl | rfl | rfl
    · cases ho
    · simp only [saveOwn, List.mem_singleton] at ho
      subst ho
      exact .inl rfl
    · exact absurd rfl hk
  · intro p fk h hb r r'
    rcases uniIsFK.1 h with ⟨rfl, rfl⟩ | ⟨rfl, rfl⟩
    · cases hb
    · exact Iff.rfl
  · have hq : ∃ r, (saveSrc.tbl 2).view 0 = some r := Option.isSome_iff_exists.1 (by decide +kernel)
    obtain ⟨r, hr⟩ := hq
    refine ⟨r, hr, ?_⟩
    have := saveCheck (x := saveSrc.tbl 2) (q := fun r => decide (liveCount (saveSrc.tbl uniOwn2.parent) ≤ uniOwn2.key (r uniOwn2.col))) (by decide +kernel) 0 r hr
    simpa using this
  · intro k
    cases hv : (saveEmpty.env.tbl uniOwn2.parent).view k with
    | none => rfl
    | some r => exact absurd (saveBound hv) (Nat.not_lt_zero k)

end V11
