import Verif.Props.Access

/-!
# Trackers, listing a universe, and when universes can be made and extended: C67, C68, C45
-/

set_option linter.unusedSimpArgs false
set_option linter.unusedSectionVars false
set_option linter.unusedVariables false

namespace V11

variable {Ty : Type} [DecidableEq Ty] {V : Ty → Type} {P : Type} [DecidableEq P] {decl : P → PropDecl V}

/-- C66: a panic with the table locked for writing poisons the lock. -/
theorem C66_panic (ops : List (ROp decl)) (k : Nat) (m : GTable) (tolerant : Bool)
    (h : ((World.after decl ops).openTable k m true tolerant).1 = .ok ()) :
    ((World.after decl ops).panicWriting k m tolerant).1 = .error .userPanic ∧
    ((World.after decl ops).panicWriting k m tolerant).2.dead k m.domain m.name := by
  have L := ledger (decl := decl) (P := P) (V := V) ops
  change Ledger (World.after decl ops) _ at L
  generalize World.after decl ops = w at h L ⊢
  obtain ⟨hp, x, hx⟩ := openTable_found L.inv (Or.inl h)
  obtain ⟨u, did, a1, a2, a3, a4⟩ := openTable_eq L.inv hp hx true tolerant
  obtain ⟨-, info, hl, rfl⟩ := getId_ok a2
  rw [panicWriting_eq, h]
  simp only []
  rw [a1, a2]
  refine ⟨rfl, x.poison, ?_, rfl⟩
  rw [hasTable_modTable L.inv a1 hl (f := TableInst.poison) (fun _ => rfl)]
  exact ⟨x, hx, by simp⟩

/-! ## C67 -/

theorem registerTracker_eq {w : World P V} {k : Nat} {u : List (MaybeDomain V)} (hk : w.unis[k]? = some u) (r : Reg) :
    (w.registerTracker k r).2 = { w with unis := w.unis.set k (w.register u r).2 } ∧
    ((w.registerTracker k r).1 = .ok () ↔ (w.register u r).1 = none) := by
  unfold World.registerTracker
  rw [hk]
  simp only []
  rcases w.register u r with ⟨p, u1⟩
  cases p <;> simp

/-- C67: `register_tracker` returns exactly if the registry is alive, the universe has the table, its lock is not
poisoned, and the tracker fits it. -/
theorem C67_returns (ops : List (ROp decl)) (k : Nat) (r : Reg) :
    ((World.after decl ops).registerTracker k r).1 = .ok () ↔
      (World.after decl ops).poisoned = false ∧ (World.after decl ops).hasDomain k r.domain ∧ r.fits (World.history decl ops) ∧
      ¬ (World.after decl ops).dead k r.domain r.table := by
  have L := ledger (decl := decl) (P := P) (V := V) ops
  change Ledger (World.after decl ops) (World.history decl ops) at L
  generalize World.history decl ops = tr at L ⊢
  generalize World.after decl ops = w at L ⊢
  cases hk : w.unis[k]? with
  | none =>
    constructor
    · intro h
      unfold World.registerTracker at h
      rw [hk] at h
      cases h
    · rintro ⟨-, ⟨u, i, h1, -⟩, -⟩
      rw [hk] at h1; cases h1
  | some u =>
    rw [(registerTracker_eq hk r).2]
    by_cases hp : w.poisoned = false
    · have hu := L.inv.unis u (List.mem_of_getElem? hk)
      rw [register_regOk L.inv.g hp hu]
      constructor
      · rintro ⟨h1, x, h2, h3, h4⟩
        have hx := (hasTable_uTable hk).2 h2
        obtain ⟨b1, b2⟩ := hasTable_registered L hx
        refine ⟨hp, hasTable_hasDomain hx, ⟨h1, x.gt, b1, b2, h4⟩, ?_⟩
        rintro ⟨y, hy, hd⟩
        rw [hasTable_unique L.inv hy hx, h3] at hd
        cases hd
      · rintro ⟨-, h1, ⟨h2, g, h3, h4, h5⟩, h6⟩
        obtain ⟨x, hx, rfl⟩ := hasTable_of L h1 h3
        rw [h4] at hx
        refine ⟨h2, x, (hasTable_uTable hk).1 hx, ?_, h5⟩
        by_contra hc
        exact h6 ⟨x, hx, by simpa using hc⟩
    · constructor
      · intro h
        obtain ⟨-, did, x, h1, -⟩ := register_iff.1 h
        exact absurd (getId_ok h1).1 hp
      · rintro ⟨h, -⟩; exact absurd h hp

/-- C67: when it returns, the tracker is the last of that table, and nothing else changed. -/
theorem C67_adds (ops : List (ROp decl)) (k : Nat) (r : Reg) (h : ((World.after decl ops).registerTracker k r).1 = .ok ())
    (k' : Nat) (d t : String) (x : TableInst) :
    ((World.after decl ops).registerTracker k r).2.hasTable k' d t x ↔
      ∃ x0, (World.after decl ops).hasTable k' d t x0 ∧
        x = if k' = k ∧ d = r.domain ∧ t = r.table then { x0 with trackers := x0.trackers ++ [r.tracker] } else x0 := by
  have L := ledger (decl := decl) (P := P) (V := V) ops
  change Ledger (World.after decl ops) (World.history decl ops) at L
  generalize World.after decl ops = w at h L ⊢
  cases hk : w.unis[k]? with
  | none =>
    unfold World.registerTracker at h
    rw [hk] at h
    cases h
  | some u =>
    obtain ⟨h1, h2⟩ := registerTracker_eq hk r
    obtain ⟨hc, did, x, b1, b2, b3, b4⟩ := register_iff.1 (h2.1 h)
    obtain ⟨-, info, hl, rfl⟩ := getId_ok b1
    have : (w.register u r).2 = modTable u info.id r.table (fun t => { t with trackers := t.trackers ++ [r.tracker] }) := by
      unfold World.register
      rw [b1]
      simp only []
      rw [findTable_tableAt.2 b2]
      simp only []
      rw [if_neg (by simp [b3]), if_neg (by simpa using b4), if_pos hc]
    rw [h1, this, hasTable_modTable L.inv hk hl (f := fun t => { t with trackers := t.trackers ++ [r.tracker] }) (fun _ => rfl)]

/-- C67: when it panics, no table's trackers change; but if the universe has the table, registering one that does not fit
poisons the table's lock, so nobody can use the table any more. -/
theorem C67_panics (ops : List (ROp decl)) (k : Nat) (r : Reg) (e : Panic) (h : ((World.after decl ops).registerTracker k r).1 = .error e) :
    (∀ k' d t x, ((World.after decl ops).registerTracker k r).2.hasTable k' d t x →
      ∃ x0, (World.after decl ops).hasTable k' d t x0 ∧ x.trackers = x0.trackers ∧ x.gt = x0.gt) ∧
    ((World.after decl ops).poisoned = false → (World.after decl ops).hasDomain k r.domain → r.misfits (World.history decl ops) →
      ((World.after decl ops).registerTracker k r).2.dead k r.domain r.table) := by
  have L := ledger (decl := decl) (P := P) (V := V) ops
  change Ledger (World.after decl ops) (World.history decl ops) at L
  generalize World.history decl ops = tr at L ⊢
  generalize World.after decl ops = w at h L ⊢
  cases hk : w.unis[k]? with
  | none =>
    have : (w.registerTracker k r).2 = w := by
      unfold World.registerTracker
      rw [hk]
    rw [this]
    refine ⟨fun k' d t x hx => ⟨x, hx, rfl, rfl⟩, ?_⟩
    rintro - ⟨u, i, h1, -⟩
    rw [hk] at h1; cases h1
  | some u =>
    obtain ⟨h1, h2⟩ := registerTracker_eq hk r
    have hu := L.inv.unis u (List.mem_of_getElem? hk)
    have hsetu : ({ w with unis := w.unis.set k u } : World P V) = w := by
      have : w.unis.set k u = w.unis := by
        apply List.ext_getElem?
        intro j
        rw [List.getElem?_set]
        split
        · rename_i e; subst e; split
          · exact hk.symm
          · rename_i hn; rw [List.getElem?_eq_none (by omega)]
        · rfl
      rw [this]
    have hpo : ∀ info, w.g.domains.lookup r.domain = some info → (w.register u r).2 = modTable u info.id r.table TableInst.poison →
        ∀ k' d t x, (w.registerTracker k r).2.hasTable k' d t x → ∃ x0, w.hasTable k' d t x0 ∧ x.trackers = x0.trackers ∧ x.gt = x0.gt := by
      intro info hl e2 k' d t x hx
      rw [h1, e2, hasTable_modTable L.inv hk hl (f := TableInst.poison) (fun _ => rfl)] at hx
      obtain ⟨x0, b1, rfl⟩ := hx
      refine ⟨x0, b1, ?_, ?_⟩ <;> split <;> rfl
    constructor
    · have hsame : (w.register u r).2 = u → ∀ k' d t x, (w.registerTracker k r).2.hasTable k' d t x →
          ∃ x0, w.hasTable k' d t x0 ∧ x.trackers = x0.trackers ∧ x.gt = x0.gt := by
        intro e2 k' d t x hx
        rw [h1, e2, hsetu] at hx
        exact ⟨x, hx, rfl, rfl⟩
      cases hid : w.getId r.domain with
      | error p => exact hsame (by unfold World.register; rw [hid])
      | ok did =>
        obtain ⟨-, info, hl, rfl⟩ := getId_ok hid
        cases ht : findTable u info.id r.table with
        | error p => exact hsame (by unfold World.register; rw [hid]; simp only []; rw [ht])
        | ok y =>
          by_cases hyp : y.poisoned = true
          · exact hsame (by unfold World.register; rw [hid]; simp only []; rw [ht]; simp only []; rw [if_pos hyp])
          · by_cases hty : y.gt.ty ≠ r.ty
            · exact hpo info hl (by unfold World.register; rw [hid]; simp only []; rw [ht]; simp only []; rw [if_neg hyp, if_pos hty])
            · by_cases hc : r.consistent = true
              · exfalso
                have : (w.registerTracker k r).1 = .ok () := by
                  rw [h2]
                  unfold World.register; rw [hid]; simp only []; rw [ht]; simp only []; rw [if_neg hyp, if_neg hty, if_pos hc]
                rw [this] at h; cases h
              · exact hpo info hl (by unfold World.register; rw [hid]; simp only []; rw [ht]; simp only []; rw [if_neg hyp, if_neg hty, if_neg hc])
    · rintro hp hd ⟨g, g1, g2, g3⟩
      obtain ⟨x, hx, rfl⟩ := hasTable_of L hd g1
      rw [g2] at hx
      obtain ⟨info, hl, -⟩ := uTable_registered hu ((hasTable_uTable hk).1 hx)
      have hat := (uTable_at L.inv.g hu hl).1 ((hasTable_uTable hk).1 hx)
      have hid := getId_eq hp hl
      by_cases hxp : x.poisoned = true
      · obtain ⟨x', a1, -, a3⟩ := step_tables L.inv (.registerTracker k r) hx
        exact ⟨x', a1, a3 hxp⟩
      · have e2 : (w.register u r).2 = modTable u info.id r.table TableInst.poison := by
          unfold World.register
          rw [hid]
          simp only []
          rw [findTable_tableAt.2 hat]
          simp only []
          rw [if_neg hxp]
          by_cases hty : x.gt.ty ≠ r.ty
          · rw [if_pos hty]
          · rw [if_neg hty, if_neg (by
              rcases g3 with g3 | g3
              · exact absurd g3 hty
              · rw [g3]; simp)]
        refine ⟨x.poison, ?_, rfl⟩
        rw [h1, e2, hasTable_modTable L.inv hk hl (f := TableInst.poison) (fun _ => rfl)]
        exact ⟨x, hx, by simp⟩

/-! ## C68 -/

/-- C68: `info` returns exactly if no table of the universe has a poisoned lock. -/
theorem C68_info (ops : List (ROp decl)) (k : Nat) :
    (World.after decl ops).info k = .ok () ↔ k < (World.after decl ops).unis.length ∧ ∀ d t, ¬ (World.after decl ops).dead k d t := by
  have L := ledger (decl := decl) (P := P) (V := V) ops
  change Ledger (World.after decl ops) (World.history decl ops) at L
  generalize World.after decl ops = w at L ⊢
  unfold World.info
  cases hk : w.unis[k]? with
  | none =>
    simp only [reduceCtorEq, false_iff, not_and]
    intro h
    rw [List.getElem?_eq_getElem h] at hk; cases hk
  | some u =>
    have hu := L.inv.unis u (List.mem_of_getElem? hk)
    simp only []
    rw [forM_ok_iff]
    constructor
    · intro h
      refine ⟨get_lt hk, ?_⟩
      rintro d t ⟨x, ⟨u', i, h1, h2, h3, h4⟩, h5⟩
      rw [hk] at h1
      injection h1 with h1
      subst h1
      have := h _ h2
      simp only [] at this
      rw [forM_ok_iff] at this
      have := this _ (lookup_mem h4)
      simp only [] at this
      rw [if_pos h5] at this
      cases this
    · rintro ⟨-, h⟩ m hm
      cases m with
      | unset n => rfl
      | domain i =>
        simp only []
        rw [forM_ok_iff]
        rintro ⟨n, x⟩ hx
        simp only []
        rw [if_neg]
        intro hp
        obtain ⟨j, hj⟩ := domain_at hm
        obtain ⟨info, hi⟩ := hu.inst _ _ hj
        have hinv := L.inv.g.info _ _ hi.look
        have hnd : (i.tables.map Prod.fst).Nodup := by
          have h1 := hinv.tnodup
          rw [hinv.tables, ← hi.tables, List.map_map] at h1
          exact h1
        exact h i.name n ⟨x, ⟨u, i, hk, hm, rfl, lookup_of_mem hnd hx⟩, hp⟩

open Classical in
/-- C68: `get_domain_names` lists the domains the universe has, in the order in which they were first registered. -/
theorem C68_domain_names (ops : List (ROp decl)) (k : Nat) (hk : k < (World.after decl ops).unis.length) :
    (World.after decl ops).domainNames k =
      .ok ((domainsOf (World.history decl ops)).filter (fun n => decide ((World.after decl ops).hasDomain k n))) := by
  have L := ledger (decl := decl) (P := P) (V := V) ops
  change Ledger (World.after decl ops) (World.history decl ops) at L
  rw [← L.doms]
  generalize World.after decl ops = w at L hk ⊢
  have hku : w.unis[k]? = some w.unis[k] := List.getElem?_eq_getElem hk
  unfold World.domainNames
  rw [hku]
  generalize w.unis[k] = u at hku ⊢
  have hu := L.inv.unis u (List.mem_of_getElem? hku)
  simp only []
  congr 1
  -- position by position
  have hhas : ∀ (j : Nat) n, w.g.did2name[j]? = some n → (w.hasDomain k n ↔ ∃ d, u[j]? = some (.domain d)) := by
    intro j n hn
    constructor
    · rintro ⟨u', i, h1, h2, rfl⟩
      rw [hku] at h1
      injection h1 with h1
      subst h1
      obtain ⟨j', hj'⟩ := domain_at h2
      obtain ⟨info, hi⟩ := hu.inst _ _ hj'
      have h1 : j < w.g.did2name.length := get_lt hn
      have h2 : j' < w.g.did2name.length := get_lt hi.name
      have : j' = j := by
        have e1 := hi.name
        rw [List.getElem?_eq_getElem h2] at e1
        rw [List.getElem?_eq_getElem h1] at hn
        injection e1 with e1
        injection hn with hn
        exact (List.Nodup.getElem_inj_iff L.inv.g.nodup).1 (e1.trans hn.symm)
      subst this
      exact ⟨i, hj'⟩
    · rintro ⟨i, hi⟩
      obtain ⟨info, hok⟩ := hu.inst _ _ hi
      rw [hok.name] at hn
      injection hn with hn
      exact ⟨u, i, hku, List.mem_of_getElem? hi, hn⟩
  have hname : ∀ (j : Nat) i, u[j]? = some (.domain i) → w.g.did2name[j]? = some i.name := by
    intro j i hi
    obtain ⟨info, hok⟩ := hu.inst _ _ hi
    exact hok.name
  have hlen := hu.len
  clear hu
  generalize w.g.did2name = names at hhas hname hlen
  clear hku
  induction u generalizing names with
  | nil =>
    symm
    rw [List.filterMap_nil, List.filter_eq_nil_iff]
    intro n hn
    obtain ⟨j, hj, e⟩ := List.mem_iff_getElem.1 hn
    have := (hhas j n (by rw [List.getElem?_eq_getElem hj, e])).1
    intro hc
    obtain ⟨d, hd⟩ := this (by simpa using hc)
    simp at hd
  | cons m u ih =>
    cases names with
    | nil => simp at hlen
    | cons n names =>
      have ih' := ih names (fun j => by simpa using hhas (j + 1)) (fun j => by simpa using hname (j + 1)) (by simpa using hlen)
      have h0 := hhas 0 n rfl
      cases m with
      | unset _ =>
        have : ¬ w.hasDomain k n := fun hc => by
          obtain ⟨d, hd⟩ := h0.1 hc
          simp at hd
        rw [List.filterMap_cons_none rfl, List.filter_cons_of_neg (by simpa using this)]
        exact ih'
      | domain i =>
        have : w.hasDomain k n := h0.2 ⟨i, rfl⟩
        have hn : i.name = n := by
          have := hname 0 i rfl
          simp at this
          exact this.symm
        rw [List.filterMap_cons, List.filter_cons_of_pos (by simpa using this)]
        simp only []
        rw [hn, ih']

/-! ## C45: when universes can be made and extended -/

theorem sameG_tables {g g' : Globals V} (hs : SameG g g') (hx : Ext g g') {n : String} {info' : DomainInfo} (hl : g'.domains.lookup n = some info') :
    ∃ info, g.domains.lookup n = some info ∧ info.tables = info'.tables ∧ info.id = info'.id := by
  have := hs.doms n
  rw [hl] at this
  cases e : g.domains.lookup n with
  | none => rw [e] at this; cases this
  | some info =>
    rw [e] at this
    simp only [Option.map_some, Option.some.injEq, Prod.mk.injEq] at this
    obtain ⟨i2, h1, h2, -⟩ := hx.dom _ _ e
    rw [hl] at h1
    injection h1 with h1
    exact ⟨info, rfl, this.2.symm, by rw [h1, h2]⟩

theorem sameG_declared {w : World P V} {tr : List (ROp decl × Bool)} (L : Ledger w tr) {g' : Globals V} (hs : SameG w.g g') (hx : Ext w.g g') :
    g'.declared = declaredBy tr := by
  funext n
  rw [← declared_eq L n]
  unfold Globals.declared
  have := hs.doms n
  cases e1 : g'.domains.lookup n with
  | none =>
    rw [e1] at this
    cases e2 : w.g.domains.lookup n with
    | none => rfl
    | some i => rw [e2] at this; cases this
  | some i1 =>
    obtain ⟨i2, e2, h1, -⟩ := sameG_tables hs hx e1
    rw [e2]
    simp only [DomainInfo.declared, h1]

/-- C45: a universe can be made exactly if the registry is alive, all the domains listed are registered, and every tracker
their tables declare is on a table of a listed domain and fits it. -/
theorem C45_new_iff (ops : List (ROp decl)) (names : List String) :
    (∃ k, ((World.after decl ops).newUniverse names).1 = .ok k) ↔
      (World.after decl ops).poisoned = false ∧ (∀ n ∈ names, n ∈ domainsOf (World.history decl ops)) ∧
      ∀ r ∈ names.flatMap (declaredBy (World.history decl ops)), r.domain ∈ names ∧ r.fits (World.history decl ops) := by
  have L := ledger (decl := decl) (P := P) (V := V) ops
  change Ledger (World.after decl ops) (World.history decl ops) at L
  rw [← L.doms]
  generalize World.history decl ops = tr at L ⊢
  generalize World.after decl ops = w at L ⊢
  unfold World.newUniverse
  by_cases hp : w.poisoned = true
  · rw [if_pos hp]; simp [hp]
  · rw [if_neg hp]
    have hp' : w.poisoned = false := by simpa using hp
    have hg := L.inv.g
    have hret : ∀ (k : Nat) (d : Instance V), (w.g.did2name.map (MaybeDomain.unset (V := V)))[k]? ≠ some (.domain d) := by
      intro k d hk
      rw [List.getElem?_map] at hk
      cases e : w.g.did2name[k]? with
      | none => rw [e] at hk; cases hk
      | some m => rw [e] at hk; simp at hk
    have hinv := getDomains_inv hg (unset_ok (g := w.g)) (by simp) names
    cases e : w.g.getDomains (w.g.did2name.map .unset) names with
    | error p =>
      rw [e] at hinv
      obtain ⟨-, n, h1, h2⟩ := hinv
      constructor
      · rintro ⟨k, h⟩; cases h
      · rintro ⟨-, h, -⟩; exact absurd (h n h1) h2
    | ok ug =>
      obtain ⟨u, g'⟩ := ug
      rw [e] at hinv
      simp only [] at hinv ⊢
      obtain ⟨c1, c2, c3, c4, c5, c6, c7, c8⟩ := hinv
      obtain ⟨hs, -⟩ := getDomains_fresh hg names (fun k d h => absurd h (hret k d)) e
      have hempty := getDomains_empty hg names (fun k d h => absurd h (hret k d)) e
      have hhas : ∀ n info, w.g.domains.lookup n = some info → ((∃ d, u[info.id]? = some (.domain d)) ↔ n ∈ names) := by
        intro n info hl
        rw [getDomains_has hg names e hl]
        constructor
        · rintro (h | ⟨d, h⟩)
          · exact h
          · exact absurd h (hret _ _)
        · exact Or.inl
      have hdn : ∀ n ∈ names, ∃ info d, g'.domains.lookup n = some info ∧ u[info.id]? = some (.domain d) := by
        intro n hn
        have : (w.g.domains.lookup n).isSome = true := by
          rw [lookup_isSome_iff, hg.names]; exact c6 n hn
        cases el : w.g.domains.lookup n with
        | none => rw [el] at this; cases this
        | some info =>
          obtain ⟨d, hd⟩ := (hhas n info el).2 hn
          obtain ⟨info', b1, b2, -⟩ := c2.dom _ _ el
          exact ⟨info', d, b1, by rw [b2]; exact hd⟩
      have hkey := initDomains_iff (w := ({ w with g := g' } : World P V)) c1 hp' names c3 hdn
      rw [show ({ w with g := g' } : World P V).g.declared = declaredBy tr from sameG_declared L hs c2] at hkey
      have hreg : ∀ r : Reg, RegOk u r ↔ r.domain ∈ names ∧ r.fits tr := by
        intro r
        constructor
        · rintro ⟨h1, x, h2, h3, h4⟩
          obtain ⟨info', b1, b2⟩ := uTable_registered c3 h2
          obtain ⟨info, d1, d2, d3⟩ := sameG_tables hs c2 b1
          have hat := (uTable_at c1 c3 b1).1 h2
          refine ⟨?_, h1, x.gt, ?_⟩
          · rw [← hhas _ _ d1, d3]
            unfold tableAt at hat
            split at hat
            · rename_i d hd; exact ⟨d, hd⟩
            · cases hat
          · rw [← d2, L.tabs _ info d1, lookup_tables (l := tablesOf _ _) (firsts_nodup _)] at b2
            exact ⟨b2.1, b2.2, h4⟩
        · rintro ⟨h1, h2, g, h3, h4, h5⟩
          obtain ⟨info', d, b1, b2⟩ := hdn _ h1
          obtain ⟨info, d1, d2, d3⟩ := sameG_tables hs c2 b1
          obtain ⟨info2, hok⟩ := c3.inst _ _ b2
          have hnm : d.name = r.domain := c1.id_inj hok.look b1 hok.id
          have hi2 : info2 = info' := by
            have := hok.look
            rw [hnm, b1] at this
            injection this with this
            exact this.symm
          subst hi2
          have hlook : (d.tables.lookup r.table).map (·.gt) = some g := by
            rw [← lookup_map_snd (f := fun x : TableInst => x.gt)]
            have := hok.tables
            rw [this, ← d2, L.tabs _ info d1, lookup_tables (l := tablesOf _ _) (firsts_nodup _)]
            exact ⟨h3, h4⟩
          obtain ⟨x, hx, hxg⟩ := Option.map_eq_some_iff.1 hlook
          refine ⟨h2, x, ⟨d, List.mem_of_getElem? b2, hnm, hx⟩, (hempty _ _ b2 _ (lookup_mem hx)).2, by rw [hxg]; exact h5⟩
      simp only [hreg] at hkey
      rcases e2 : ({ w with g := g' } : World P V).initDomains u names with ⟨p, u1⟩
      rw [e2] at hkey
      cases p with
      | none =>
        simp only [true_iff] at hkey
        exact ⟨fun _ => ⟨hp', c6, hkey⟩, fun _ => ⟨_, rfl⟩⟩
      | some p =>
        simp only [reduceCtorEq, false_iff] at hkey
        constructor
        · rintro ⟨k, h⟩; cases h
        · rintro ⟨-, -, h⟩; exact absurd h hkey

/-- C45: `add_domain` returns exactly if the registry is alive, the domain is registered, and the universe has it already
or every tracker its tables declare fits and is on a table of the domain itself or on one whose lock is not poisoned of a
domain the universe has. -/
theorem C45_add_iff (ops : List (ROp decl)) (k : Nat) (n : String) :
    ((World.after decl ops).addDomain k n).1 = .ok () ↔
      (World.after decl ops).poisoned = false ∧ k < (World.after decl ops).unis.length ∧ n ∈ domainsOf (World.history decl ops) ∧
      ((World.after decl ops).hasDomain k n ∨ ∀ r ∈ declaredBy (World.history decl ops) n, r.fits (World.history decl ops) ∧
        (r.domain = n ∨ (World.after decl ops).hasDomain k r.domain ∧ ¬ (World.after decl ops).dead k r.domain r.table)) := by
  have L := ledger (decl := decl) (P := P) (V := V) ops
  change Ledger (World.after decl ops) (World.history decl ops) at L
  rw [← L.doms]
  generalize World.history decl ops = tr at L ⊢
  generalize World.after decl ops = w at L ⊢
  have hg := L.inv.g
  cases hk : w.unis[k]? with
  | none =>
    constructor
    · intro h
      unfold World.addDomain at h
      rw [hk] at h
      cases h
    · rintro ⟨-, h, -⟩
      rw [List.getElem?_eq_getElem h] at hk; cases hk
  | some u =>
    by_cases hp : w.poisoned = true
    · constructor
      · intro h
        unfold World.addDomain at h
        rw [hk] at h
        simp only [World.synced] at h
        rw [if_pos hp] at h
        cases h
      · rintro ⟨h, -⟩; rw [hp] at h; cases h
    · have hp : w.poisoned = false := by simpa using hp
      cases hl : w.g.domains.lookup n with
      | none =>
        constructor
        · intro h
          unfold World.addDomain at h
          rw [hk] at h
          simp only [] at h
          rw [synced_eq L.inv hp hk] at h
          simp only [World.getId] at h
          rw [if_neg (by simp [hp]), hl] at h
          cases h
        · rintro ⟨-, -, h, -⟩
          rw [← hg.names] at h
          exact absurd h (lookup_none_iff.1 hl)
      | some info =>
        have hmem : n ∈ w.g.did2name := by
          rw [← hg.names]; exact lookup_isSome_iff.1 (by rw [hl]; rfl)
        by_cases hd : w.hasDomain k n
        · obtain ⟨d, hd'⟩ := (hasDomain_at L.inv hk hl).1 hd
          rw [addDomain_there L.inv hp hk hl hd']
          exact ⟨fun _ => ⟨hp, get_lt hk, hmem, Or.inl hd⟩, fun _ => rfl⟩
        · obtain ⟨inst, w0, e0, a1, a2, a3, a4, a5, a6, a7, a8⟩ := addDomain_new L.inv hp hk hl
            (fun d' h' => hd ((hasDomain_at L.inv hk hl).2 ⟨d', h'⟩))
          have hs : SameG w.g w0.g := by rw [e0]; exact SameG.lock w.g n
          have hp0 : w0.poisoned = false := by rw [e0]; exact hp
          have hl0 : ∃ info0, w0.g.domains.lookup n = some info0 ∧ info0.id = info.id := by
            obtain ⟨info', b1, b2, -⟩ := a5.dom _ _ hl
            exact ⟨info', b1, b2⟩
          obtain ⟨info0, b1, b2⟩ := hl0
          have hinst : ((w.padded u).set info.id (MaybeDomain.domain inst))[info0.id]? = some (.domain inst) := by
            rw [b2, List.getElem?_set, if_pos rfl, if_pos a3]
          have hkey := initDomain_iff a4 hp0 a6 b1 hinst
          rw [sameG_declared L hs a5] at hkey
          have hreg : ∀ r : Reg, RegOk ((w.padded u).set info.id (.domain inst)) r ↔
              r.fits tr ∧ (r.domain = n ∨ w.hasDomain k r.domain ∧ ¬ w.dead k r.domain r.table) := by
            intro r
            constructor
            · rintro ⟨h1, x, h2, h3, h4⟩
              obtain ⟨info', d1, d2⟩ := uTable_registered a6 h2
              obtain ⟨info2, f1, f2, f3⟩ := sameG_tables hs a5 d1
              refine ⟨⟨h1, x.gt, ?_⟩, ?_⟩
              · rw [← f2, L.tabs _ info2 f1, lookup_tables (l := tablesOf _ _) (firsts_nodup _)] at d2
                exact ⟨d2.1, d2.2, h4⟩
              · by_cases en : r.domain = n
                · exact Or.inl en
                · right
                  obtain ⟨i, g1, g2, g3⟩ := h2
                  obtain ⟨j, hj⟩ := domain_at g1
                  have hne : info.id ≠ j := by
                    rintro rfl
                    rw [List.getElem?_set, if_pos rfl, if_pos a3] at hj
                    injection hj with hj
                    injection hj with hj
                    rw [← hj, a1] at g2
                    exact en g2.symm
                  rw [List.getElem?_set_ne hne] at hj
                  have hmem' := List.mem_of_getElem? (padded_domain.1 hj)
                  have hx : w.hasTable k r.domain r.table x := ⟨u, i, hk, hmem', g2, g3⟩
                  refine ⟨hasTable_hasDomain hx, ?_⟩
                  rintro ⟨y, hy, hyd⟩
                  rw [hasTable_unique L.inv hy hx, h3] at hyd
                  cases hyd
            · rintro ⟨⟨h1, g, h2, h3, h4⟩, h5⟩
              refine ⟨h1, ?_⟩
              rcases h5 with h5 | ⟨h5, h6⟩
              · obtain ⟨info2, hok⟩ := a6.inst _ _ hinst
                have hi2 : info2 = info0 := by
                  have := hok.look
                  rw [a1, b1] at this
                  injection this with this
                  exact this.symm
                subst hi2
                obtain ⟨info3, f1, f2, f3⟩ := sameG_tables hs a5 b1
                have hlook : (inst.tables.lookup r.table).map (·.gt) = some g := by
                  rw [← lookup_map_snd (f := fun x : TableInst => x.gt)]
                  have := hok.tables
                  rw [this, ← f2, L.tabs _ info3 f1, lookup_tables (l := tablesOf _ _) (firsts_nodup _)]
                  exact ⟨by rw [← h5]; exact h2, h3⟩
                obtain ⟨x, hx, hxg⟩ := Option.map_eq_some_iff.1 hlook
                exact ⟨x, ⟨inst, List.mem_of_getElem? hinst, by rw [a1, h5], hx⟩, (a2 _ (lookup_mem hx)).2, by rw [hxg]; exact h4⟩
              · obtain ⟨x, hx, rfl⟩ := hasTable_of L h5 h2
                rw [h3] at hx
                obtain ⟨u', i, g1, g2, g3, g4⟩ := id hx
                rw [hk] at g1
                injection g1 with g1
                subst g1
                obtain ⟨j, hj⟩ := domain_at g2
                have hne : info.id ≠ j := by
                  rintro rfl
                  exact hd ((hasDomain_at L.inv hk hl).2 ⟨i, hj⟩)
                refine ⟨x, ⟨i, List.mem_of_getElem? (i := j) ?_, g3, g4⟩, ?_, h4⟩
                · rw [List.getElem?_set_ne hne]; exact padded_domain.2 hj
                · by_contra hc
                  exact h6 ⟨x, hx, by simpa using hc⟩
          simp only [hreg] at hkey
          rw [a7]
          constructor
          · intro h
            refine ⟨hp, get_lt hk, hmem, Or.inr (hkey.1 ?_)⟩
            cases e : (w0.initDomain ((w.padded u).set info.id (.domain inst)) n).1 with
            | none => rfl
            | some p => rw [e] at h; cases h
          · rintro ⟨-, -, -, h⟩
            rcases h with h | h
            · exact absurd h hd
            · rw [hkey.2 h]

end V11

namespace V11.RegDemo

/-! ## The hypotheses are met -/

/-- Another module with the domain, name and columns of `crew`. -/
def twin : GTable := { crew with kind := .sorted, ty := 9, init := [] }

/-- A program that registers both, the twin last, and makes a universe. -/
def both : List (ROp decl) := start ++ [.registerTable twin, .newUniverse ["game", "ui"]]

/-- C66_open, C66_harmless: `crew` gets its table, `twin` does not although it registered. -/
example : OwnTypes (World.history decl both) crew ∧ OwnTypes (World.history decl both) twin ∧
    ((World.after decl (start ++ [.registerTable twin])).poisoned = false) ∧
    ((World.after decl both).openTable 0 crew true false).1 = .ok () ∧ ((World.after decl both).openTable 0 twin false true).1 = .error .badDowncast := by
  have h : tablesOf (World.history decl both) "game" = [ships, crew] := by decide
  refine ⟨?_, ?_, by decide, by decide, by decide⟩
  · intro t ht
    rw [show crew.domain = "game" from rfl, h] at ht
    simp only [List.mem_cons, List.not_mem_nil, or_false] at ht
    rcases ht with rfl | rfl <;> decide
  · intro t ht
    rw [show twin.domain = "game" from rfl, h] at ht
    simp only [List.mem_cons, List.not_mem_nil, or_false] at ht
    rcases ht with rfl | rfl <;> decide

/-- C66_twin, C66_forever: the twin's attempt to write shuts the first out for good; only callers ready for it get in. -/
example : crew ∈ tablesOf (World.history decl both) twin.domain ∧ crew.name = twin.name ∧ crew.ty ≠ twin.ty ∧
    (World.after decl both).poisoned = false ∧ (World.after decl both).domainNames 0 = .ok ["game", "ui"] ∧
    ((World.after decl (both ++ [.openTable 0 twin true false])).openTable 0 crew false false).1 = .error .poisoned ∧
    ((World.after decl (both ++ [.openTable 0 twin true false, .newUniverse ["game"]])).openTable 0 crew true true).1 = .ok () ∧
    ((World.after decl (both ++ [.openTable 0 twin true false, .newUniverse ["game"]])).openTable 1 crew true false).1 = .ok () := by decide

/-- C66_panic, C68_info -/
example : ((World.after decl both).openTable 0 ships true false).1 = .ok () ∧ (World.after decl both).info 0 = .ok () ∧
    (World.after decl (both ++ [.panicWriting 0 ships false])).info 0 = .error .poisoned := by decide

/-- C66_cause: a declared tracker that does not fit kills the table it is declared on when its domain is added. -/
example : ((World.after decl (start ++ [.newUniverse ["game"]])).openTable 0 ships true false).1 = .ok () ∧
    ((World.after decl ([.registerDomain "game", .registerDomain "ui", .registerTable ships, .registerTable { labels with init := [⟨"game", "ships", false, 0, 2⟩] },
      .newUniverse ["game"], .addDomain 0 "ui"])).openTable 0 ships true false).1 = .error .poisoned := by decide

/-- C67: one that fits, one that is not consistent, and one of another type. -/
example : ((World.after decl both).registerTracker 0 ⟨"game", "ships", true, 0, 7⟩).1 = .ok () ∧
    trackersOf (World.after decl (both ++ [.registerTracker 0 ⟨"game", "ships", true, 0, 7⟩])) 0 0 "ships" = some [1, 2, 7] ∧
    ((World.after decl both).registerTracker 0 ⟨"ui", "labels", false, 2, 7⟩).1 = .error .trackerOnInconsistent ∧
    ((World.after decl both).registerTracker 0 ⟨"game", "crew", true, 9, 7⟩).1 = .error .badDowncast ∧
    ((World.after decl (both ++ [.registerTracker 0 ⟨"game", "crew", true, 9, 7⟩])).openTable 0 crew false false).1 = .error .poisoned := by decide

/-- C68_domain_names: in registration order, not the order listed. -/
example : (World.after decl (start ++ [.newUniverse ["ui", "game"], .newUniverse ["game"]])).domainNames 0 = .ok ["game", "ui"] ∧
    (World.after decl (start ++ [.newUniverse ["ui", "game"], .newUniverse ["game"]])).domainNames 1 = .ok ["game"] := by decide

/-- C45_new_iff, C45_add_iff: `ui` alone is no universe, as its table's tracker is on a table of `game`; adding it to one
with `game` works, unless the lock of `ships` is poisoned. -/
example : ((World.after decl start).newUniverse ["ui"]).1 = .error .domainNotInUniverse ∧
    ((World.after decl start).newUniverse ["ui", "game"]).1 = .ok 0 ∧
    ((World.after decl (start ++ [.newUniverse ["game"]])).addDomain 0 "ui").1 = .ok () ∧
    ((World.after decl (start ++ [.newUniverse ["game"], .panicWriting 0 ships false])).addDomain 0 "ui").1 = .error .poisoned := by decide

end V11.RegDemo
