import Verif.Lemmas.RegistryAdd
import Verif.Props.Registry

/-!
# Domains in use, tables, trackers, and the end of the registry: C42–C45, C62
-/

set_option linter.unusedSimpArgs false
set_option linter.unusedSectionVars false
set_option linter.unusedVariables false

namespace V11

/-! ## C43 -/

/-- C43: `check_name` accepts exactly `[A-Za-z][A-Za-z0-9_]*`. -/
theorem C43_name (s : List Char) : checkName s = .ok () ↔ IsName s := checkName_ok s

/-- C43: a property's name is accepted iff it is its domain, a slash and a name, the domain being a name too. -/
theorem C43_property (domain name : List Char) : checkPropName domain name = .ok () ↔ IsPropName domain name := checkPropName_ok domain name

variable {Ty : Type} [DecidableEq Ty] {V : Ty → Type} {P : Type} [DecidableEq P] {decl : P → PropDecl V}

/-! ## C42 -/

theorem hasDomain_locked {w : World P V} (h : WInv decl w) {k : Nat} {n : String} (hd : w.hasDomain k n) : w.isLocked n := by
  obtain ⟨u, d, h1, h2, rfl⟩ := hd
  exact inst_locked h (List.mem_of_getElem? h1) h2

/-- C42: registering a property that was not registered or used before, on a domain that is part of a universe,
panics, changes no domain, universe or property, and leaves the registry dead (C62). -/
theorem C42_property (ops : List (ROp decl)) (p : P) (k : Nat) (hd : (World.after decl ops).hasDomain k (decl p).domain)
    (hp : (World.after decl ops).poisoned = false) (hnew : (World.after decl ops).idx p = none) :
    ∃ e, (World.after decl ops).registerProp decl p = (.error e, { World.after decl ops with poisoned := true }) := by
  have L := ledger (decl := decl) (P := P) (V := V) ops
  obtain ⟨info, h1, h2⟩ := hasDomain_locked L.inv hd
  unfold World.registerProp
  rw [if_neg (by simp [hp]), hnew]
  simp only []
  split
  · exact ⟨_, rfl⟩
  · rw [h1]
    simp only []
    rw [if_pos h2]
    exact ⟨_, rfl⟩

/-- C42: registering any table on a domain that is part of a universe panics, even one that is registered
already, and changes no domain, universe or property. -/
theorem C42_table (ops : List (ROp decl)) (t : GTable) (k : Nat) (hd : (World.after decl ops).hasDomain k t.domain) :
    (∃ e, ((World.after decl ops).registerTable t).1 = .error e) ∧ ((World.after decl ops).registerTable t).2.g = (World.after decl ops).g ∧
      ((World.after decl ops).registerTable t).2.unis = (World.after decl ops).unis ∧
      ((World.after decl ops).registerTable t).2.idx = (World.after decl ops).idx := by
  have L := ledger (decl := decl) (P := P) (V := V) ops
  obtain ⟨info, h1, h2⟩ := hasDomain_locked L.inv hd
  unfold World.registerTable
  split
  · exact ⟨⟨_, rfl⟩, rfl, rfl, rfl⟩
  · split
    · exact ⟨⟨_, rfl⟩, rfl, rfl, rfl⟩
    · rw [h1]
      simp only []
      rw [if_pos h2]
      exact ⟨⟨_, rfl⟩, rfl, rfl, rfl⟩

/-- C42: a property nobody registered cannot be read. -/
theorem C42_unregistered (ops : List (ROp decl)) (k : Nat) (p : P) (h : firstInit (World.history decl ops) (decl p).name = none) :
    ∃ e, ((World.after decl ops).get decl k p).1 = .error e := by
  have L := ledger (decl := decl) (P := P) (V := V) ops
  cases e : ((World.after decl ops).get decl k p).1 with
  | error x => exact ⟨x, rfl⟩
  | ok v =>
    exfalso
    obtain ⟨u, i, h1, h2, h3, h4⟩ := get_ok L.inv e
    obtain ⟨info, -, -, -, a4⟩ := h3
    have := L.init (decl p).name
    rw [h, a4] at this
    have hlt := L.inv.g.gid_lt a4
    simp [List.getElem?_eq_getElem hlt] at this

/-- C42: a property of a domain the universe lacks cannot be read. -/
theorem C42_missing (ops : List (ROp decl)) (k : Nat) (p : P) (h : ¬ (World.after decl ops).hasDomain k (decl p).domain) :
    ∃ e, ((World.after decl ops).get decl k p).1 = .error e := by
  have L := ledger (decl := decl) (P := P) (V := V) ops
  cases e : ((World.after decl ops).get decl k p).1 with
  | error x => exact ⟨x, rfl⟩
  | ok v =>
    exfalso
    obtain ⟨u, i, h1, h2, h3, h4⟩ := get_ok L.inv e
    obtain ⟨d, c1, c2⟩ := cell_inst h4
    obtain ⟨info', hio⟩ := (L.inv.unis u (List.mem_of_getElem? h1)).inst _ _ c1
    obtain ⟨info, a1, a2, -⟩ := h3
    have hn : d.name = (decl p).domain := L.inv.g.id_inj hio.look a1 (by rw [hio.id, a2])
    exact h ⟨u, d, h1, List.mem_of_getElem? c1, hn⟩

/-- C42: therefore no universe ever lacks a property of a domain it has, and `add_properties` has nothing to do:
it changes nothing in any state. -/
theorem C42_never_late (ops : List (ROp decl)) (k : Nat) (p : P) :
    ((World.after decl ops).get decl k p).1 ≠ .error .lateProp ∧ ((World.after decl ops).addProperties k).2 = World.after decl ops := by
  have L := ledger (decl := decl) (P := P) (V := V) ops
  refine ⟨?_, (addProperties_noop L.inv k).1⟩
  intro h
  unfold World.get at h
  cases hu : (World.after decl ops).unis[k]? with
  | none => rw [hu] at h; cases h
  | some u =>
    rw [hu] at h
    simp only [] at h
    obtain ⟨-, -, -, -, r5⟩ := resolve_step (decl := decl) L.inv p
    rcases er : (World.after decl ops).resolve decl p with ⟨r, w1⟩
    rw [er] at h
    rw [show ((World.empty : World P V).run decl ops).resolve decl p = _ from er] at r5
    cases r with
    | error x =>
      simp only [] at h
      injection h with h
      subst h
      unfold World.resolve World.syncAlias at er
      split at er
      · injection er with er; cases er
      · split at er
        · injection er with er; cases er
        · split at er
          · injection er with er; cases er
          · split at er
            · injection er with er; cases er
            · split at er
              · injection er with er; cases er
              · injection er with er; cases er
    | ok i =>
      simp only [] at h
      rcases cellOf_inv L.inv.g (L.inv.unis u (List.mem_of_getElem? hu)) (r5 i rfl).1 with hc | ⟨inst, v, -, -, hc, -⟩
      · rw [hc] at h; cases h
      · rw [hc] at h
        simp only [] at h
        unfold downcast at h
        split at h <;> cases h

/-! ## C44 -/

theorem addColumns_ok (seen cs : List ColumnMeta) : addColumns seen cs = .ok () ↔
    (∀ c ∈ cs, IsName c.name.toList) ∧ (cs.map (·.name)).Nodup ∧ ∀ c ∈ cs, ∀ d ∈ seen, d.name ≠ c.name := by
  induction cs generalizing seen with
  | nil => simp [addColumns]
  | cons c cs ih =>
    unfold addColumns
    have hn := checkName_ok c.name.toList
    cases h1 : checkName c.name.toList with
    | error e =>
      rw [h1] at hn
      simp only [reduceCtorEq, false_iff] at hn
      constructor
      · intro h; cases h
      · rintro ⟨h, -⟩; exact absurd (h c (by simp)) hn
    | ok x =>
      rw [h1] at hn
      have hn : IsName c.name.toList := hn.1 rfl
      show (if _ then _ else _) = _ ↔ _
      by_cases h2 : (seen.any fun d => decide (d.name = c.name)) = true
      · rw [if_pos h2]
        constructor
        · intro h; cases h
        · rintro ⟨-, -, h⟩
          obtain ⟨d, hd, he⟩ := List.any_eq_true.1 h2
          exact absurd (by simpa using he) (h c (by simp) d hd)
      · rw [if_neg h2, ih]
        have h2' : ∀ d ∈ seen, d.name ≠ c.name := by
          intro d hd he
          exact h2 (List.any_eq_true.2 ⟨d, hd, by simpa using he⟩)
        simp only [List.mem_cons, forall_eq_or_imp, List.map_cons, List.nodup_cons, List.mem_append, List.mem_singleton, List.mem_map, not_exists, not_and]
        constructor
        · rintro ⟨a, b, d⟩
          refine ⟨⟨hn, a⟩, ⟨?_, b⟩, h2', ?_⟩
          · intro x hx he
            exact d x hx c (Or.inr (Or.inl rfl)) he.symm
          · intro x hx y hy
            exact d x hx y (Or.inl hy)
        · rintro ⟨⟨-, a⟩, ⟨b1, b2⟩, d1, d2⟩
          refine ⟨a, b2, ?_⟩
          intro x hx y hy
          rcases hy with hy | hy | hy
          · exact d2 x hx y hy
          · subst hy; exact fun he => b1 x hx he.symm
          · cases hy

theorem build_ok (t : GTable) : t.build = .ok () ↔
    IsName t.name.toList ∧ (∀ c ∈ t.columns, IsName c.name.toList) ∧ (t.columns.map (·.name)).Nodup := by
  unfold GTable.build
  have hn := checkName_ok t.name.toList
  cases h1 : checkName t.name.toList with
  | error e =>
    rw [h1] at hn
    simp only [reduceCtorEq, false_iff] at hn
    simp only [hn, false_and, iff_false]
    intro h; cases h
  | ok x =>
    rw [h1] at hn
    have hn : IsName t.name.toList := hn.1 rfl
    show addColumns [] t.columns = _ ↔ _
    rw [addColumns_ok]
    simp [hn]

theorem zip_all_eq {α : Type} [DecidableEq α] (a b : List α) (hl : a.length = b.length) :
    (a.zip b).all (fun p => decide (p.1 = p.2)) = true ↔ a = b := by
  induction a generalizing b with
  | nil => cases b <;> simp_all
  | cons x a ih =>
    cases b with
    | nil => simp at hl
    | cons y b => simp [ih b (by simpa using hl)]

theorem equivalent_iff (a b : GTable) : a.equivalent b = true ↔ a.domain = b.domain ∧ a.name = b.name ∧ a.columns = b.columns := by
  unfold GTable.equivalent
  simp only [Bool.and_eq_true, decide_eq_true_eq]
  constructor
  · rintro ⟨⟨⟨h1, h2⟩, h3⟩, h4⟩
    exact ⟨h1, h2, (zip_all_eq _ _ h3).1 h4⟩
  · rintro ⟨h1, h2, h3⟩
    exact ⟨⟨⟨h1, h2⟩, by rw [h3]⟩, (zip_all_eq _ _ (by rw [h3])).2 h3⟩

theorem mem_tables_domain {tr : List (ROp decl × Bool)} {n : String} {t : GTable} (h : t ∈ tablesOf tr n) : t.domain = n := by
  obtain ⟨e, h1, h2⟩ := List.mem_filterMap.1 (mem_firsts h)
  obtain ⟨op, ok⟩ := e
  cases op <;> cases ok <;> simp [okTable] at h2
  rw [← h2.2]; exact h2.1

theorem lookup_tables {l : List GTable} (hnd : (l.map GTable.name).Nodup) {old : GTable} {n : String} :
    (l.map (fun t => (t.name, t))).lookup n = some old ↔ old ∈ l ∧ old.name = n := by
  constructor
  · intro h
    obtain ⟨x, h1, h2⟩ := List.mem_map.1 (lookup_mem h)
    injection h2 with h2 h3
    subst h3
    exact ⟨h1, h2⟩
  · rintro ⟨h1, rfl⟩
    refine lookup_of_mem ?_ (List.mem_map.2 ⟨old, h1, rfl⟩)
    rw [List.map_map]
    exact hnd

/-- C44: on a domain no universe was ever asked to have, registering a table returns exactly if its names are
valid, its column names distinct, its domain registered, and any table already registered under its name has the
same columns (name, type and version, in order). -/
theorem C44_register (ops : List (ROp decl)) (t : GTable) (hp : (World.after decl ops).poisoned = false)
    (hfree : ∀ op ∈ ops, ¬ Mentions t.domain op) :
    ((World.after decl ops).registerTable t).1 = .ok () ↔
      IsName t.name.toList ∧ (∀ c ∈ t.columns, IsName c.name.toList) ∧ (t.columns.map (·.name)).Nodup ∧
      t.domain ∈ domainsOf (World.history decl ops) ∧
      ∀ old ∈ tablesOf (World.history decl ops) t.domain, old.name = t.name → old.columns = t.columns := by
  have L := ledger (decl := decl) (P := P) (V := V) ops
  have hnl : ¬ (World.after decl ops).isLocked t.domain := by
    intro hl
    rcases run_locked (decl := decl) WInv.empty ops hl with ⟨i, h, -⟩ | ⟨op, h1, h2⟩
    · simp [World.empty] at h
    · exact hfree op h1 h2
  have hb := build_ok t
  unfold World.registerTable
  cases hbd : t.build with
  | error e =>
    rw [hbd] at hb
    simp only [reduceCtorEq, false_iff] at hb
    constructor
    · intro h; cases h
    · rintro ⟨h1, h2, h3, -⟩; exact absurd ⟨h1, h2, h3⟩ hb
  | ok x =>
    rw [hbd] at hb
    obtain ⟨b1, b2, b3⟩ := hb.1 rfl
    simp only []
    rw [if_neg (by simp [hp])]
    have hmem : t.domain ∈ domainsOf (World.history decl ops) ↔ ((World.after decl ops).g.domains.lookup t.domain).isSome = true := by
      rw [lookup_isSome_iff, L.inv.g.names, ← L.doms]
    cases hl : (World.after decl ops).g.domains.lookup t.domain with
    | none =>
      rw [hl] at hmem
      constructor
      · intro h; cases h
      · rintro ⟨-, -, -, h, -⟩; simpa using hmem.1 h
    | some info =>
      rw [hl] at hmem
      have hdm := hmem.2 rfl
      simp only []
      rw [if_neg (fun hk => hnl ⟨info, hl, hk⟩)]
      have htab := L.tabs _ _ hl
      have hlk : ∀ old, ((tablesOf (World.history decl ops) t.domain).map (fun t => (t.name, t))).lookup t.name = some old ↔
          old ∈ tablesOf (World.history decl ops) t.domain ∧ old.name = t.name :=
        fun old => lookup_tables (firsts_nodup ((World.history decl ops).filterMap (okTable t.domain)) (f := GTable.name))
      cases ht : info.tables.lookup t.name with
      | none =>
        simp only [true_iff]
        refine ⟨b1, b2, b3, hdm, ?_⟩
        intro old ho hn
        have := (hlk old).2 ⟨ho, hn⟩
        rw [htab] at ht
        cases ht.symm.trans this
      | some old =>
        have ht' := ht
        rw [htab] at ht'
        obtain ⟨ho, hon⟩ := (hlk old).1 ht'
        have hod := mem_tables_domain ho
        simp only []
        by_cases he : t.equivalent old = true
        · rw [if_pos he]
          simp only [true_iff]
          refine ⟨b1, b2, b3, hdm, ?_⟩
          intro old' ho' hn'
          have := (hlk old').2 ⟨ho', hn'⟩
          have := ht'.symm.trans this
          injection this with this
          subst this
          exact ((equivalent_iff _ _).1 he).2.2.symm
        · rw [if_neg he]
          constructor
          · intro h; cases h
          · rintro ⟨-, -, -, -, h⟩
            exact absurd ((equivalent_iff _ _).2 ⟨hod.symm, hon.symm, (h old ho hon).symm⟩) he

/-- C44: registering a name that is already registered never changes anything but, on a panic, the registry's
being dead; in particular the first table's kind and trackers stay, whatever the second says. -/
theorem C44_again (ops : List (ROp decl)) (t old : GTable) (ho : old ∈ tablesOf (World.history decl ops) t.domain) (hn : old.name = t.name) :
    ((World.after decl ops).registerTable t).2 = World.after decl ops ∨
    ((∃ e, ((World.after decl ops).registerTable t).1 = .error e) ∧
      ((World.after decl ops).registerTable t).2 = { World.after decl ops with poisoned := true }) := by
  have L := ledger (decl := decl) (P := P) (V := V) ops
  unfold World.registerTable
  split
  · exact Or.inl rfl
  · split
    · exact Or.inl rfl
    · cases hl : (World.after decl ops).g.domains.lookup t.domain with
      | none => exact Or.inr ⟨⟨_, rfl⟩, rfl⟩
      | some info =>
        simp only []
        split
        · exact Or.inr ⟨⟨_, rfl⟩, rfl⟩
        · have htab := L.tabs _ _ hl
          have : info.tables.lookup t.name = some old := by
            rw [htab]
            exact (lookup_tables (firsts_nodup ((World.history decl ops).filterMap (okTable t.domain)) (f := GTable.name))).2 ⟨ho, hn⟩
          rw [this]
          simp only []
          split
          · exact Or.inl rfl
          · exact Or.inr ⟨⟨_, rfl⟩, rfl⟩

/-! ## C45 -/

theorem declared_eq {w : World P V} {tr : List (ROp decl × Bool)} (L : Ledger w tr) (n : String) : w.g.declared n = declaredBy tr n := by
  unfold Globals.declared declaredBy
  cases hl : w.g.domains.lookup n with
  | none => rw [L.notabs n hl]; rfl
  | some info =>
    simp only []
    unfold DomainInfo.declared
    rw [L.tabs n info hl, List.flatMap_map]

theorem isFor_eq {w : World P V} (hg : GInv w.g) {u : List (MaybeDomain V)} (hu : UOk w.g u) (hp : w.poisoned = false) {j : Nat} {d : Instance V}
    (hd : u[j]? = some (.domain d)) (t : String) (r : Reg) : w.isFor j t r = decide (r.domain = d.name ∧ r.table = t) := by
  obtain ⟨info, hi⟩ := hu.inst _ _ hd
  unfold World.isFor
  have : w.getId r.domain = .ok j ↔ r.domain = d.name := by
    constructor
    · intro h
      obtain ⟨-, i, h1, h2⟩ := getId_ok h
      exact hg.id_inj h1 hi.look (by rw [h2, hi.id])
    · intro h
      rw [h]
      unfold World.getId
      rw [if_neg (by simp [hp]), hi.look]
      simp only []
      rw [hi.id]
  simp [this]

theorem trackersAt_eq {u : List (MaybeDomain V)} {j : Nat} {d : Instance V} {t : String} {x : TableInst} (h1 : u[j]? = some (.domain d))
    (h2 : d.tables.lookup t = some x) : trackersAt u j t = x.trackers := by
  unfold trackersAt
  rw [h1]
  simp only []
  rw [h2]

/-- C45: the trackers of every table of a new universe are those declared for it by the tables of the listed
domains: each once for every time the declaring domain is listed. -/
theorem C45_new (ops : List (ROp decl)) (names : List String) (k : Nat) (h : ((World.after decl ops).newUniverse names).1 = .ok k) :
    ∃ u, ((World.after decl ops).newUniverse names).2.unis = (World.after decl ops).unis ++ [u] ∧ k = (World.after decl ops).unis.length ∧
      ∀ d x t, MaybeDomain.domain d ∈ u → d.tables.lookup t = some x →
        x.trackers = ((names.flatMap (declaredBy (World.history decl ops))).filter (fun r => decide (r.domain = d.name ∧ r.table = t))).map (·.tracker) := by
  have L := ledger (decl := decl) (P := P) (V := V) ops
  unfold World.newUniverse at h ⊢
  by_cases hp : (World.after decl ops).poisoned = true
  · rw [if_pos hp] at h; cases h
  · simp only [if_neg hp] at h ⊢
    cases e : (World.after decl ops).g.getDomains ((World.after decl ops).g.did2name.map .unset) names with
    | error x => rw [e] at h; cases h
    | ok ug =>
      obtain ⟨u, g'⟩ := ug
      simp only [e] at h ⊢
      have hinv := getDomains_inv L.inv.g (unset_ok (g := (World.after decl ops).g)) (by simp) names
      rw [show ((World.empty : World P V).run decl ops).g.getDomains _ names = _ from e] at hinv
      obtain ⟨c1, c2, c3, c4, c5, c6, c7, c8⟩ := hinv
      obtain ⟨f1, f2⟩ := getDomains_fresh L.inv.g names (by
          intro k d hk
          rw [List.getElem?_map] at hk
          cases e : (World.after decl ops).g.did2name[k]? with
          | none => rw [e] at hk; cases hk
          | some m => rw [e] at hk; simp at hk) e
      obtain ⟨d1, d2, d3⟩ := initDomains_inv (w := ({ World.after decl ops with g := g' } : World P V)) c1 names c3
      have hun := initDomains_unset (w := ({ World.after decl ops with g := g' } : World P V)) names u
      rcases ei : ({ World.after decl ops with g := g' } : World P V).initDomains u names with ⟨pp, u1⟩
      rw [ei] at d1 d2 d3 hun
      simp only [ei] at h ⊢
      cases pp with
      | some x => cases h
      | none =>
        simp only [] at h d1 d2 d3 ⊢
        injection h with h
        refine ⟨u1, rfl, h.symm, ?_⟩
        intro d x t hd ht
        obtain ⟨j, hj, ed⟩ := List.mem_iff_getElem.1 hd
        have hdj : u1[j]? = some (.domain d) := by rw [List.getElem?_eq_getElem hj, ed]
        have := d3 trivial j t
        rw [trackersAt_eq hdj ht] at this
        rw [this]
        have h0 : trackersAt u j t = [] := by
          have := getDomains_empty L.inv.g names (ret := (World.after decl ops).g.did2name.map .unset) (by
            intro k d hk
            rw [List.getElem?_map] at hk
            cases e : (World.after decl ops).g.did2name[k]? with
            | none => rw [e] at hk; cases hk
            | some m => rw [e] at hk; simp at hk) e
          unfold trackersAt
          split
          · rename_i d0 hd0
            split
            · rename_i y hy
              exact (this j d0 hd0 _ (lookup_mem hy)).1
            · rfl
          · rfl
        rw [h0, List.nil_append]
        have hdecl : ({ World.after decl ops with g := g' } : World P V).g.declared = declaredBy (World.history decl ops) := by
          funext n
          rw [← declared_eq L n]
          unfold Globals.declared
          have := f1.doms n
          show (match g'.domains.lookup n with | some info => info.declared | none => []) = _
          cases e1 : g'.domains.lookup n with
          | none =>
            rw [e1] at this
            cases e2 : (World.after decl ops).g.domains.lookup n with
            | none => rfl
            | some i => rw [e2] at this; cases this
          | some i1 =>
            rw [e1] at this
            cases e2 : (World.after decl ops).g.domains.lookup n with
            | none => rw [e2] at this; cases this
            | some i2 =>
              rw [e2] at this
              simp only [Option.map_some, Option.some.injEq, Prod.mk.injEq] at this
              simp only [DomainInfo.declared, this.2]
        rw [hdecl]
        have hf : (fun r => ({ World.after decl ops with g := g' } : World P V).isFor j t r) = fun r => decide (r.domain = d.name ∧ r.table = t) := by
          funext r
          exact isFor_eq c1 d1 (by simpa using hp) hdj t r
        rw [show (({ World.after decl ops with g := g' } : World P V).isFor j t) = _ from hf]

/-- C45: with every domain listed at most once, each declared tracker is registered exactly as often as it is
declared; listing a domain twice registers all its trackers twice. -/
theorem C45_listed (tr : List (ROp decl × Bool)) (names : List String) (d t : String) (c : Nat) :
    (((names.flatMap (declaredBy tr)).filter (fun r => decide (r.domain = d ∧ r.table = t))).map (·.tracker)).count c =
      (names.map (fun n => (declaredBy tr n).countP (fun r => decide (r.domain = d ∧ r.table = t ∧ r.tracker = c)))).sum := by
  induction names with
  | nil => rfl
  | cons n names ih =>
    rw [List.flatMap_cons, List.filter_append, List.map_append, List.count_append, ih, List.map_cons, List.sum_cons]
    congr 1
    rw [List.count_eq_countP, List.countP_map, List.countP_filter]
    apply List.countP_congr
    intro r _
    simp [and_assoc, and_comm, and_left_comm]

/-- C45: `add_domain` of a domain the universe has returns and changes no domain of any universe. -/
theorem C45_add_again (ops : List (ROp decl)) (k : Nat) (n : String) (hp : (World.after decl ops).poisoned = false)
    (hd : (World.after decl ops).hasDomain k n) :
    ((World.after decl ops).addDomain k n).1 = .ok () ∧ ((World.after decl ops).addDomain k n).2.g = (World.after decl ops).g ∧
    ∀ (k' : Nat) (u' : List (MaybeDomain V)), ((World.after decl ops).addDomain k n).2.unis[k']? = some u' → ∃ u : List (MaybeDomain V),
      (World.after decl ops).unis[k']? = some u ∧ ∀ d, MaybeDomain.domain d ∈ u' ↔ MaybeDomain.domain d ∈ u := by
  have L := ledger (decl := decl) (P := P) (V := V) ops
  obtain ⟨info, hl, -⟩ := hasDomain_locked L.inv hd
  obtain ⟨u, d0, hk, hdu, hn⟩ := id hd
  obtain ⟨d, hdu⟩ := (hasDomain_at L.inv hk hl).1 hd
  rw [show (World.after decl ops).addDomain k n = _ from addDomain_there L.inv hp hk hl hdu]
  refine ⟨rfl, rfl, ?_⟩
  intro k' u' hu'
  simp only [] at hu'
  by_cases e : k = k'
  · subst e
    rw [List.getElem?_set, if_pos rfl, if_pos (get_lt hk)] at hu'
    injection hu' with hu'
    subst hu'
    refine ⟨u, hk, ?_⟩
    intro d'
    constructor
    · intro h
      obtain ⟨j, hj⟩ := domain_at h
      exact List.mem_of_getElem? (padded_domain.1 hj)
    · intro h
      obtain ⟨j, hj⟩ := domain_at h
      exact List.mem_of_getElem? (padded_domain.2 hj)
  · rw [List.getElem?_set_ne e] at hu'
    exact ⟨u', hu', fun _ => Iff.rfl⟩

/-- C45: `add_domain` of a registered domain leaves the domain in the universe whether it returns or panics, and
does not kill the registry: after a panic a second attempt returns at once (C45_add_again) although the trackers
not yet registered are missing. -/
theorem C45_add_always (ops : List (ROp decl)) (k : Nat) (n : String) (hp : (World.after decl ops).poisoned = false)
    (hk : k < (World.after decl ops).unis.length) (hn : n ∈ domainsOf (World.history decl ops)) :
    ((World.after decl ops).addDomain k n).2.hasDomain k n ∧ ((World.after decl ops).addDomain k n).2.poisoned = false := by
  have L := ledger (decl := decl) (P := P) (V := V) ops
  have hu := List.getElem?_eq_getElem hk
  generalize (World.after decl ops).unis[k] = u at hu
  rw [← L.doms, ← L.inv.g.names] at hn
  cases hl : (World.after decl ops).g.domains.lookup n with
  | none => exact absurd hn (lookup_none_iff.1 hl)
  | some info =>
    by_cases hd : ∃ d, u[info.id]? = some (.domain d)
    · obtain ⟨d, hd⟩ := hd
      rw [show (World.after decl ops).addDomain k n = _ from addDomain_there L.inv hp hu hl hd]
      obtain ⟨i, hi⟩ := (L.inv.unis u (List.mem_of_getElem? hu)).inst _ _ hd
      refine ⟨⟨World.padded (World.after decl ops) u, d, ?_, List.mem_of_getElem? (padded_domain.2 hd), L.inv.g.id_inj hi.look hl (by rw [hi.id])⟩, hp⟩
      simp only []
      rw [List.getElem?_set, if_pos rfl, if_pos hk]
    · obtain ⟨inst, w0, e0, a1, a2, a3, a4, a5, a6, a7, a8⟩ := addDomain_new (decl := decl) L.inv hp hu hl (fun d h => hd ⟨d, h⟩)
      rw [show ((World.after decl ops).addDomain k n).2 = _ from a8]
      have hkk : k < w0.unis.length := by rw [e0]; simp only [List.length_set]; exact hk
      have h0 : ((World.padded (World.after decl ops) u).set info.id (.domain inst))[info.id]? = some (.domain inst) := by
        rw [List.getElem?_set, if_pos rfl, if_pos a3]
      have hok := (initDomain_inv (w := w0) a4 a6 n).1
      obtain ⟨d', c1, c2⟩ := initDomain_same (w := w0) _ n _ _ h0
      obtain ⟨i1, hi1⟩ := hok.inst _ _ c1
      obtain ⟨i2, hi2⟩ := a6.inst _ _ h0
      have hname : d'.name = n := by
        have := hi1.name.symm.trans hi2.name
        injection this with this
        rw [this, a1]
      refine ⟨⟨_, d', ?_, List.mem_of_getElem? c1, hname⟩, by rw [e0]; exact hp⟩
      simp only []
      rw [List.getElem?_set, if_pos rfl, if_pos hkk]

/-- C45: when `add_domain` adds a domain and returns, the tables of the new domain have exactly the trackers its
own tables declare for them, and every other table of the universe has in addition to those it had exactly the
trackers declared for it by the new domain's tables. -/
theorem C45_add (ops : List (ROp decl)) (k : Nat) (n : String) (u u' : List (MaybeDomain V)) (hk : (World.after decl ops).unis[k]? = some u)
    (hd : ¬ (World.after decl ops).hasDomain k n) (h : ((World.after decl ops).addDomain k n).1 = .ok ())
    (hk' : ((World.after decl ops).addDomain k n).2.unis[k]? = some u') (d : Instance V) (hdu : MaybeDomain.domain d ∈ u') (t : String) (x : TableInst)
    (hx : d.tables.lookup t = some x) :
    (d.name = n ∧ x.trackers = ((declaredBy (World.history decl ops) n).filter (fun r => decide (r.domain = n ∧ r.table = t))).map (·.tracker)) ∨
    (∃ d0 x0, MaybeDomain.domain d0 ∈ u ∧ d0.name = d.name ∧ d0.tables.lookup t = some x0 ∧
      x.trackers = x0.trackers ++ ((declaredBy (World.history decl ops) n).filter (fun r => decide (r.domain = d.name ∧ r.table = t))).map (·.tracker)) := by
  have L := ledger (decl := decl) (P := P) (V := V) ops
  have hp : (World.after decl ops).poisoned = false := by
    cases e : (World.after decl ops).poisoned with
    | false => rfl
    | true =>
      unfold World.addDomain at h
      rw [hk] at h
      simp only [World.synced] at h
      rw [if_pos e] at h
      cases h
  cases hl : (World.after decl ops).g.domains.lookup n with
  | none =>
    unfold World.addDomain at h
    rw [hk] at h
    simp only [] at h
    rw [synced_eq (decl := decl) L.inv hp hk] at h
    simp only [World.getId] at h
    rw [if_neg (by simp [hp]), hl] at h
    cases h
  | some info =>
    obtain ⟨inst, w0, e0, a1, a2, a3, a4, a5, a6, a7, a8⟩ := addDomain_new (decl := decl) L.inv hp hk hl
      (fun d' h' => hd ((hasDomain_at L.inv hk hl).2 ⟨d', h'⟩))
    have hp0 : w0.poisoned = false := by rw [e0]; exact hp
    have hkk : k < w0.unis.length := by rw [e0]; simp only [List.length_set]; exact get_lt hk
    rw [show ((World.after decl ops).addDomain k n).2 = _ from a8] at hk'
    simp only [] at hk'
    rw [List.getElem?_set, if_pos rfl, if_pos hkk] at hk'
    injection hk' with hk'
    obtain ⟨b1, b2, b3⟩ := initDomain_inv (w := w0) a4 a6 n
    have hnone : (w0.initDomain ((World.padded (World.after decl ops) u).set info.id (.domain inst)) n).1 = none := by
      rw [show ((World.after decl ops).addDomain k n).1 = _ from a7] at h
      split at h
      · assumption
      · cases h
    obtain ⟨i0, c1, c2⟩ := b3 hnone
    have hun := initDomain_unset (w := w0) ((World.padded (World.after decl ops) u).set info.id (.domain inst)) n
    rw [show (w0.initDomain ((World.padded ((World.empty : World P V).run decl ops) u).set info.id (.domain inst)) n).2 = u' from hk'] at b1 b2 c2 hun
    obtain ⟨j, hj⟩ := domain_at hdu
    have hdecl : i0.declared = declaredBy (World.history decl ops) n := by
      have h1 := SameG.lock (World.after decl ops).g n
      have h2 := h1.doms n
      rw [e0] at c1
      rw [c1, hl] at h2
      simp only [Option.map_some, Option.some.injEq, Prod.mk.injEq] at h2
      unfold DomainInfo.declared declaredBy
      rw [h2.2, L.tabs n info hl, List.flatMap_map]
    have hc := c2 j t
    rw [trackersAt_eq hj hx, hdecl] at hc
    have hf : w0.isFor j t = fun r => decide (r.domain = d.name ∧ r.table = t) := by
      funext r
      exact isFor_eq a4 b1 hp0 hj t r
    rw [hf] at hc
    -- what was there
    have hjlt : j < ((World.padded (World.after decl ops) u).set info.id (.domain inst)).length := by
      rw [← b2]; exact get_lt hj
    obtain ⟨d2, hd2⟩ : ∃ d2, ((World.padded (World.after decl ops) u).set info.id (.domain inst))[j]? = some (.domain d2) := by
      cases e : ((World.padded (World.after decl ops) u).set info.id (.domain inst))[j] with
      | domain d2 => exact ⟨d2, by rw [List.getElem?_eq_getElem hjlt, e]⟩
      | unset m =>
        have := hun.2 j m (by rw [List.getElem?_eq_getElem hjlt, e])
        rw [hj] at this; cases this
    obtain ⟨i1, hi1⟩ := b1.inst _ _ hj
    obtain ⟨i2, hi2⟩ := a6.inst _ _ hd2
    have hname : d2.name = d.name := by
      have := hi2.name.symm.trans hi1.name
      injection this
    have hi12 : i1 = i2 := by
      have h1 := hi1.look
      have h2 := hi2.look
      rw [hname, h1] at h2
      injection h2
    obtain ⟨x2, hx2⟩ : ∃ x2, d2.tables.lookup t = some x2 := by
      have h1 : (d.tables.lookup t).map (·.gt) = (d2.tables.lookup t).map (·.gt) := by
        rw [← lookup_map_snd (f := fun x : TableInst => x.gt), ← lookup_map_snd (f := fun x : TableInst => x.gt)]
        have e1 := hi1.tables
        have e2 := hi2.tables
        rw [e1, e2, hi12]
      rw [hx] at h1
      cases e : d2.tables.lookup t with
      | none => rw [e] at h1; cases h1
      | some x2 => exact ⟨x2, rfl⟩
    rw [trackersAt_eq hd2 hx2] at hc
    by_cases hji : info.id = j
    · left
      subst hji
      have hdi : d2 = inst := by
        rw [List.getElem?_set, if_pos rfl, if_pos a3] at hd2
        injection hd2 with hd2; injection hd2 with hd2; exact hd2.symm
      have hdn : d.name = n := by rw [← hname, hdi, a1]
      refine ⟨hdn, ?_⟩
      have hx2t : x2.trackers = [] := by
        rw [hdi] at hx2
        exact (a2 _ (lookup_mem hx2)).1
      rw [hc, hx2t, hdn]
      rfl
    · right
      rw [List.getElem?_set_ne hji] at hd2
      exact ⟨d2, x2, List.mem_of_getElem? (padded_domain.1 hd2), hname, hx2, hc⟩

/-! ## C62 -/

/-- C62: once the registry is dead, every registration, every creation or extension of a universe and every
locking of a table of any universe panics and changes nothing, whatever its arguments. -/
theorem C62_dead (w : World P V) (h : w.poisoned = true) :
    (∀ n, ∃ e, w.registerDomain n = (.error e, w)) ∧ (∀ p, w.registerProp decl p = (.error .poisoned, w)) ∧
    (∀ t, ∃ e, w.registerTable t = (.error e, w)) ∧ (∀ ns, w.newUniverse ns = (.error .poisoned, w)) ∧
    (∀ k n, ∃ e, w.addDomain k n = (.error e, w)) ∧ (∀ k, ∃ e, w.addProperties k = (.error e, w)) ∧
    (∀ k p, w.idx p = none → ∃ e, w.get decl k p = (.error e, w)) ∧
    (∀ k m write tolerant, ∃ e, w.openTable k m write tolerant = (.error e, w)) ∧
    ∀ k r, ∃ e, w.registerTracker k r = (.error e, w) := by
  have hid : ∀ n, w.getId n = .error .poisoned := fun n => if_pos h
  refine ⟨?_, ?_, ?_, ?_, ?_, ?_, ?_, ?_, ?_⟩
  · intro n
    unfold World.registerDomain
    split
    · exact ⟨_, rfl⟩
    · rw [if_pos h]; exact ⟨_, rfl⟩
  · intro p
    unfold World.registerProp
    rw [if_pos h]
  · intro t
    unfold World.registerTable
    split
    · exact ⟨_, rfl⟩
    · rw [if_pos h]; exact ⟨_, rfl⟩
  · intro ns
    unfold World.newUniverse
    rw [if_pos h]
  · intro k n
    unfold World.addDomain
    split
    · exact ⟨_, rfl⟩
    · unfold World.synced
      rw [if_pos h]
      exact ⟨_, rfl⟩
  · intro k
    unfold World.addProperties
    split
    · exact ⟨_, rfl⟩
    · rw [if_pos h]; exact ⟨_, rfl⟩
  · intro k p hi
    unfold World.get
    split
    · exact ⟨_, rfl⟩
    · unfold World.resolve
      rw [hi]
      simp only []
      unfold World.syncAlias
      rw [if_pos h]
      exact ⟨_, rfl⟩
  · intro k m write tolerant
    unfold World.openTable
    split
    · exact ⟨_, rfl⟩
    · rw [hid]; exact ⟨_, rfl⟩
  · intro k r
    unfold World.registerTracker
    split
    · exact ⟨_, rfl⟩
    · rename_i u hk
      refine ⟨.poisoned, ?_⟩
      unfold World.register
      rw [hid]
      have : w.unis.set k u = w.unis := by
        apply List.ext_getElem?
        intro j
        rw [List.getElem?_set]
        split
        · rename_i e; subst e; split
          · exact hk.symm
          · rename_i hn; rw [List.getElem?_eq_none (by omega)]
        · rfl
      simp only []
      rw [this]

/-- C62: it stays dead. -/
theorem C62_forever (ops more : List (ROp decl)) (h : (World.after decl ops).poisoned = true) : (World.after decl (ops ++ more)).poisoned = true := by
  have L := ledger (decl := decl) (P := P) (V := V) ops
  unfold World.after
  rw [run_append]
  exact (run_inv L.inv more).2.poisoned h

/-- C62: what kills it: a registration of a property or table, a creation of a universe, or an access of a
property, that panics. Registering or adding a domain never does, nor does anything done with a table. -/
theorem C62_cause (ops : List (ROp decl)) (op : ROp decl) (h : (World.after decl ops).poisoned = false)
    (h' : ((World.after decl ops).step decl op).2.poisoned = true) :
    (∃ e, ((World.after decl ops).step decl op).1 = .error e) ∧
      match op with
      | .registerDomain _ => False
      | .addDomain _ _ => False
      | .addProperties _ => False
      | .openTable _ _ _ _ => False
      | .panicWriting _ _ _ => False
      | .registerTracker _ _ => False
      | _ => True := by
  have L := ledger (decl := decl) (P := P) (V := V) ops
  cases op with
  | registerDomain n =>
    exfalso
    replace h' : ((World.after decl ops).registerDomain n).2.poisoned = true := h'
    unfold World.registerDomain at h'
    split at h'
    · rw [h] at h'; cases h'
    · rw [if_neg (by simp [h])] at h'
      split at h' <;> (rw [h] at h'; cases h')
  | registerProp p =>
    refine ⟨?_, trivial⟩
    replace h' : ((World.after decl ops).registerProp decl p).2.poisoned = true := h'
    show ∃ e, ((World.after decl ops).registerProp decl p).1 = .error e
    cases e : ((World.after decl ops).registerProp decl p).1 with
    | error x => exact ⟨x, rfl⟩
    | ok x =>
      exfalso
      unfold World.registerProp at h' e
      rw [if_neg (by simp [h])] at h' e
      split at h'
      · rw [h] at h'; cases h'
      · rename_i hi
        rw [hi] at e
        simp only [] at h' e
        split at h'
        · rename_i hc; rw [hc] at e; cases e
        · rename_i hc
          rw [hc] at e
          simp only [] at e
          split at h'
          · rename_i hl; rw [hl] at e; cases e
          · rename_i info hl
            rw [hl] at e
            simp only [] at e
            split at h'
            · rename_i hk; rw [if_pos hk] at e; cases e
            · rw [h] at h'; cases h'
  | registerTable t =>
    refine ⟨?_, trivial⟩
    replace h' : ((World.after decl ops).registerTable t).2.poisoned = true := h'
    show ∃ e, ((World.after decl ops).registerTable t).1 = .error e
    unfold World.registerTable at h' ⊢
    split
    · exact ⟨_, rfl⟩
    · rename_i hb
      rw [hb] at h'
      simp only [] at h'
      split
      · exact ⟨_, rfl⟩
      · rename_i hp
        rw [if_neg hp] at h'
        split
        · exact ⟨_, rfl⟩
        · rename_i info hl
          rw [hl] at h'
          simp only [] at h'
          split
          · exact ⟨_, rfl⟩
          · rename_i hk
            rw [if_neg hk] at h'
            split
            · rename_i ht
              rw [ht] at h'
              simp only [] at h'
              rw [h] at h'; cases h'
            · rename_i old ht
              rw [ht] at h'
              simp only [] at h'
              split
              · rename_i he
                rw [if_pos he] at h'
                rw [h] at h'; cases h'
              · exact ⟨_, rfl⟩
  | newUniverse ns =>
    refine ⟨?_, trivial⟩
    replace h' : ((World.after decl ops).newUniverse ns).2.poisoned = true := h'
    show ∃ e, ((World.after decl ops).newUniverse ns).1.map _ = .error e
    unfold World.newUniverse at h' ⊢
    rw [if_neg (by simp [h])] at h' ⊢
    split
    · exact ⟨_, rfl⟩
    · rename_i u g' e
      rw [e] at h'
      simp only [] at h'
      split at h' <;> (rw [h] at h'; cases h')
  | addDomain k n =>
    exfalso
    replace h' : ((World.after decl ops).addDomain k n).2.poisoned = true := h'
    cases hk : (World.after decl ops).unis[k]? with
    | none =>
      unfold World.addDomain at h'
      rw [hk] at h'
      simp only [] at h'
      rw [h] at h'; cases h'
    | some u =>
      cases hl : (World.after decl ops).g.domains.lookup n with
      | none =>
        unfold World.addDomain at h'
        rw [hk] at h'
        simp only [] at h'
        rw [synced_eq (decl := decl) L.inv h hk] at h'
        simp only [World.getId] at h'
        rw [if_neg (by simp [h]), hl] at h'
        simp only [] at h'
        rw [h] at h'; cases h'
      | some info =>
        have hn : n ∈ domainsOf (World.history decl ops) := by
          rw [← L.doms, ← L.inv.g.names]
          exact lookup_isSome_iff.1 (by rw [show List.lookup n _ = _ from hl]; rfl)
        have := (C45_add_always ops k n h (get_lt hk) hn).2
        rw [this] at h'; cases h'
  | addProperties k =>
    exfalso
    replace h' : ((World.after decl ops).addProperties k).2.poisoned = true := h'
    rw [show ((World.after decl ops).addProperties k).2 = _ from (addProperties_noop L.inv k).1] at h'
    rw [h] at h'; cases h'
  | get k p =>
    refine ⟨?_, trivial⟩
    obtain ⟨e, he⟩ := get_poison (k := k) (p := p) h h'
    exact ⟨e, by show (((World.after decl ops).get decl k p).1.map _) = _; rw [he]; rfl⟩
  | set k p v =>
    refine ⟨?_, trivial⟩
    replace h' : ((World.after decl ops).set decl k p v).2.poisoned = true := h'
    rw [set_snd] at h'
    obtain ⟨e, he⟩ := swap_poison h h'
    refine ⟨e, ?_⟩
    show ((World.after decl ops).set decl k p v).1 = .error e
    rw [set_fst, he]; rfl
  | swap k p v =>
    refine ⟨?_, trivial⟩
    obtain ⟨e, he⟩ := swap_poison h h'
    exact ⟨e, by show (((World.after decl ops).swap decl k p v).1.map _) = _; rw [he]; rfl⟩
  | openTable k m b t =>
    exfalso
    have := (Touch.inv L.inv (openTable_touch (World.after decl ops) k m b t)).2.2.2.1
    replace h' : ((World.after decl ops).openTable k m b t).2.poisoned = true := h'
    rw [this, h] at h'; cases h'
  | panicWriting k m t =>
    exfalso
    have := (Touch.inv L.inv (panicWriting_touch (World.after decl ops) k m t)).2.2.2.1
    replace h' : ((World.after decl ops).panicWriting k m t).2.poisoned = true := h'
    rw [this, h] at h'; cases h'
  | registerTracker k r =>
    exfalso
    have := (Touch.inv L.inv (registerTracker_touch (World.after decl ops) k r)).2.2.2.1
    replace h' : ((World.after decl ops).registerTracker k r).2.poisoned = true := h'
    rw [this, h] at h'; cases h'

/-- C62: these panics always kill it: any panic of a property's registration; a panic of a table's
registration that is not about its own names and columns; listing an unregistered domain for a universe; and
accessing a property nobody registered. -/
theorem C62_triggers (ops : List (ROp decl)) (h : (World.after decl ops).poisoned = false) :
    (∀ p e, ((World.after decl ops).registerProp decl p).1 = .error e → ((World.after decl ops).registerProp decl p).2.poisoned = true) ∧
    (∀ t e, ((World.after decl ops).registerTable t).1 = .error e → t.build = .ok () → ((World.after decl ops).registerTable t).2.poisoned = true) ∧
    (∀ ns, (∃ n ∈ ns, n ∉ domainsOf (World.history decl ops)) → ((World.after decl ops).newUniverse ns).2.poisoned = true) ∧
    (∀ k p, k < (World.after decl ops).unis.length → firstInit (World.history decl ops) (decl p).name = none →
      ((World.after decl ops).get decl k p).2.poisoned = true) := by
  have L := ledger (decl := decl) (P := P) (V := V) ops
  refine ⟨?_, ?_, ?_, ?_⟩
  · intro p e he
    unfold World.registerProp at he ⊢
    rw [if_neg (by simp [h])] at he ⊢
    split
    · rename_i hi; rw [hi] at he; cases he
    · rename_i hi
      rw [hi] at he
      simp only [] at he ⊢
      split
      · rfl
      · rename_i hc
        rw [hc] at he
        simp only [] at he
        split
        · rfl
        · rename_i info hl
          rw [hl] at he
          simp only [] at he
          split
          · rfl
          · rename_i hk; rw [if_neg hk] at he; cases he
  · intro t e he hb
    unfold World.registerTable at he ⊢
    rw [hb] at he ⊢
    simp only [] at he ⊢
    rw [if_neg (by simp [h])] at he ⊢
    split
    · rfl
    · rename_i info hl
      rw [hl] at he
      simp only [] at he
      split
      · rfl
      · rename_i hk
        rw [if_neg hk] at he
        split
        · rename_i ht; rw [ht] at he; cases he
        · rename_i old ht
          rw [ht] at he
          simp only [] at he
          split
          · rename_i hq; rw [if_pos hq] at he; cases he
          · rfl
  · rintro ns ⟨n, h1, h2⟩
    unfold World.newUniverse
    rw [if_neg (by simp [h])]
    have hinv := getDomains_inv L.inv.g (unset_ok (g := (World.after decl ops).g)) (by simp) ns
    split
    · rfl
    · rename_i u g' e
      exfalso
      rw [show ((World.empty : World P V).run decl ops).g.getDomains _ ns = _ from e] at hinv
      obtain ⟨-, -, -, -, -, c6, -⟩ := hinv
      exact h2 (by rw [← L.doms]; exact c6 n h1)
  · intro k p hk hf
    have hnone : (World.after decl ops).g.name2gid.lookup (decl p).name = none := by
      have := L.init (decl p).name
      rw [hf] at this
      cases e : (World.after decl ops).g.name2gid.lookup (decl p).name with
      | none => rfl
      | some gid =>
        rw [show List.lookup _ ((World.empty : World P V).run decl ops).g.name2gid = _ from e] at this
        have hlt := L.inv.g.gid_lt e
        simp [List.getElem?_eq_getElem hlt] at this
    have hidx : (World.after decl ops).idx p = none := by
      cases e : (World.after decl ops).idx p with
      | none => rfl
      | some i =>
        obtain ⟨_, _, _, _, a4⟩ := L.inv.idx p i e
        rw [show List.lookup _ ((World.empty : World P V).run decl ops).g.name2gid = _ from hnone] at a4
        cases a4
    unfold World.get
    rw [List.getElem?_eq_getElem hk]
    simp only []
    unfold World.resolve
    rw [hidx]
    simp only []
    unfold World.syncAlias
    rw [if_neg (by simp [h]), hnone]
    cases (World.after decl ops).g.domains.lookup (decl p).domain <;> rfl

end V11
