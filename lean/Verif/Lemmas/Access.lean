import Verif.Props.RegistryUse

/-!
# Tables of universes, by name
-/

set_option linter.unusedSimpArgs false
set_option linter.unusedSectionVars false
set_option linter.unusedVariables false

namespace V11

variable {Ty : Type} [DecidableEq Ty] {V : Ty → Type} {P : Type} [DecidableEq P] {decl : P → PropDecl V}

/-- The universe has this table. -/
def uTable (u : List (MaybeDomain V)) (d t : String) (x : TableInst) : Prop :=
  ∃ i, MaybeDomain.domain i ∈ u ∧ i.name = d ∧ i.tables.lookup t = some x

theorem uTable_at {g : Globals V} (hg : GInv g) {u : List (MaybeDomain V)} (hu : UOk g u) {d : String} {info : DomainInfo}
    (hl : g.domains.lookup d = some info) {t : String} {x : TableInst} : uTable u d t x ↔ tableAt u info.id t = some x := by
  constructor
  · rintro ⟨i, h1, rfl, h3⟩
    obtain ⟨j, hj⟩ := domain_at h1
    obtain ⟨info', hi⟩ := hu.inst _ _ hj
    have := hi.look
    rw [hl] at this
    injection this with this
    subst this
    rw [hi.id]
    unfold tableAt
    rw [hj]
    exact h3
  · intro h
    unfold tableAt at h
    split at h
    · rename_i i hi
      obtain ⟨info', hj⟩ := hu.inst _ _ hi
      exact ⟨i, List.mem_of_getElem? hi, hg.id_inj hj.look hl (by rw [hj.id]), h⟩
    · cases h

theorem uTable_registered {g : Globals V} {u : List (MaybeDomain V)} (hu : UOk g u) {d t : String} {x : TableInst} (h : uTable u d t x) :
    ∃ info, g.domains.lookup d = some info ∧ info.tables.lookup t = some x.gt := by
  obtain ⟨i, h1, rfl, h3⟩ := h
  obtain ⟨j, hj⟩ := domain_at h1
  obtain ⟨info, hi⟩ := hu.inst _ _ hj
  refine ⟨info, hi.look, ?_⟩
  rw [← hi.tables, lookup_map_snd (f := fun x : TableInst => x.gt), h3]
  rfl

theorem uTable_unique {g : Globals V} (hg : GInv g) {u : List (MaybeDomain V)} (hu : UOk g u) {d t : String} {x y : TableInst}
    (h1 : uTable u d t x) (h2 : uTable u d t y) : x = y := by
  obtain ⟨info, hl, -⟩ := uTable_registered hu h1
  rw [uTable_at hg hu hl] at h1 h2
  rw [h1] at h2
  injection h2

theorem hasTable_uTable {w : World P V} {k : Nat} {u : List (MaybeDomain V)} (hk : w.unis[k]? = some u) {d t : String} {x : TableInst} :
    w.hasTable k d t x ↔ uTable u d t x := by
  constructor
  · rintro ⟨u', i, h1, h2⟩
    rw [hk] at h1
    injection h1 with h1
    subst h1
    exact ⟨i, h2⟩
  · rintro ⟨i, h⟩
    exact ⟨u, i, hk, h⟩

theorem hasTable_unique {w : World P V} (h : WInv decl w) {k : Nat} {d t : String} {x y : TableInst}
    (h1 : w.hasTable k d t x) (h2 : w.hasTable k d t y) : x = y := by
  obtain ⟨u, i, hk, -⟩ := id h1
  rw [hasTable_uTable hk] at h1 h2
  exact uTable_unique h.g (h.unis u (List.mem_of_getElem? hk)) h1 h2

theorem hasTable_hasDomain {w : World P V} {k : Nat} {d t : String} {x : TableInst} (h : w.hasTable k d t x) : w.hasDomain k d := by
  obtain ⟨u, i, h1, h2, h3, -⟩ := h
  exact ⟨u, i, h1, h2, h3⟩

/-- The tables of a universe's domain are those registered for the domain. -/
theorem hasTable_registered {w : World P V} {tr : List (ROp decl × Bool)} (L : Ledger w tr) {k : Nat} {d t : String} {x : TableInst}
    (h : w.hasTable k d t x) : x.gt ∈ tablesOf tr d ∧ x.gt.name = t := by
  obtain ⟨u, i, hk, -⟩ := id h
  obtain ⟨info, a1, a2⟩ := uTable_registered (L.inv.unis u (List.mem_of_getElem? hk)) ((hasTable_uTable hk).1 h)
  rw [L.tabs d info a1, lookup_tables (l := tablesOf _ _) (firsts_nodup _)] at a2
  exact a2

theorem hasTable_of {w : World P V} {tr : List (ROp decl × Bool)} (L : Ledger w tr) {k : Nat} {d : String} {t : GTable}
    (hd : w.hasDomain k d) (ht : t ∈ tablesOf tr d) : ∃ x, w.hasTable k d t.name x ∧ x.gt = t := by
  obtain ⟨u, i, hk, hi, rfl⟩ := hd
  obtain ⟨j, hj⟩ := domain_at hi
  obtain ⟨info, hok⟩ := (L.inv.unis u (List.mem_of_getElem? hk)).inst _ _ hj
  have : info.tables.lookup t.name = some t := by
    rw [L.tabs _ info hok.look, lookup_tables (l := tablesOf _ _) (firsts_nodup _)]
    exact ⟨ht, rfl⟩
  rw [← hok.tables, lookup_map_snd (f := fun x : TableInst => x.gt)] at this
  cases e : i.tables.lookup t.name with
  | none => rw [e] at this; cases this
  | some x =>
    rw [e] at this
    injection this with this
    exact ⟨x, ⟨u, i, hk, hi, rfl, e⟩, this⟩

/-- A registered table's columns have distinct names. -/
theorem trace_build {w : World P V} {ops : List (ROp decl)} {t : GTable} (h : (.registerTable t, true) ∈ w.trace decl ops) : t.build = .ok () := by
  induction ops generalizing w with
  | nil => cases h
  | cons op ops ih =>
    rw [World.trace, List.mem_cons] at h
    rcases h with h | h
    · injection h with h1 h2
      subst h1
      replace h2 : true = (w.registerTable t).1.isOk := h2
      unfold World.registerTable at h2
      cases e : t.build with
      | ok x => rfl
      | error p => rw [e] at h2; cases h2
    · exact ih h

theorem tablesOf_build {ops : List (ROp decl)} {d : String} {t : GTable} (h : t ∈ tablesOf (World.history decl ops) d) : t.build = .ok () := by
  obtain ⟨e, h1, h2⟩ := List.mem_filterMap.1 (mem_firsts h)
  obtain ⟨op, ok⟩ := e
  cases op <;> cases ok <;> simp [okTable] at h2
  rw [← h2.2]
  exact trace_build h1

/-! ## Opening -/

theorem forM_ok {α : Type} (l : List α) (f : α → R Unit) (h : ∀ a ∈ l, f a = .ok ()) : l.forM f = .ok () := by
  induction l with
  | nil => rfl
  | cons a l ih =>
    rw [List.forM_eq_forM, List.forM_cons, h a (by simp)]
    show l.forM f = _
    exact ih (fun a ha => h a (by simp [ha]))

theorem forM_ok_iff {α : Type} (l : List α) (f : α → R Unit) : l.forM f = .ok () ↔ ∀ a ∈ l, f a = .ok () := by
  constructor
  · induction l with
    | nil => simp
    | cons a l ih =>
      intro h
      rw [List.forM_eq_forM, List.forM_cons] at h
      cases e : f a with
      | error p => rw [e] at h; cases h
      | ok x =>
        rw [e] at h
        intro b hb
        rcases List.mem_cons.1 hb with rfl | hb
        · exact e
        · exact ih h b hb
  · exact forM_ok l f

theorem find_zip {l : List (ColumnMeta × Nat)} (hnd : (l.map (fun p => p.1.name)).Nodup) {p : ColumnMeta × Nat} (hp : p ∈ l) :
    l.find? (fun q => decide (q.1.name = p.1.name)) = some p := by
  induction l with
  | nil => cases hp
  | cons q l ih =>
    rw [List.map_cons, List.nodup_cons] at hnd
    rcases List.mem_cons.1 hp with rfl | hp
    · simp
    · rw [List.find?_cons_of_neg, ih hnd.2 hp]
      simp only [decide_eq_true_eq]
      intro e
      exact hnd.1 (by rw [e]; exact List.mem_map_of_mem (f := fun p : ColumnMeta × Nat => p.1.name) hp)

theorem convert_self {t : GTable} (h : t.build = .ok ()) : t.convert t = .ok () := by
  have hnd : ((t.columns.zip t.colTys).map (fun p => p.1.name)).Nodup := by
    have h1 := ((build_ok t).1 h).2.2
    have : ((t.columns.zip t.colTys).map (fun p => p.1.name)).Sublist (t.columns.map (·.name)) := by
      have : (t.columns.zip t.colTys).map (fun p => p.1.name) = ((t.columns.zip t.colTys).map Prod.fst).map (·.name) := by
        rw [List.map_map]; rfl
      rw [this]
      refine List.Sublist.map _ ?_
      generalize t.columns = l1
      generalize t.colTys = l2
      induction l1 generalizing l2 with
      | nil => simp
      | cons a l1 ih =>
        cases l2 with
        | nil => simp
        | cons b l2 => simpa using ih l2
    exact this.nodup h1
  unfold GTable.convert
  rw [forM_ok]
  · show (if t.ty = t.ty then _ else _) = _
    rw [if_pos rfl]
  · intro p hp
    unfold GTable.getColumn
    rw [find_zip hnd hp]
    simp

theorem convert_ty {t m : GTable} (h : t.convert m = .ok ()) : t.ty = m.ty := by
  unfold GTable.convert at h
  cases e : (m.columns.zip m.colTys).forM (fun p => t.getColumn p.1 p.2) with
  | error p => rw [e] at h; cases h
  | ok x =>
    rw [e] at h
    replace h : (if t.ty = m.ty then (.ok () : R Unit) else .error .badDowncast) = .ok () := h
    by_contra hc
    rw [if_neg hc] at h
    cases h

/-- What opening a table comes to. -/
theorem openTable_eq {w : World P V} (h : WInv decl w) (hp : w.poisoned = false) {k : Nat} {m : GTable} {x : TableInst}
    (hx : w.hasTable k m.domain m.name x) (write tolerant : Bool) :
    ∃ u did, w.unis[k]? = some u ∧ w.getId m.domain = .ok did ∧ tableAt u did m.name = some x ∧
    w.openTable k m write tolerant = match x.gt.convert m with
      | .error p => (.error p, if write then { w with unis := w.unis.set k (modTable u did m.name TableInst.poison) } else w)
      | .ok _ => if x.poisoned && !tolerant then (.error .poisoned, w) else (.ok (), w) := by
  obtain ⟨u, i, hk, -⟩ := id hx
  have hu := h.unis u (List.mem_of_getElem? hk)
  rw [hasTable_uTable hk] at hx
  obtain ⟨info, hl, -⟩ := uTable_registered hu hx
  rw [uTable_at h.g hu hl] at hx
  have hid : w.getId m.domain = .ok info.id := getId_eq hp hl
  refine ⟨u, info.id, hk, hid, hx, ?_⟩
  unfold World.openTable
  rw [hk]
  simp only []
  rw [hid]
  simp only []
  rw [findTable_tableAt.2 hx]
  all_goals (simp only []; cases x.gt.convert m <;> rfl)

theorem openTable_found {w : World P V} (h : WInv decl w) {k : Nat} {m : GTable} {write tolerant : Bool}
    (ho : (w.openTable k m write tolerant).1 = .ok () ∨ (w.openTable k m write tolerant).2 ≠ w) : w.poisoned = false ∧ ∃ x, w.hasTable k m.domain m.name x := by
  unfold World.openTable at ho
  split at ho
  · rcases ho with ho | ho
    · cases ho
    · exact absurd rfl ho
  · rename_i u hk
    split at ho
    · rcases ho with ho | ho
      · cases ho
      · exact absurd rfl ho
    · rename_i did hid
      split at ho
      · rcases ho with ho | ho
        · cases ho
        · exact absurd rfl ho
      · rename_i t ht
        obtain ⟨hp, info, hl, rfl⟩ := getId_ok hid
        refine ⟨hp, t, (hasTable_uTable hk).2 ?_⟩
        rw [uTable_at h.g (h.unis u (List.mem_of_getElem? hk)) hl]
        exact findTable_tableAt.1 ht

/-! ## Changing one table -/

theorem hasTable_modTable {w : World P V} (h : WInv decl w) {k : Nat} {u : List (MaybeDomain V)} (hk : w.unis[k]? = some u) {d t : String}
    {info : DomainInfo} (hl : w.g.domains.lookup d = some info) {f : TableInst → TableInst} (hf : ∀ x, (f x).gt = x.gt) (k' : Nat) (d' t' : String) (x : TableInst) :
    ({ w with unis := w.unis.set k (modTable u info.id t f) } : World P V).hasTable k' d' t' x ↔
      ∃ x0, w.hasTable k' d' t' x0 ∧ x = if k' = k ∧ d' = d ∧ t' = t then f x0 else x0 := by
  have hu := h.unis u (List.mem_of_getElem? hk)
  have hu' := modTable_inv hu info.id t hf
  by_cases e : k' = k
  · subst e
    have hk1 : ({ w with unis := w.unis.set k' (modTable u info.id t f) } : World P V).unis[k']? = some (modTable u info.id t f) := by
      show (w.unis.set k' _)[k']? = _
      rw [List.getElem?_set, if_pos rfl, if_pos (get_lt hk)]
    rw [hasTable_uTable hk1]
    have key : ∀ info', w.g.domains.lookup d' = some info' → (uTable (modTable u info.id t f) d' t' x ↔
        ∃ x0, w.hasTable k' d' t' x0 ∧ x = if k' = k' ∧ d' = d ∧ t' = t then f x0 else x0) := by
      intro info' hl'
      rw [uTable_at h.g hu' hl', modTable_at, Option.map_eq_some_iff]
      have hd : info'.id = info.id ↔ d' = d := by
        constructor
        · intro e; exact h.g.id_inj hl' hl e
        · rintro rfl
          rw [hl'] at hl
          injection hl with hl
          rw [hl]
      constructor
      · rintro ⟨x0, h1, rfl⟩
        exact ⟨x0, (hasTable_uTable hk).2 ((uTable_at h.g hu hl').2 h1), by simp [hd]⟩
      · rintro ⟨x0, h1, rfl⟩
        exact ⟨x0, (uTable_at h.g hu hl').1 ((hasTable_uTable hk).1 h1), by simp [hd]⟩
    constructor
    · intro hx
      obtain ⟨info', hl', -⟩ := uTable_registered hu' hx
      exact (key info' hl').1 hx
    · rintro ⟨x0, h1, h2⟩
      obtain ⟨info', hl', -⟩ := uTable_registered hu ((hasTable_uTable hk).1 h1)
      exact (key info' hl').2 ⟨x0, h1, h2⟩
  · have : ∀ y, ({ w with unis := w.unis.set k (modTable u info.id t f) } : World P V).hasTable k' d' t' y ↔ w.hasTable k' d' t' y := by
      intro y
      unfold World.hasTable
      simp only [List.getElem?_set_ne (Ne.symm e)]
    rw [this]
    constructor
    · intro hx; exact ⟨x, hx, by simp [e]⟩
    · rintro ⟨x0, h1, h2⟩
      rw [if_neg (by simp [e])] at h2
      rw [h2]; exact h1

/-! ## Registering trackers -/

/-- A tracker's registration succeeds in this universe. -/
def RegOk (u : List (MaybeDomain V)) (r : Reg) : Prop := r.consistent = true ∧ ∃ x, uTable u r.domain r.table x ∧ x.poisoned = false ∧ x.gt.ty = r.ty

theorem register_regOk {w : World P V} (hg : GInv w.g) (hp : w.poisoned = false) {u : List (MaybeDomain V)} (hu : UOk w.g u) (r : Reg) :
    (w.register u r).1 = none ↔ RegOk u r := by
  rw [register_iff]
  unfold RegOk
  constructor
  · rintro ⟨h1, did, x, h2, h3, h4⟩
    obtain ⟨-, info, hl, rfl⟩ := getId_ok h2
    exact ⟨h1, x, (uTable_at hg hu hl).2 h3, h4⟩
  · rintro ⟨h1, x, h2, h3⟩
    obtain ⟨info, hl, -⟩ := uTable_registered hu h2
    exact ⟨h1, info.id, x, getId_eq hp hl, (uTable_at hg hu hl).1 h2, h3⟩

theorem registerAll_iff {w : World P V} (rs : List Reg) (u : List (MaybeDomain V)) :
    (w.registerAll u rs).1 = none ↔ ∀ r ∈ rs, (w.register u r).1 = none := by
  induction rs generalizing u with
  | nil => simp [World.registerAll]
  | cons r rs ih =>
    unfold World.registerAll
    rcases e : w.register u r with ⟨p, u1⟩
    cases p with
    | some p => simp [e]
    | none =>
      simp only [List.mem_cons, forall_eq_or_imp, e, true_and]
      rw [ih]
      have hr : (w.register u r).1 = none := by rw [e]
      obtain ⟨hc, did, x, h1, h2, h3, h4⟩ := register_iff.1 hr
      have hu1 : u1 = modTable u did r.table (fun t => { t with trackers := t.trackers ++ [r.tracker] }) := by
        unfold World.register at e
        rw [h1] at e
        simp only [] at e
        rw [findTable_tableAt.2 h2] at e
        simp only [] at e
        rw [if_neg (by simp [h3]), if_neg (by simpa using h4), if_pos hc] at e
        injection e with _ e
        exact e.symm
      have same : ∀ s : Reg, (w.register u1 s).1 = none ↔ (w.register u s).1 = none := by
        intro s
        rw [register_iff, register_iff, hu1]
        refine and_congr_right (fun _ => exists_congr fun d => ?_)
        simp only [modTable_at]
        constructor
        · rintro ⟨y, a1, a2, a3, a4⟩
          obtain ⟨y0, b1, rfl⟩ := Option.map_eq_some_iff.1 a2
          refine ⟨y0, a1, b1, ?_, ?_⟩
          · split at a3 <;> exact a3
          · split at a4 <;> exact a4
        · rintro ⟨y, a1, a2, a3, a4⟩
          refine ⟨_, a1, by rw [a2]; rfl, ?_, ?_⟩
          · split <;> exact a3
          · split <;> exact a4
      simp only [same]

theorem initDomain_iff {w : World P V} (hg : GInv w.g) (hp : w.poisoned = false) {u : List (MaybeDomain V)} (hu : UOk w.g u) {n : String} {info : DomainInfo}
    (hl : w.g.domains.lookup n = some info) {d : Instance V} (hd : u[info.id]? = some (.domain d)) :
    (w.initDomain u n).1 = none ↔ ∀ r ∈ w.g.declared n, RegOk u r := by
  obtain ⟨info', hi⟩ := hu.inst _ _ hd
  have hn : d.name = n := hg.id_inj hi.look hl (by rw [hi.id])
  have : info' = info := by
    have := hi.look
    rw [hn, hl] at this
    injection this with this
    exact this.symm
  subst this
  unfold World.initDomain
  rw [getId_eq hp hl]
  simp only []
  rw [hd]
  simp only []
  rw [registerAll_iff, inits_eq hg hi]
  have : w.g.declared n = info'.declared := by unfold Globals.declared; rw [hl]
  rw [this]
  simp only [register_regOk hg hp hu]

/-- Registering trackers changes nothing that registering more depends on. -/
theorem registerAll_regOk {w : World P V} (hg : GInv w.g) (hp : w.poisoned = false) (rs : List Reg) {u : List (MaybeDomain V)} (hu : UOk w.g u)
    (h : (w.registerAll u rs).1 = none) (s : Reg) : RegOk (w.registerAll u rs).2 s ↔ RegOk u s := by
  have h1 := (registerAll_iff (w := w) (rs ++ [s]) u)
  have h2 : ∀ (rs : List Reg) (u : List (MaybeDomain V)), (w.registerAll u rs).1 = none → (w.registerAll u (rs ++ [s])).1 = (w.register (w.registerAll u rs).2 s).1 := by
    intro rs
    induction rs with
    | nil =>
      intro u _
      show (w.registerAll u [s]).1 = (w.register u s).1
      unfold World.registerAll
      rcases w.register u s with ⟨p, u1⟩
      cases p <;> rfl
    | cons r rs ih =>
      intro u hn
      rw [List.cons_append]
      unfold World.registerAll at hn ⊢
      rcases e : w.register u r with ⟨p, u1⟩
      rw [e] at hn
      cases p with
      | some p => cases hn
      | none => exact ih u1 hn
  rw [h2 rs u h] at h1
  rw [← register_regOk hg hp (registerAll_inv (w := w) rs hu).1, ← register_regOk hg hp hu, h1]
  have h3 := (registerAll_iff (w := w) rs u).1 h
  constructor
  · intro h4; exact h4 s (by simp)
  · intro h4 r hr
    rcases List.mem_append.1 hr with hr | hr
    · exact h3 r hr
    · rw [List.mem_singleton.1 hr]; exact h4

theorem initDomains_iff {w : World P V} (hg : GInv w.g) (hp : w.poisoned = false) (names : List String) {u : List (MaybeDomain V)} (hu : UOk w.g u)
    (hd : ∀ n ∈ names, ∃ info d, w.g.domains.lookup n = some info ∧ u[info.id]? = some (.domain d)) :
    (w.initDomains u names).1 = none ↔ ∀ r ∈ names.flatMap w.g.declared, RegOk u r := by
  induction names generalizing u with
  | nil => simp [World.initDomains]
  | cons n names ih =>
    obtain ⟨info, d, hl, hdn⟩ := hd n (by simp)
    have h1 := initDomain_iff hg hp hu hl hdn
    have hinv := initDomain_inv hg hu n
    have hsame := initDomain_same (w := w) u n
    have heq : (w.initDomain u n) = w.registerAll u d.inits := by
      unfold World.initDomain
      rw [getId_eq hp hl]
      simp only []
      rw [hdn]
    have hro := registerAll_regOk hg hp d.inits hu
    rw [← heq] at hro
    unfold World.initDomains
    rcases e : w.initDomain u n with ⟨p, u1⟩
    rw [e] at h1 hinv hsame hro
    rw [List.flatMap_cons]
    simp only [List.mem_append, or_imp, forall_and]
    cases p with
    | some p =>
      simp only [reduceCtorEq, false_iff, not_and] at h1 ⊢
      intro h2
      exact absurd h2 h1
    | none =>
      simp only [true_iff] at h1 hinv hsame hro ⊢
      rw [ih hinv.1 ?_]
      · constructor
        · intro h2; exact ⟨h1, fun r hr => (hro trivial r).1 (h2 r hr)⟩
        · rintro ⟨-, h2⟩ r hr; exact (hro trivial r).2 (h2 r hr)
      · intro m hm
        obtain ⟨i', d', a1, a2⟩ := hd m (by simp [hm])
        obtain ⟨d2, b1, -⟩ := hsame _ _ a2
        exact ⟨i', d2, a1, b1⟩

/-- Which domains a new universe has. -/
theorem getDomains_has {g : Globals V} (hg : GInv g) (names : List String) {ret : List (MaybeDomain V)} {u : List (MaybeDomain V)} {g' : Globals V}
    (h : g.getDomains ret names = .ok (u, g')) {n : String} {info : DomainInfo} (hl : g.domains.lookup n = some info) :
    (∃ d, u[info.id]? = some (.domain d)) ↔ n ∈ names ∨ ∃ d, ret[info.id]? = some (.domain d) := by
  induction names generalizing g ret info with
  | nil =>
    injection h with h
    injection h with h1 h2
    subst h1
    simp
  | cons m names ih =>
    rw [Globals.getDomains] at h
    cases hm : g.domains.lookup m with
    | none => rw [hm] at h; cases h
    | some im =>
      rw [hm] at h
      simp only [] at h
      obtain ⟨inst, a1, a2, a3, a4, a5, a6⟩ := instantiate_ok hg hm
      rw [a1] at h
      replace h : (if im.id < ret.length then (g.update m (fun i => { i with locked := true })).getDomains (ret.set im.id (.domain inst)) names
        else .error .vecOob) = .ok (u, g') := h
      split at h
      · rename_i hlt
        have hl' : (g.update m (fun i => { i with locked := true })).domains.lookup n = some (if n = m then { info with locked := true } else info) := by
          rw [update_lookup, hl]
          rfl
        have := ih a2 h hl'
        have hid : (if n = m then ({ info with locked := true } : DomainInfo) else info).id = info.id := by split <;> rfl
        rw [hid] at this
        rw [this, List.mem_cons]
        by_cases e : n = m
        · subst e
          rw [hl] at hm
          injection hm with hm
          subst hm
          simp only [true_or, iff_true]
          right
          exact ⟨inst, by rw [List.getElem?_set, if_pos rfl, if_pos hlt]⟩
        · have : im.id ≠ info.id := fun e2 => e (hg.id_inj hl hm e2.symm)
          rw [List.getElem?_set_ne this]
          simp [e]
      · cases h

end V11
