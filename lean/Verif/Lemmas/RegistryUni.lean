import Verif.Lemmas.Registry

/-!
# Invariants of universes
-/

set_option linter.unusedSimpArgs false
set_option linter.unusedSectionVars false
set_option linter.unusedVariables false

namespace V11

variable {Ty : Type} {V : Ty → Type} {P : Type} [DecidableEq P]

/-- What is true of an instantiated domain at place `k` of a universe. -/
structure InstOk (g : Globals V) (k : Nat) (d : Instance V) (info : DomainInfo) : Prop where
  name : g.did2name[k]? = some d.name
  look : g.domains.lookup d.name = some info
  id : info.id = k
  locked : info.locked = true
  types : d.props.map (fun v => some v.1) = info.members.map (fun gid => g.producers[gid]?.map Sigma.fst)
  order : d.order = info.order
  tables : d.tables.map (fun p => (p.1, p.2.gt)) = info.tables

/-- What is true of a universe. -/
structure UOk (g : Globals V) (u : List (MaybeDomain V)) : Prop where
  len : u.length ≤ g.did2name.length
  unset : ∀ (k : Nat) (n : String), u[k]? = some (MaybeDomain.unset n) → g.did2name[k]? = some n
  inst : ∀ (k : Nat) (d : Instance V), u[k]? = some (MaybeDomain.domain d) → ∃ info, InstOk g k d info

theorem prefix_get {α : Type} {l m : List α} (h : l <+: m) {k : Nat} {a : α} (hk : l[k]? = some a) : m[k]? = some a := by
  obtain ⟨t, rfl⟩ := h
  rw [List.getElem?_append_left (by
    by_contra hc
    rw [List.getElem?_eq_none (by omega)] at hk; cases hk)]
  exact hk

theorem InstOk.ext {g g' : Globals V} (hg : GInv g) (h : Ext g g') {k : Nat} {d : Instance V} {info : DomainInfo} (hi : InstOk g k d info) :
    InstOk g' k d info := by
  obtain ⟨info', a1, a2, a3, a4⟩ := h.dom _ _ hi.look
  have := a4 hi.locked
  subst this
  refine ⟨prefix_get h.names hi.name, a1, hi.id, hi.locked, ?_, hi.order, hi.tables⟩
  rw [hi.types]
  apply List.map_congr_left
  intro gid hgid
  have hlt := (hg.info _ _ hi.look).mem gid hgid
  have e : g.producers[gid]? = some g.producers[gid] := List.getElem?_eq_getElem hlt
  rw [e, prefix_get h.producers e]

theorem UOk.ext {g g' : Globals V} (hg : GInv g) (h : Ext g g') {u : List (MaybeDomain V)} (hu : UOk g u) : UOk g' u := by
  refine ⟨hu.len.trans h.names.length_le, ?_, ?_⟩
  · intro k n hk
    exact prefix_get h.names (hu.unset k n hk)
  · intro k d hk
    obtain ⟨info, hi⟩ := hu.inst k d hk
    exact ⟨info, hi.ext hg h⟩

theorem UOk.set {g : Globals V} {u : List (MaybeDomain V)} (hu : UOk g u) (k : Nat) {d : Instance V} {info : DomainInfo} (hd : InstOk g k d info) :
    UOk g (u.set k (.domain d)) := by
  refine ⟨by simpa using hu.len, ?_, ?_⟩
  · intro k' n h
    rw [List.getElem?_set] at h
    split at h
    · split at h <;> cases h
    · exact hu.unset k' n h
  · intro k' d' h
    rw [List.getElem?_set] at h
    split at h
    · rename_i e
      subst e
      split at h
      · injection h with h; injection h with h; subst h; exact ⟨info, hd⟩
      · cases h
    · exact hu.inst k' d' h

theorem UOk.modify {g : Globals V} {u : List (MaybeDomain V)} (hu : UOk g u) (k : Nat) (f : MaybeDomain V → MaybeDomain V)
    (hf1 : ∀ n, f (.unset n) = .unset n) (hf2 : ∀ d info, u[k]? = some (.domain d) → InstOk g k d info → ∃ d', f (.domain d) = .domain d' ∧ InstOk g k d' info) :
    UOk g (u.modify k f) := by
  refine ⟨by simpa using hu.len, ?_, ?_⟩
  · intro k' n h
    rw [List.getElem?_modify] at h
    cases e : u[k']? with
    | none => rw [e] at h; simp at h
    | some m =>
      rw [e] at h
      simp only [Option.map_eq_map, Option.map_some, Option.some.injEq] at h
      split at h
      · rename_i ek; subst ek
        cases m with
        | unset x => rw [hf1] at h; injection h with h; subst h; exact hu.unset _ _ e
        | domain d =>
          obtain ⟨info, hi⟩ := hu.inst _ _ e
          obtain ⟨d', hd', -⟩ := hf2 d info e hi
          rw [hd'] at h; cases h
      · subst h; exact hu.unset _ _ e
  · intro k' d h
    rw [List.getElem?_modify] at h
    cases e : u[k']? with
    | none => rw [e] at h; simp at h
    | some m =>
      rw [e] at h
      simp only [Option.map_eq_map, Option.map_some, Option.some.injEq] at h
      split at h
      · rename_i ek; subst ek
        cases m with
        | unset x => rw [hf1] at h; cases h
        | domain d0 =>
          obtain ⟨info, hi⟩ := hu.inst _ _ e
          obtain ⟨d', hd', hd2⟩ := hf2 d0 info e hi
          rw [hd'] at h; injection h with h; subst h
          exact ⟨info, hd2⟩
      · subst h; exact hu.inst _ _ e

theorem mapM_checkedGet {α : Type} (l : List α) (is : List Nat) (h : ∀ i ∈ is, i < l.length) :
    ∃ r, is.mapM (checkedGet l) = .ok r ∧ r.map some = is.map (l[·]?) := by
  induction is with
  | nil => exact ⟨[], rfl, rfl⟩
  | cons i is ih =>
    obtain ⟨r, h1, h2⟩ := ih (fun i hi => h i (by simp [hi]))
    have hi := h i (by simp)
    refine ⟨l[i] :: r, ?_, by simp [h2, List.getElem?_eq_getElem hi]⟩
    have hc : checkedGet l i = .ok l[i] := by unfold checkedGet; rw [List.getElem?_eq_getElem hi]
    rw [List.mapM_cons, hc, h1]
    rfl

/-- Instantiating a registered domain locks it and produces every member's initial value. -/
theorem instantiate_ok {g : Globals V} (hg : GInv g) {name : String} {info : DomainInfo} (hl : g.domains.lookup name = some info) :
    ∃ inst, g.instantiate name = .ok (inst, g.update name (fun i => { i with locked := true })) ∧
      GInv (g.update name (fun i => { i with locked := true })) ∧ Ext g (g.update name (fun i => { i with locked := true })) ∧
      InstOk (g.update name (fun i => { i with locked := true })) info.id inst { info with locked := true } ∧
      inst.props.map some = info.members.map (g.producers[·]?) ∧ (∀ p ∈ inst.tables, p.2.trackers = [] ∧ p.2.poisoned = false) := by
  obtain ⟨r, h1, h2⟩ := mapM_checkedGet g.producers info.members (hg.info _ _ hl).mem
  have hg' : GInv (g.update name (fun i => { i with locked := true })) := by
    refine hg.update _ _ (fun _ => rfl) ?_
    intro i hi
    have := hg.info _ _ hi
    exact ⟨this.mem, this.did, this.tables, this.tnodup⟩
  have he : Ext g (g.update name (fun i => { i with locked := true })) := by
    refine Ext.update _ _ _ ?_
    intro i hi
    refine ⟨rfl, fun _ _ h => h, ?_⟩
    intro h
    cases i; simp_all
  refine ⟨{ id := info.id, name := name, props := r, tables := info.tables.map (fun p => (p.1, { gt := p.2, trackers := [], poisoned := false })), order := info.order },
    ?_, hg', he, ?_, h2, ?_⟩
  · unfold Globals.instantiate
    rw [hl]
    simp only []
    rw [h1]
    rfl
  · refine ⟨hg.ids _ _ hl, ?_, rfl, rfl, ?_, rfl, ?_⟩
    · rw [update_lookup, hl]; simp
    · simp only []
      have : r.map (fun v => some v.1) = (r.map some).map (Option.map Sigma.fst) := by simp
      rw [this, h2]
      simp [Globals.update]
    · simp only [List.map_map]
      have : ((fun p : String × TableInst => (p.1, p.2.gt)) ∘ fun p : String × GTable => (p.1, ({ gt := p.2, trackers := [], poisoned := false } : TableInst))) = id := by
        funext p; rfl
      rw [this, List.map_id]
  · intro p hp
    obtain ⟨q, -, rfl⟩ := List.mem_map.1 hp
    exact ⟨rfl, rfl⟩

/-- The universe's new list of domains. -/
theorem getDomains_inv {g : Globals V} (hg : GInv g) {ret : List (MaybeDomain V)} (hr : UOk g ret) (hlen : ret.length = g.did2name.length)
    (names : List String) :
    match g.getDomains ret names with
    | .error p => p = .noSuchDomain ∧ ∃ n ∈ names, n ∉ g.did2name
    | .ok (u, g') => GInv g' ∧ Ext g g' ∧ UOk g' u ∧ u.length = ret.length ∧ g'.did2name = g.did2name ∧ (∀ n ∈ names, n ∈ g.did2name) ∧
        g'.producers = g.producers ∧ g'.name2gid = g.name2gid := by
  induction names generalizing g ret with
  | nil => exact ⟨hg, Ext.refl _, hr, rfl, rfl, by simp, rfl, rfl⟩
  | cons n names ih =>
    cases hl : g.domains.lookup n with
    | none =>
      unfold Globals.getDomains
      rw [hl]
      refine ⟨rfl, n, by simp, ?_⟩
      rw [← hg.names]
      exact lookup_none_iff.1 hl
    | some info =>
      obtain ⟨inst, a1, a2, a3, a4, -⟩ := instantiate_ok hg hl
      have hmem : n ∈ g.did2name := by
        rw [← hg.names]; exact lookup_isSome_iff.1 (by rw [hl]; rfl)
      have hid : info.id < ret.length := by
        rw [hlen]
        have := hg.ids _ _ hl
        by_contra hc
        rw [List.getElem?_eq_none (by omega)] at this; cases this
      have hstep : g.getDomains ret (n :: names) =
          (g.update n (fun i => { i with locked := true })).getDomains (ret.set info.id (.domain inst)) names := by
        rw [Globals.getDomains, hl]
        simp only []
        rw [a1]
        show (if info.id < ret.length then _ else _) = _
        rw [if_pos hid]
      rw [hstep]
      have := ih a2 (ret := ret.set info.id (.domain inst)) ((hr.ext hg a3).set _ a4) (by rw [List.length_set]; exact hlen)
      split
      · rename_i p e
        rw [e] at this
        obtain ⟨b1, m, b2, b3⟩ := this
        exact ⟨b1, m, by simp [b2], b3⟩
      · rename_i u g' e
        rw [e] at this
        obtain ⟨b1, b2, b3, b4, b5, b6, b7, b8⟩ := this
        refine ⟨b1, a3.trans b2, b3, by simpa using b4, b5, ?_, b7, b8⟩
        intro m hm
        rcases List.mem_cons.1 hm with rfl | hm
        · exact hmem
        · exact b6 m hm

/-! ## Trackers -/

/-- The trackers of a table of a universe. -/
def trackersAt (u : List (MaybeDomain V)) (did : Nat) (t : String) : List Nat :=
  match u[did]? with
  | some (.domain d) => match d.tables.lookup t with | some x => x.trackers | none => []
  | _ => []

/-- A table of a universe. -/
def tableAt (u : List (MaybeDomain V)) (did : Nat) (t : String) : Option TableInst :=
  match u[did]? with
  | some (.domain d) => d.tables.lookup t
  | _ => none

theorem trackersAt_tableAt (u : List (MaybeDomain V)) (did : Nat) (t : String) :
    trackersAt u did t = match tableAt u did t with | some x => x.trackers | none => [] := by
  unfold trackersAt tableAt
  cases u[did]? with
  | none => rfl
  | some m => cases m <;> rfl

theorem findTable_tableAt {u : List (MaybeDomain V)} {did : Nat} {t : String} {x : TableInst} :
    findTable u did t = .ok x ↔ tableAt u did t = some x := by
  unfold findTable tableAt
  cases u[did]? with
  | none => simp
  | some m =>
    cases m with
    | unset n => simp
    | domain d => cases e : d.tables.lookup t <;> simp [e]

theorem modTable_lookup (d : Instance V) (table : String) (f : TableInst → TableInst) (t : String) :
    (d.modTable table f).tables.lookup t = (d.tables.lookup t).map (fun x => if t = table then f x else x) := by
  unfold Instance.modTable
  have : (d.tables.map (fun p => if p.1 = table then (p.1, f p.2) else p)) =
      d.tables.map (fun p => (p.1, (fun a (b : TableInst) => if a = table then f b else b) p.1 p.2)) := by
    apply List.map_congr_left
    intro p _
    split <;> simp_all
  show (d.tables.map _).lookup t = _
  rw [this]
  exact lookup_map (f := fun a (b : TableInst) => if a = table then f b else b)

theorem modTable_at (u : List (MaybeDomain V)) (did : Nat) (table : String) (f : TableInst → TableInst) (k : Nat) (t : String) :
    tableAt (modTable u did table f) k t = (tableAt u k t).map (fun x => if k = did ∧ t = table then f x else x) := by
  unfold tableAt modTable
  rw [List.getElem?_modify]
  cases e : u[k]? with
  | none => rfl
  | some m =>
    by_cases hk : k = did
    · subst hk
      cases m with
      | unset n => simp
      | domain d =>
        simp only [if_true, Option.map_eq_map, Option.map_some, true_and]
        exact modTable_lookup d table f t
    · cases m with
      | unset n => simp [Ne.symm hk]
      | domain d =>
        simp only [hk, Ne.symm hk, if_false, false_and, Option.map_eq_map, Option.map_some]
        simp

theorem InstOk.modTable_ok {g : Globals V} {k : Nat} {d : Instance V} {info : DomainInfo} (h : InstOk g k d info) (table : String)
    {f : TableInst → TableInst} (hf : ∀ x, (f x).gt = x.gt) : InstOk g k (d.modTable table f) info := by
  refine ⟨h.name, h.look, h.id, h.locked, h.types, h.order, ?_⟩
  rw [← h.tables]
  unfold Instance.modTable
  simp only [List.map_map]
  apply List.map_congr_left
  intro p _
  simp only [Function.comp]
  split
  · simp only [hf]
  · rfl

theorem modTable_inv {g : Globals V} {u : List (MaybeDomain V)} (hu : UOk g u) (did : Nat) (table : String)
    {f : TableInst → TableInst} (hf : ∀ x, (f x).gt = x.gt) : UOk g (modTable u did table f) := by
  refine hu.modify _ _ (fun _ => rfl) ?_
  intro d info _ hi
  exact ⟨_, rfl, hi.modTable_ok _ hf⟩

/-- What a registration does to the universe, whether it returns or panics. -/
theorem register_shape (w : World P V) (u : List (MaybeDomain V)) (r : Reg) :
    (w.register u r).2 = u ∨ ∃ did f, (∀ x, (f x).gt = x.gt ∧ (x.poisoned = true → (f x).poisoned = true)) ∧ (w.register u r).2 = modTable u did r.table f := by
  unfold World.register
  cases w.getId r.domain with
  | error p => exact Or.inl rfl
  | ok did =>
    simp only []
    cases findTable u did r.table with
    | error p => exact Or.inl rfl
    | ok t =>
      simp only []
      split
      · exact Or.inl rfl
      · split
        · exact Or.inr ⟨did, TableInst.poison, fun _ => ⟨rfl, fun _ => rfl⟩, rfl⟩
        · split
          · exact Or.inr ⟨did, fun t => { t with trackers := t.trackers ++ [r.tracker] }, fun _ => ⟨rfl, id⟩, rfl⟩
          · exact Or.inr ⟨did, TableInst.poison, fun _ => ⟨rfl, fun _ => rfl⟩, rfl⟩

/-- One registration succeeds exactly if the table is there, usable, of the right type and consistent. -/
theorem register_iff {w : World P V} {u : List (MaybeDomain V)} {r : Reg} :
    (w.register u r).1 = none ↔ r.consistent = true ∧ ∃ did x, w.getId r.domain = .ok did ∧ tableAt u did r.table = some x ∧
      x.poisoned = false ∧ x.gt.ty = r.ty := by
  unfold World.register
  cases h1 : w.getId r.domain with
  | error p => simp
  | ok did =>
    simp only []
    cases h2 : findTable u did r.table with
    | error p =>
      constructor
      · intro h; cases h
      · rintro ⟨-, did', x, e, hx, -⟩
        injection e with e
        subst e
        rw [findTable_tableAt.2 hx] at h2; cases h2
    | ok t =>
      simp only []
      have h3 := findTable_tableAt.1 h2
      constructor
      · intro h
        split at h
        · cases h
        · rename_i hp
          split at h
          · cases h
          · rename_i ht
            split at h
            · rename_i hc
              exact ⟨hc, did, t, rfl, h3, by simpa using hp, by simpa using ht⟩
            · cases h
      · rintro ⟨hc, did', x, e, hx, hp, ht⟩
        injection e with e
        subst e
        rw [h3] at hx
        injection hx with hx
        subst hx
        rw [if_neg (by simp [hp]), if_neg (by simpa using ht), if_pos hc]

/-- A registration that succeeds adds the tracker at the end. -/
theorem register_ok {w : World P V} {u : List (MaybeDomain V)} {r : Reg} (h : (w.register u r).1 = none) :
    ∃ did, w.getId r.domain = .ok did ∧
      ∀ k t, trackersAt (w.register u r).2 k t = trackersAt u k t ++ (if k = did ∧ t = r.table then [r.tracker] else []) := by
  obtain ⟨hc, did, x, h1, h2, hp, ht⟩ := register_iff.1 h
  refine ⟨did, h1, ?_⟩
  intro k t
  unfold World.register
  rw [h1]
  simp only []
  rw [findTable_tableAt.2 h2]
  simp only []
  rw [if_neg (by simp [hp]), if_neg (by simpa using ht), if_pos hc]
  simp only [trackersAt_tableAt, modTable_at]
  by_cases hk : k = did ∧ t = r.table
  · obtain ⟨rfl, rfl⟩ := hk
    rw [h2]
    simp
  · cases tableAt u k t <;> simp [hk]

theorem register_inv {w : World P V} {g : Globals V} {u : List (MaybeDomain V)} {r : Reg} (hu : UOk g u) :
    UOk g (w.register u r).2 ∧ (w.register u r).2.length = u.length := by
  rcases register_shape w u r with h | ⟨did, f, hf, h⟩
  · rw [h]; exact ⟨hu, rfl⟩
  · rw [h]; exact ⟨modTable_inv hu _ _ (fun x => (hf x).1), by simp [modTable]⟩

/-- Whether a registration is for this table. -/
def World.isFor (w : World P V) (k : Nat) (t : String) (r : Reg) : Bool := decide (w.getId r.domain = .ok k) && decide (r.table = t)

theorem registerAll_inv {w : World P V} {g : Globals V} (rs : List Reg) {u : List (MaybeDomain V)} (hu : UOk g u) :
    UOk g (w.registerAll u rs).2 ∧ (w.registerAll u rs).2.length = u.length ∧
      ((w.registerAll u rs).1 = none → ∀ k t, trackersAt (w.registerAll u rs).2 k t = trackersAt u k t ++ (rs.filter (w.isFor k t)).map (·.tracker)) := by
  induction rs generalizing u with
  | nil => exact ⟨hu, rfl, by simp [World.registerAll]⟩
  | cons r rs ih =>
    unfold World.registerAll
    obtain ⟨b1, b2⟩ := register_inv (w := w) (r := r) hu
    rcases h : w.register u r with ⟨e, u1⟩
    rw [h] at b1 b2
    cases e with
    | some p => exact ⟨b1, b2, by simp⟩
    | none =>
      simp only [] at b1 b2
      obtain ⟨c1, c2, c3⟩ := ih b1
      refine ⟨c1, c2.trans b2, ?_⟩
      intro hn k t
      simp only [] at hn ⊢
      obtain ⟨did, d1, d3⟩ := register_ok (w := w) (u := u) (r := r) (by rw [h])
      rw [h] at d3
      simp only [] at d3
      rw [c3 hn k t, d3 k t, List.append_assoc]
      congr 1
      rw [List.filter_cons]
      by_cases hc : k = did ∧ t = r.table
      · obtain ⟨rfl, rfl⟩ := hc
        have : w.isFor k r.table r = true := by simp [World.isFor, d1]
        simp [this]
      · have : w.isFor k t r = false := by
          simp only [World.isFor, d1, Except.ok.injEq, Bool.and_eq_false_iff, decide_eq_false_iff_not]
          by_cases h1 : k = did
          · exact Or.inr (fun h2 => hc ⟨h1, h2.symm⟩)
          · exact Or.inl (Ne.symm h1)
        simp [this, hc]

/-- The foreign trackers the tables of a domain declare, in order of registration. -/
def DomainInfo.declared (info : DomainInfo) : List Reg := info.tables.flatMap (fun p => p.2.init)

theorem lookup_map_snd {α β γ : Type} [BEq α] [LawfulBEq α] {l : List (α × β)} {f : β → γ} {a : α} :
    (l.map (fun p => (p.1, f p.2))).lookup a = (l.lookup a).map f := lookup_map (f := fun _ => f)

theorem inits_eq {g : Globals V} (hg : GInv g) {k : Nat} {d : Instance V} {info : DomainInfo} (h : InstOk g k d info) : d.inits = info.declared := by
  unfold Instance.inits DomainInfo.declared
  have hinv := hg.info _ _ h.look
  have hlook : ∀ n, (d.tables.lookup n).map (·.gt) = info.tables.lookup n := by
    intro n
    rw [← h.tables]
    exact (lookup_map_snd (f := fun x : TableInst => x.gt)).symm
  have h1 : d.order.flatMap (fun n => match d.tables.lookup n with | some t => t.gt.init | none => []) =
      d.order.flatMap (fun n => match info.tables.lookup n with | some t => t.init | none => []) := by
    congr 1
    funext n
    rw [← hlook]
    cases d.tables.lookup n <;> rfl
  refine Eq.trans h1 ?_
  rw [h.order, hinv.tables, List.flatMap_map]
  have hnd : (info.tables.map Prod.fst).Nodup := by rw [← hinv.tables]; exact hinv.tnodup
  have : ∀ p ∈ info.tables, (match info.tables.lookup p.1 with | some t => t.init | none => ([] : List Reg)) = p.2.init := by
    intro p hp
    rw [lookup_of_mem hnd (a := p.1) (b := p.2) hp]
  exact List.flatMap_congr this

theorem initDomain_inv {w : World P V} {u : List (MaybeDomain V)} (hg : GInv w.g) (hu : UOk w.g u) (name : String) :
    UOk w.g (w.initDomain u name).2 ∧ (w.initDomain u name).2.length = u.length ∧
      ((w.initDomain u name).1 = none → ∃ info, w.g.domains.lookup name = some info ∧
        ∀ k t, trackersAt (w.initDomain u name).2 k t = trackersAt u k t ++ (info.declared.filter (w.isFor k t)).map (·.tracker)) := by
  unfold World.initDomain
  cases h : w.getId name with
  | error p => exact ⟨hu, rfl, by simp⟩
  | ok did =>
    simp only []
    split
    · rename_i d hd
      obtain ⟨info, hi⟩ := hu.inst _ _ hd
      obtain ⟨a1, a2, a3⟩ := registerAll_inv (w := w) d.inits hu
      refine ⟨a1, a2, ?_⟩
      intro hn
      refine ⟨info, ?_, ?_⟩
      · have : d.name = name := by
          unfold World.getId at h
          split at h
          · cases h
          · split at h
            · rename_i i hl
              injection h with h
              have := hg.ids _ _ hl
              rw [h, hi.name] at this
              injection this
            · cases h
        rw [← this]; exact hi.look
      · intro k t
        rw [a3 hn k t, inits_eq hg hi]
    · exact ⟨hu, rfl, by simp⟩
    · exact ⟨hu, rfl, by simp⟩

/-- The trackers declared by a registered domain's tables. -/
def Globals.declared (g : Globals V) (name : String) : List Reg :=
  match g.domains.lookup name with
  | some info => info.declared
  | none => []

theorem initDomains_inv {w : World P V} (hg : GInv w.g) (names : List String) {u : List (MaybeDomain V)} (hu : UOk w.g u) :
    UOk w.g (w.initDomains u names).2 ∧ (w.initDomains u names).2.length = u.length ∧
      ((w.initDomains u names).1 = none → ∀ k t, trackersAt (w.initDomains u names).2 k t =
        trackersAt u k t ++ ((names.flatMap w.g.declared).filter (w.isFor k t)).map (·.tracker)) := by
  induction names generalizing u with
  | nil => exact ⟨hu, rfl, by simp [World.initDomains]⟩
  | cons n names ih =>
    unfold World.initDomains
    obtain ⟨a1, a2, a3⟩ := initDomain_inv hg hu n
    rcases e : w.initDomain u n with ⟨p, u1⟩
    rw [e] at a1 a2 a3
    cases p with
    | some p => exact ⟨a1, a2, by simp⟩
    | none =>
      simp only [] at a1 a2 a3 ⊢
      obtain ⟨b1, b2, b3⟩ := ih a1
      obtain ⟨info, c1, c2⟩ := a3 trivial
      refine ⟨b1, b2.trans a2, ?_⟩
      intro hn k t
      rw [b3 hn k t, c2 k t, List.flatMap_cons, List.filter_append, List.map_append, List.append_assoc]
      have : w.g.declared n = info.declared := by unfold Globals.declared; rw [c1]
      rw [this]

end V11
