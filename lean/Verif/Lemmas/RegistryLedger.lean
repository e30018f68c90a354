import Verif.Lemmas.RegistryStep
import Verif.Spec.Registry

/-!
# The world is what the history of calls says
-/

set_option linter.unusedSimpArgs false
set_option linter.unusedSectionVars false
set_option linter.unusedVariables false

namespace V11

/-! ## `firsts` -/

section
variable {α β : Type} [DecidableEq β] {f : α → β}

theorem mem_firsts {l : List α} {a : α} (h : a ∈ firsts f l) : a ∈ l := by
  induction l with
  | nil => simp [firsts] at h
  | cons x l ih =>
    rw [firsts, List.mem_cons, List.mem_filter] at h
    rcases h with rfl | ⟨h, -⟩
    · simp
    · simp [ih h]

theorem firsts_map_mem {l : List α} {b : β} : b ∈ (firsts f l).map f ↔ b ∈ l.map f := by
  induction l with
  | nil => simp [firsts]
  | cons x l ih =>
    rw [firsts, List.map_cons, List.mem_cons, List.map_cons, List.mem_cons]
    constructor
    · rintro (h | h)
      · exact Or.inl h
      · obtain ⟨a, h1, rfl⟩ := List.mem_map.1 h
        exact Or.inr (ih.1 (List.mem_map_of_mem (List.mem_filter.1 h1).1))
    · rintro (h | h)
      · exact Or.inl h
      · by_cases e : b = f x
        · exact Or.inl e
        · obtain ⟨a, h1, rfl⟩ := List.mem_map.1 (ih.2 h)
          exact Or.inr (List.mem_map_of_mem (List.mem_filter.2 ⟨h1, by simpa using e⟩))

theorem firsts_append (l : List α) (a : α) :
    firsts f (l ++ [a]) = if f a ∈ l.map f then firsts f l else firsts f l ++ [a] := by
  induction l with
  | nil => simp [firsts]
  | cons x l ih =>
    rw [List.cons_append, firsts, ih, firsts]
    by_cases e : f a = f x
    · simp only [List.map_cons, List.mem_cons, e, true_or, if_true]
      split
      · rfl
      · rw [List.filter_append]; simp [e]
    · simp only [List.map_cons, List.mem_cons, e, false_or]
      split
      · rfl
      · rw [List.filter_append]; simp [e]

theorem firsts_nodup (l : List α) : ((firsts f l).map f).Nodup := by
  induction l with
  | nil => simp [firsts]
  | cons x l ih =>
    rw [firsts, List.map_cons, List.nodup_cons]
    constructor
    · intro h
      obtain ⟨a, h1, h2⟩ := List.mem_map.1 h
      have := (List.mem_filter.1 h1).2
      simp [h2] at this
    · exact List.Nodup.sublist (List.filter_sublist.map f) ih

end

variable {Ty : Type} [DecidableEq Ty] {V : Ty → Type} {P : Type} [DecidableEq P] {decl : P → PropDecl V}

theorem trace_append (w : World P V) (a b : List (ROp decl)) : w.trace decl (a ++ b) = w.trace decl a ++ (w.run decl a).trace decl b := by
  induction a generalizing w with
  | nil => rfl
  | cons op a ih => rw [List.cons_append, World.trace, World.trace, ih]; rfl

theorem run_append (w : World P V) (a b : List (ROp decl)) : w.run decl (a ++ b) = (w.run decl a).run decl b := by
  induction a generalizing w with
  | nil => rfl
  | cons op a ih => rw [List.cons_append, World.run, World.run, ih]

theorem lastWrite_snoc (tr : List (ROp decl × Bool)) (e : ROp decl × Bool) (k : Nat) (name : String) :
    lastWrite (tr ++ [e]) k name = (written k name e).or (lastWrite tr k name) := by
  unfold lastWrite
  rw [List.filterMap_append]
  cases h : written k name e with
  | none => simp [h]
  | some v => simp [h]

theorem firstInit_snoc (tr : List (ROp decl × Bool)) (e : ROp decl × Bool) (name : String) :
    firstInit (tr ++ [e]) name = (firstInit tr name).or (initOf name e) := by
  unfold firstInit
  rw [List.filterMap_append]
  cases h : initOf name e with
  | none => simp [h]
  | some v => simp [h]

theorem domainsOf_snoc (tr : List (ROp decl × Bool)) (e : ROp decl × Bool) :
    domainsOf (tr ++ [e]) = match okDomain e with
      | none => domainsOf tr
      | some n => if n ∈ domainsOf tr then domainsOf tr else domainsOf tr ++ [n] := by
  unfold domainsOf
  rw [List.filterMap_append]
  cases h : okDomain e with
  | none => simp [h]
  | some n =>
    have e1 : List.filterMap okDomain [e] = [n] := by simp [h]
    rw [e1, firsts_append]
    have := firsts_map_mem (f := (id : String → String)) (l := tr.filterMap okDomain) (b := n)
    simp only [List.map_id] at this
    simp only [List.map_id, id, this]

theorem tablesOf_snoc (tr : List (ROp decl × Bool)) (e : ROp decl × Bool) (d : String) :
    tablesOf (tr ++ [e]) d = match okTable d e with
      | none => tablesOf tr d
      | some t => if t.name ∈ (tablesOf tr d).map GTable.name then tablesOf tr d else tablesOf tr d ++ [t] := by
  unfold tablesOf
  rw [List.filterMap_append]
  cases h : okTable d e with
  | none => simp [h]
  | some n =>
    have e1 : List.filterMap (okTable d) [e] = [n] := by simp [h]
    rw [e1, firsts_append]
    simp only [firsts_map_mem]

/-- The part of a property's full name before the slash. -/
def front (name : String) : List Char := name.toList.takeWhile (· ≠ '/')

theorem checkPropName_front {domain name : String} (h : checkPropName domain.toList name.toList = .ok ()) : front name = domain.toList := by
  unfold checkPropName at h
  cases h1 : checkName domain.toList with
  | error e => rw [h1] at h; cases h
  | ok x =>
    rw [h1] at h
    replace h : (match name.toList.dropWhile (· ≠ '/') with
      | [] => (.error .badPropName : R Unit)
      | _ :: short => if name.toList.takeWhile (· ≠ '/') ≠ domain.toList then (.error .badPropName : R Unit) else checkName short) = .ok () := h
    split at h
    · cases h
    · split at h
      · cases h
      · rename_i hf
        exact not_not.1 hf

/-- A property name belongs to the domain it names. -/
def FrontInv (g : Globals V) : Prop :=
  ∀ n info, g.domains.lookup n = some info → ∀ m d, info.name2did.lookup m = some d → front m = n.toList

/-- What the calls so far say. -/
structure Ledger (w : World P V) (tr : List (ROp decl × Bool)) : Prop where
  inv : WInv decl w
  front : FrontInv w.g
  init : ∀ name, firstInit tr name = (w.g.name2gid.lookup name).bind (w.g.producers[·]?)
  doms : w.g.did2name = domainsOf tr
  tabs : ∀ n info, w.g.domains.lookup n = some info → info.tables = (tablesOf tr n).map (fun t => (t.name, t))
  notabs : ∀ n, w.g.domains.lookup n = none → tablesOf tr n = []
  wrote : ∀ k name v, lastWrite tr k name = some v → ∃ u i d, w.unis[k]? = some u ∧ d.name = name ∧ IdxOk w.g d i ∧ cellOf u i = .ok v
  fresh : ∀ k d i u v, lastWrite tr k d.name = none → w.unis[k]? = some u → IdxOk w.g d i → cellOf u i = .ok v → firstInit tr d.name = some v

/-- Twins have one place. -/
theorem place_of_name {g : Globals V} (hf : FrontInv g) {d e : PropDecl V} {i j : PIndex} (hi : IdxOk g d i) (hj : IdxOk g e j) (hn : d.name = e.name) :
    d.domain = e.domain ∧ i = j := by
  obtain ⟨info, a1, a2, a3, a4⟩ := hi
  obtain ⟨info', b1, b2, b3, b4⟩ := hj
  have h1 := hf _ _ a1 _ _ a3
  have h2 := hf _ _ b1 _ _ b3
  rw [hn, h2] at h1
  have hd : d.domain = e.domain := (String.toList_inj.1 h1).symm
  rw [hd, b1] at a1
  injection a1 with a1
  subst a1
  rw [hn, b3] at a3
  rw [hn, b4] at a4
  injection a3 with a3
  injection a4 with a4
  refine ⟨hd, ?_⟩
  cases i; cases j
  simp_all

theorem cell_inst {u : List (MaybeDomain V)} {i : PIndex} {v : Σ t, V t} (h : cellOf u i = .ok v) :
    ∃ d, u[i.domain]? = some (.domain d) ∧ d.props[i.did]? = some v := by
  unfold cellOf at h
  split at h
  · rename_i d hd
    split at h
    · rename_i x hx; injection h with h; subst h; exact ⟨d, hd, hx⟩
    · cases h
  · cases h

theorem cell_of_inst {u : List (MaybeDomain V)} {i : PIndex} {v : Σ t, V t} {d : Instance V} (h1 : u[i.domain]? = some (.domain d))
    (h2 : d.props[i.did]? = some v) : cellOf u i = .ok v := by
  unfold cellOf
  rw [h1]
  simp only []
  rw [h2]

/-- A property with a cell was known before. -/
theorem IdxOk.back {g g' : Globals V} (hg : GInv g) (hg' : GInv g') (he : Ext g g') {u : List (MaybeDomain V)} (hu : UOk g u) {d : PropDecl V} {i : PIndex} (hi : IdxOk g' d i)
    {v : Σ t, V t} (hc : cellOf u i = .ok v) : IdxOk g d i := by
  obtain ⟨inst, h1, h2⟩ := cell_inst hc
  obtain ⟨info, hio⟩ := hu.inst _ _ h1
  have hio' := hio.ext hg he
  obtain ⟨info', a1, a2, a3, a4⟩ := hi
  have hn : inst.name = d.domain := hg'.id_inj hio'.look a1 (by rw [hio'.id, a2])
  have e : info' = info := by
    have := hio'.look
    rw [hn, a1] at this
    injection this
  subst e
  have hl := hio.look
  rw [hn] at hl
  obtain ⟨gid, b1, b2⟩ := (hg.info _ _ hl).did _ _ a3
  refine ⟨info', hl, a2, a3, ?_⟩
  have := he.gid _ _ b2
  rw [a4] at this
  injection this with this
  rw [this]; exact b2

/-- Every cell afterwards was there before or holds the initial value. -/
def Back (w w' : World P V) : Prop :=
  ∀ (k : Nat) (u' : List (MaybeDomain V)) (i : PIndex) (v : Σ t, V t), w'.unis[k]? = some u' → cellOf u' i = .ok v →
    (∃ u, w.unis[k]? = some u ∧ cellOf u i = .ok v) ∨ ∀ d : PropDecl V, IdxOk w'.g d i → w'.g.producers[i.gid]? = some v

theorem Back.ofEq {w w' : World P V} (h : w'.unis = w.unis) : Back w w' := by
  intro k u' i v h1 h2
  rw [h] at h1
  exact Or.inl ⟨u', h1, h2⟩

theorem Ledger.cells {w w' : World P V} {tr : List (ROp decl × Bool)} (h : Ledger w tr) (hw' : WInv decl w') (he : Ext w.g w'.g)
    (hk : ∀ k i, Keeps w w' k i) (hb : Back w w') {e : ROp decl × Bool} (hwr : ∀ k n, written k n e = none)
    (hi : ∀ name, firstInit (tr ++ [e]) name = (w'.g.name2gid.lookup name).bind (w'.g.producers[·]?)) :
    (∀ k name v, lastWrite (tr ++ [e]) k name = some v → ∃ u i d, w'.unis[k]? = some u ∧ d.name = name ∧ IdxOk w'.g d i ∧ cellOf u i = .ok v) ∧
    (∀ k d i u v, lastWrite (tr ++ [e]) k d.name = none → w'.unis[k]? = some u → IdxOk w'.g d i → cellOf u i = .ok v →
      firstInit (tr ++ [e]) d.name = some v) := by
  constructor
  · intro k name v hl
    rw [lastWrite_snoc, hwr, Option.none_or] at hl
    obtain ⟨u, i, d, a1, a2, a3, a4⟩ := h.wrote k name v hl
    obtain ⟨u', b1, b2⟩ := hk k i u v a1 a4
    exact ⟨u', i, d, b1, a2, a3.ext he, b2⟩
  · intro k d i u' v hl hu hd hc
    rw [lastWrite_snoc, hwr, Option.none_or] at hl
    rcases hb k u' i v hu hc with ⟨u, b1, b2⟩ | hp
    · have hd' := hd.back h.inv.g hw'.g he (h.inv.unis u (List.mem_of_getElem? b1)) b2
      have := h.fresh k d i u v hl b1 hd' b2
      rw [firstInit_snoc, this]; rfl
    · rw [hi, ]
      obtain ⟨info, a1, a2, a3, a4⟩ := hd
      rw [a4]
      exact hp d ⟨info, a1, a2, a3, a4⟩

/-- Nothing but locks changed. -/
structure SameG (g g' : Globals V) : Prop where
  name2gid : g'.name2gid = g.name2gid
  producers : g'.producers = g.producers
  did2name : g'.did2name = g.did2name
  doms : ∀ n, (g'.domains.lookup n).map (fun i => (i.name2did, i.tables)) = (g.domains.lookup n).map (fun i => (i.name2did, i.tables))

theorem SameG.refl (g : Globals V) : SameG g g := ⟨rfl, rfl, rfl, fun _ => rfl⟩

theorem SameG.ofEq {g g' : Globals V} (h : g' = g) : SameG g g' := by subst h; exact SameG.refl _

theorem SameG.trans {a b c : Globals V} (h1 : SameG a b) (h2 : SameG b c) : SameG a c :=
  ⟨h2.name2gid.trans h1.name2gid, h2.producers.trans h1.producers, h2.did2name.trans h1.did2name, fun n => (h2.doms n).trans (h1.doms n)⟩

theorem SameG.lock (g : Globals V) (name : String) : SameG g (g.update name (fun i => { i with locked := true })) := by
  refine ⟨rfl, rfl, rfl, ?_⟩
  intro n
  rw [update_lookup]
  cases g.domains.lookup n with
  | none => rfl
  | some i =>
    simp only [Option.map_some, Option.some.injEq]
    split <;> rfl

/-- A call that registers and writes nothing. -/
theorem Ledger.quiet {w w' : World P V} {tr : List (ROp decl × Bool)} (h : Ledger w tr) (hw' : WInv decl w') (he : Ext w.g w'.g)
    (hs : SameG w.g w'.g) (hk : ∀ k i, Keeps w w' k i) (hb : Back w w') {e : ROp decl × Bool} (hwr : ∀ k n, written k n e = none)
    (hin : ∀ n, initOf n e = none) (hod : okDomain e = none) (hot : ∀ n, okTable n e = none) : Ledger w' (tr ++ [e]) := by
  have hi : ∀ name, firstInit (tr ++ [e]) name = (w'.g.name2gid.lookup name).bind (w'.g.producers[·]?) := by
    intro name
    rw [firstInit_snoc, hin, Option.or_none, hs.name2gid, hs.producers]
    exact h.init name
  obtain ⟨c1, c2⟩ := h.cells hw' he hk hb hwr hi
  refine ⟨hw', ?_, hi, ?_, ?_, ?_, c1, c2⟩
  · intro n info hl m d hm
    have := hs.doms n
    rw [hl] at this
    cases e0 : w.g.domains.lookup n with
    | none => rw [e0] at this; cases this
    | some i0 =>
      rw [e0] at this
      simp only [Option.map_some, Option.some.injEq, Prod.mk.injEq] at this
      exact h.front n i0 e0 m d (by rw [← this.1]; exact hm)
  · rw [hs.did2name, h.doms, domainsOf_snoc, hod]
  · intro n info hl
    have := hs.doms n
    rw [hl] at this
    cases e0 : w.g.domains.lookup n with
    | none => rw [e0] at this; cases this
    | some i0 =>
      rw [e0] at this
      simp only [Option.map_some, Option.some.injEq, Prod.mk.injEq] at this
      rw [this.2, h.tabs n i0 e0, tablesOf_snoc, hot]
  · intro n hl
    have := hs.doms n
    rw [hl] at this
    cases e0 : w.g.domains.lookup n with
    | some i0 => rw [e0] at this; cases this
    | none => rw [tablesOf_snoc, hot]; exact h.notabs n e0

/-- The instance holds the initial values. -/
def FreshInst (g : Globals V) (d : Instance V) : Prop :=
  ∀ info, g.domains.lookup d.name = some info → d.props.map some = info.members.map (g.producers[·]?)

theorem FreshInst.lock {g : Globals V} {d : Instance V} (h : FreshInst g d) (name : String) :
    FreshInst (g.update name (fun i => { i with locked := true })) d := by
  intro info hl
  rw [update_lookup] at hl
  cases e : g.domains.lookup d.name with
  | none => rw [e] at hl; cases hl
  | some i =>
    rw [e] at hl
    simp only [Option.map_some, Option.some.injEq] at hl
    have := h i e
    rw [this, ← hl]
    split <;> rfl

theorem fresh_cell {g : Globals V} (hg : GInv g) {u : List (MaybeDomain V)} (hu : UOk g u) {i : PIndex} {d : Instance V} (hd : u[i.domain]? = some (.domain d))
    (hf : FreshInst g d) {e : PropDecl V} (hi : IdxOk g e i) {v : Σ t, V t} (hv : d.props[i.did]? = some v) : g.producers[i.gid]? = some v := by
  obtain ⟨info, hio⟩ := hu.inst _ _ hd
  obtain ⟨info', a1, a2, a3, a4⟩ := hi
  have hn : d.name = e.domain := hg.id_inj hio.look a1 (by rw [hio.id, a2])
  have e1 : info' = info := by
    have := hio.look
    rw [hn, a1] at this
    injection this
  subst e1
  obtain ⟨gid, b1, b2⟩ := (hg.info _ _ a1).did _ _ a3
  rw [a4] at b2; injection b2 with b2; subst b2
  have := congrArg (·[i.did]?) (hf _ hio.look)
  simp only [List.getElem?_map, b1, hv, Option.map_some, Option.some.injEq] at this
  exact this.symm

theorem instantiate_fresh {g : Globals V} (hg : GInv g) {name : String} {info : DomainInfo} (hl : g.domains.lookup name = some info)
    {inst : Instance V} {g' : Globals V} (hi : g.instantiate name = .ok (inst, g')) :
    g' = g.update name (fun i => { i with locked := true }) ∧ inst.name = name ∧ FreshInst g' inst := by
  obtain ⟨inst', a1, a2, a3, a4, a5, -⟩ := instantiate_ok hg hl
  rw [a1] at hi
  injection hi with hi
  injection hi with h1 h2
  subst h1
  refine ⟨h2.symm, ?_, ?_⟩
  · have := a4.name
    have h3 := a2.ids name { info with locked := true } (by rw [update_lookup, hl]; simp)
    simp only [] at h3
    rw [this] at h3
    injection h3
  · rw [← h2]
    intro i hl'
    have := a4.look
    rw [hl'] at this
    injection this with this
    subst this
    exact a5

theorem getDomains_fresh {g : Globals V} (hg : GInv g) (names : List String) {ret : List (MaybeDomain V)}
    (hf : ∀ (k : Nat) (d : Instance V), ret[k]? = some (.domain d) → FreshInst g d) {u : List (MaybeDomain V)} {g' : Globals V}
    (h : g.getDomains ret names = .ok (u, g')) : SameG g g' ∧ ∀ (k : Nat) (d : Instance V), u[k]? = some (.domain d) → FreshInst g' d := by
  induction names generalizing g ret with
  | nil =>
    injection h with h
    injection h with h1 h2
    subst h1; subst h2
    exact ⟨SameG.refl _, hf⟩
  | cons n names ih =>
    rw [Globals.getDomains] at h
    cases hl : g.domains.lookup n with
    | none => rw [hl] at h; cases h
    | some info =>
      rw [hl] at h
      simp only [] at h
      obtain ⟨inst, a1, a2, a3, a4, -⟩ := instantiate_ok hg hl
      obtain ⟨-, b2, b3⟩ := instantiate_fresh hg hl a1
      rw [a1] at h
      replace h : (if info.id < ret.length then (g.update n (fun i => { i with locked := true })).getDomains (ret.set info.id (.domain inst)) names
        else .error .vecOob) = .ok (u, g') := h
      split at h
      · obtain ⟨c1, c2⟩ := ih a2 (ret := ret.set info.id (.domain inst)) (by
          intro k d hk
          rw [List.getElem?_set] at hk
          split at hk
          · injection hk with hk; injection hk with hk; subst hk; exact b3
          · exact (hf k d hk).lock n) h
        exact ⟨(SameG.lock g n).trans c1, c2⟩
      · cases h

theorem SameProps.back {u u' : List (MaybeDomain V)} (h : SameProps u u') (hlen : u'.length = u.length)
    (hun : ∀ (k : Nat) (n : String), u[k]? = some (.unset n) → u'[k]? = some (.unset n)) {i : PIndex} {v : Σ t, V t} (hc : cellOf u' i = .ok v) :
    cellOf u i = .ok v := by
  obtain ⟨d', a1, a2⟩ := cell_inst hc
  have hlt : i.domain < u.length := by
    rw [← hlen]
    by_contra hc'
    rw [List.getElem?_eq_none (by omega)] at a1; cases a1
  cases e : u[i.domain] with
  | unset n =>
    have := hun i.domain n (by rw [List.getElem?_eq_getElem hlt, e])
    rw [this] at a1; cases a1
  | domain d =>
    have hd : u[i.domain]? = some (.domain d) := by rw [List.getElem?_eq_getElem hlt, e]
    obtain ⟨d2, b1, b2⟩ := h _ _ hd
    rw [a1] at b1
    injection b1 with b1; injection b1 with b1
    subst b1
    exact cell_of_inst hd (by rw [← b2]; exact a2)

/-- Registering trackers leaves what is not there alone. -/
def SameUnset (u u' : List (MaybeDomain V)) : Prop :=
  u'.length = u.length ∧ ∀ (k : Nat) (n : String), u[k]? = some (.unset n) → u'[k]? = some (.unset n)

theorem SameUnset.refl (u : List (MaybeDomain V)) : SameUnset u u := ⟨rfl, fun _ _ h => h⟩

theorem SameUnset.trans {a b c : List (MaybeDomain V)} (h1 : SameUnset a b) (h2 : SameUnset b c) : SameUnset a c :=
  ⟨h2.1.trans h1.1, fun k n h => h2.2 k n (h1.2 k n h)⟩

theorem modTable_unset (u : List (MaybeDomain V)) (did : Nat) (table : String) (f : TableInst → TableInst) : SameUnset u (modTable u did table f) := by
  refine ⟨by simp [modTable], ?_⟩
  intro k n hk
  unfold modTable
  rw [List.getElem?_modify, hk]
  simp only [Option.map_eq_map, Option.map_some, Option.some.injEq]
  split <;> rfl

theorem register_unset (w : World P V) (u : List (MaybeDomain V)) (r : Reg) : SameUnset u (w.register u r).2 := by
  rcases register_shape w u r with h | ⟨did, f, -, h⟩
  · rw [h]; exact SameUnset.refl _
  · rw [h]; exact modTable_unset _ _ _ _

theorem registerAll_unset {w : World P V} (rs : List Reg) (u : List (MaybeDomain V)) : SameUnset u (w.registerAll u rs).2 := by
  induction rs generalizing u with
  | nil => exact SameUnset.refl _
  | cons r rs ih =>
    unfold World.registerAll
    have hs := register_unset w u r
    rcases h : w.register u r with ⟨e, u1⟩
    rw [h] at hs
    cases e with
    | some p => exact hs
    | none => exact hs.trans (ih u1)

theorem initDomain_unset {w : World P V} (u : List (MaybeDomain V)) (n : String) : SameUnset u (w.initDomain u n).2 := by
  unfold World.initDomain
  split
  · exact SameUnset.refl _
  · split
    · exact registerAll_unset _ _
    · exact SameUnset.refl _
    · exact SameUnset.refl _

theorem initDomains_unset {w : World P V} (ns : List String) (u : List (MaybeDomain V)) : SameUnset u (w.initDomains u ns).2 := by
  induction ns generalizing u with
  | nil => exact SameUnset.refl _
  | cons n ns ih =>
    unfold World.initDomains
    have := initDomain_unset (w := w) u n
    rcases e : w.initDomain u n with ⟨p, u1⟩
    rw [e] at this
    cases p with
    | some p => exact this
    | none => exact this.trans (ih u1)

theorem keeps_append {w w' : World P V} {u : List (MaybeDomain V)} (h : w'.unis = w.unis ++ [u]) (k : Nat) (i : PIndex) : Keeps w w' k i := by
  intro x v h1 h2
  refine ⟨x, ?_, h2⟩
  rw [h]
  exact prefix_get (List.prefix_append _ _) h1

theorem newUniverse_ledger {w : World P V} {tr : List (ROp decl × Bool)} (h : Ledger w tr) (names : List String) :
    Ledger (w.newUniverse names).2 (tr ++ [(.newUniverse names, (w.newUniverse names).1.isOk)]) := by
  obtain ⟨a1, a2, a3⟩ := newUniverse_step h.inv names
  have hk : ∀ k i, Keeps w (w.newUniverse names).2 k i := by
    intro k i
    rcases a3 with a3 | ⟨u, a3⟩
    · exact Keeps.ofEq a3 k i
    · exact keeps_append a3 k i
  have hsb : SameG w.g (w.newUniverse names).2.g ∧ Back w (w.newUniverse names).2 := by
    unfold World.newUniverse
    split
    · exact ⟨SameG.refl _, Back.ofEq rfl⟩
    · cases e : w.g.getDomains (w.g.did2name.map .unset) names with
      | error p => exact ⟨SameG.refl _, Back.ofEq rfl⟩
      | ok ug =>
        obtain ⟨u, g'⟩ := ug
        simp only []
        obtain ⟨b1, b2⟩ := getDomains_fresh h.inv.g names (by
          intro k d hk
          rw [List.getElem?_map] at hk
          cases e : w.g.did2name[k]? with
          | none => rw [e] at hk; cases hk
          | some m => rw [e] at hk; simp at hk) e
        have hinv := getDomains_inv h.inv.g (unset_ok (g := w.g)) (by simp) names
        rw [e] at hinv
        obtain ⟨hg', -, hu', -⟩ := hinv
        rcases ei : ({ w with g := g' } : World P V).initDomains u names with ⟨p, u1⟩
        have hsame := initDomains_same (w := ({ w with g := g' } : World P V)) names u
        have hun := initDomains_unset (w := ({ w with g := g' } : World P V)) names u
        rw [ei] at hsame hun
        cases p with
        | some p => exact ⟨b1, Back.ofEq rfl⟩
        | none =>
          refine ⟨b1, ?_⟩
          intro k u' i v hk hc
          simp only [] at hk
          by_cases hlt : k < w.unis.length
          · rw [List.getElem?_append_left hlt] at hk
            exact Or.inl ⟨u', hk, hc⟩
          · rw [List.getElem?_append_right (by omega)] at hk
            have : u1 = u' := by
              by_cases e0 : k - w.unis.length = 0
              · rw [e0] at hk; injection hk
              · rw [List.getElem?_eq_none (by simp; omega)] at hk; cases hk
            subst this
            right
            intro d hd
            have hc' := hsame.back hun.1 hun.2 hc
            obtain ⟨inst, c1, c2⟩ := cell_inst hc'
            exact fresh_cell hg' hu' c1 (b2 _ _ c1) hd c2
  refine h.quiet a1 a2.ext hsb.1 hk hsb.2 ?_ ?_ ?_ ?_
  · intro k n; cases (w.newUniverse names).1.isOk <;> rfl
  · intro n; cases (w.newUniverse names).1.isOk <;> rfl
  · cases (w.newUniverse names).1.isOk <;> rfl
  · intro n; cases (w.newUniverse names).1.isOk <;> rfl

/-- Replacing one universe. -/
theorem Back.set {w w' : World P V} {k : Nat} {u u' : List (MaybeDomain V)} (hk : w.unis[k]? = some u) (hw : w'.unis = w.unis.set k u')
    (hc : ∀ i v, cellOf u' i = .ok v → cellOf u i = .ok v ∨ ∀ d : PropDecl V, IdxOk w'.g d i → w'.g.producers[i.gid]? = some v) : Back w w' := by
  intro k' x i v h1 h2
  rw [hw] at h1
  by_cases e : k = k'
  · subst e
    rw [List.getElem?_set] at h1
    simp only [if_true] at h1
    split at h1
    · injection h1 with h1
      subst h1
      rcases hc i v h2 with h | h
      · exact Or.inl ⟨u, hk, h⟩
      · exact Or.inr h
    · cases h1
  · rw [List.getElem?_set_ne e] at h1
    exact Or.inl ⟨x, h1, h2⟩

theorem synced_ok {w : World P V} {u u1 : List (MaybeDomain V)} (h : w.synced u = .ok u1) : u1 = u ++ (w.g.did2name.drop u.length).map .unset := by
  unfold World.synced at h
  split at h
  · cases h
  · split at h
    · injection h with h; exact h.symm
    · cases h

theorem synced_cells {u : List (MaybeDomain V)} (l : List String) {i : PIndex} {v : Σ t, V t} (hc : cellOf (u ++ l.map .unset) i = .ok v) :
    cellOf u i = .ok v := by
  obtain ⟨d, a1, a2⟩ := cell_inst hc
  by_cases hlt : i.domain < u.length
  · rw [List.getElem?_append_left hlt] at a1
    exact cell_of_inst a1 a2
  · rw [List.getElem?_append_right (by omega), List.getElem?_map] at a1
    cases e : l[i.domain - u.length]? with
    | none => rw [e] at a1; cases a1
    | some n => rw [e] at a1; simp at a1

theorem getId_ok {w : World P V} {name : String} {id : Nat} (h : w.getId name = .ok id) :
    w.poisoned = false ∧ ∃ info, w.g.domains.lookup name = some info ∧ info.id = id := by
  unfold World.getId at h
  split at h
  · cases h
  · rename_i hp
    split at h
    · rename_i info hl; injection h with h; exact ⟨by simpa using hp, info, hl, h⟩
    · cases h

theorem addDomain_ledger {w : World P V} {tr : List (ROp decl × Bool)} (h : Ledger w tr) (k : Nat) (name : String) :
    Ledger (w.addDomain k name).2 (tr ++ [(.addDomain k name, (w.addDomain k name).1.isOk)]) := by
  obtain ⟨a1, a2, a3⟩ := addDomain_step h.inv k name
  have hsb : SameG w.g (w.addDomain k name).2.g ∧ Back w (w.addDomain k name).2 := by
    unfold World.addDomain
    split
    · exact ⟨SameG.refl _, Back.ofEq rfl⟩
    · rename_i u hk
      have hu := h.inv.unis u (List.mem_of_getElem? hk)
      split
      · exact ⟨SameG.refl _, Back.ofEq rfl⟩
      · rename_i u1 hs
        have hu1e := synced_ok hs
        have hu1 : UOk w.g u1 := by rw [hu1e]; exact hu.append_unset
        have hb1 : ∀ i v, cellOf u1 i = .ok v → cellOf u i = .ok v := by
          intro i v hc; rw [hu1e] at hc; exact synced_cells _ hc
        have hB1 : ∀ g', Back w ({ w with unis := w.unis.set k u1, g := g' } : World P V) := fun g' =>
          Back.set hk rfl (fun i v hc => Or.inl (hb1 i v hc))
        simp only []
        split
        · exact ⟨SameG.refl _, hB1 _⟩
        · rename_i id hid
          split
          · exact ⟨SameG.refl _, hB1 _⟩
          · rename_i m hm
            split
            · exact ⟨SameG.refl _, hB1 _⟩
            · rename_i hset
              obtain ⟨-, info, hl, hidd⟩ := getId_ok hid
              simp only [] at hl
              subst hidd
              obtain ⟨inst, b1, b2, b3, b4, -⟩ := instantiate_ok h.inv.g hl
              obtain ⟨-, d2, d3⟩ := instantiate_fresh h.inv.g hl b1
              rw [b1]
              simp only []
              have hu2 : UOk (w.g.update name (fun i => { i with locked := true })) (u1.set info.id (.domain inst)) := (hu1.ext h.inv.g b3).set _ b4
              have hb2 : ∀ i v, cellOf (u1.set info.id (.domain inst)) i = .ok v → cellOf u i = .ok v ∨
                  ∀ d : PropDecl V, IdxOk (w.g.update name (fun i => { i with locked := true })) d i → w.g.producers[i.gid]? = some v := by
                intro i v hc
                obtain ⟨d, e1, e2⟩ := cell_inst hc
                by_cases e : info.id = i.domain
                · right
                  intro dd hdd
                  have hdi : d = inst := by
                    have e1' := e1
                    rw [List.getElem?_set, if_pos e] at e1'
                    split at e1'
                    · injection e1' with e1'; injection e1' with e1'; exact e1'.symm
                    · cases e1'
                  subst hdi
                  exact fresh_cell b2 hu2 e1 d3 hdd e2
                · left
                  rw [List.getElem?_set_ne e] at e1
                  exact hb1 i v (cell_of_inst e1 e2)
              have hs3 := initDomain_same (w := ({ w with unis := w.unis.set k u1, g := w.g.update name (fun i => { i with locked := true }) } : World P V)) (u1.set info.id (.domain inst)) name
              have hn3 := initDomain_unset (w := ({ w with unis := w.unis.set k u1, g := w.g.update name (fun i => { i with locked := true }) } : World P V)) (u1.set info.id (.domain inst)) name
              split
              · rename_i u3 e3
                rw [e3] at hs3 hn3
                exact ⟨SameG.lock _ _, Back.set (u' := u3) hk (by simp) (fun i v hc => hb2 i v (hs3.back hn3.1 hn3.2 hc))⟩
              · rename_i p u3 e3
                rw [e3] at hs3 hn3
                exact ⟨SameG.lock _ _, Back.set (u' := u3) hk (by simp) (fun i v hc => hb2 i v (hs3.back hn3.1 hn3.2 hc))⟩
  refine h.quiet a1 a2.ext hsb.1 a3 hsb.2 ?_ ?_ ?_ ?_
  · intro k' n; cases (w.addDomain k name).1.isOk <;> rfl
  · intro n; cases (w.addDomain k name).1.isOk <;> rfl
  · cases (w.addDomain k name).1.isOk <;> rfl
  · intro n; cases (w.addDomain k name).1.isOk <;> rfl

theorem Ledger.same {w w' : World P V} {tr : List (ROp decl × Bool)} (h : Ledger w tr) (hw' : WInv decl w') (hg : w'.g = w.g) (hu : w'.unis = w.unis)
    {e : ROp decl × Bool} (hwr : ∀ k n, written k n e = none)
    (hin : ∀ n, initOf n e = none) (hod : okDomain e = none) (hot : ∀ n, okTable n e = none) : Ledger w' (tr ++ [e]) :=
  h.quiet hw' (by rw [hg]; exact Ext.refl _) (SameG.ofEq hg) (fun k i => Keeps.ofEq hu k i) (Back.ofEq hu) hwr hin hod hot

theorem registerDomain_ledger {w : World P V} {tr : List (ROp decl × Bool)} (h : Ledger w tr) (name : String) :
    Ledger (w.registerDomain name).2 (tr ++ [(.registerDomain name, (w.registerDomain name).1.isOk)]) := by
  obtain ⟨a1, a2, a3⟩ := registerDomain_step h.inv name
  by_cases hq : (w.registerDomain name).1.isOk = true ∧ w.g.domains.lookup name = none
  · obtain ⟨h1, h2⟩ := hq
    have hn : name ∉ w.g.did2name := by rw [← h.inv.g.names]; exact lookup_none_iff.1 h2
    have hw' : (w.registerDomain name) = (.ok (), { w with g := { w.g with
        domains := w.g.domains ++ [(name, { id := w.g.domains.length, members := [], tables := [], order := [], name2did := [], locked := false })],
        did2name := w.g.did2name ++ [name] } }) := by
      unfold World.registerDomain at h1 ⊢
      split at h1
      · cases h1
      · rename_i e
        simp only []
        split at h1
        · cases h1
        · rename_i hp
          rw [if_neg hp, h2]
    rw [hw'] at a1 a2 a3 ⊢
    have hi : ∀ name', firstInit (tr ++ [((ROp.registerDomain name : ROp decl), true)]) name' = (w.g.name2gid.lookup name').bind (w.g.producers[·]?) := by
      intro name'
      rw [firstInit_snoc, h.init]
      show _ = _
      simp [initOf]
    obtain ⟨c1, c2⟩ := h.cells (e := ((ROp.registerDomain name : ROp decl), true)) a1 a2.ext (fun k i => Keeps.ofEq a3 k i) (Back.ofEq a3) (fun _ _ => rfl) hi
    have hlk : ∀ n, (w.g.domains ++ [(name, ({ id := w.g.domains.length, members := [], tables := [], order := [], name2did := [], locked := false } : DomainInfo))]).lookup n =
        if n = name then some { id := w.g.domains.length, members := [], tables := [], order := [], name2did := [], locked := false } else w.g.domains.lookup n := by
      intro n
      rw [lookup_append]
      by_cases e : n = name
      · subst e; rw [h2]; simp
      · have : (n == name) = false := by simp [e]
        rw [List.lookup_cons, this]
        simp [e]
    refine ⟨a1, ?_, hi, ?_, ?_, ?_, c1, c2⟩
    · intro n info hl m d hm
      simp only [] at hl
      rw [hlk] at hl
      split at hl
      · injection hl with hl; subst hl; cases hm
      · exact h.front n info hl m d hm
    · show w.g.did2name ++ [name] = _
      rw [domainsOf_snoc]
      show _ = if name ∈ domainsOf tr then _ else _
      rw [← h.doms, if_neg hn]
    · intro n info hl
      simp only [] at hl
      rw [hlk] at hl
      rw [tablesOf_snoc]
      show info.tables = (tablesOf tr n).map _
      split at hl
      · rename_i e; subst e
        injection hl with hl; subst hl
        rw [h.notabs _ h2]; rfl
      · exact h.tabs n info hl
    · intro n hl
      simp only [] at hl
      rw [hlk] at hl
      rw [tablesOf_snoc]
      show tablesOf tr n = []
      split at hl
      · cases hl
      · exact h.notabs n hl
  · have hw' : (w.registerDomain name).2 = w := by
      unfold World.registerDomain at hq ⊢
      split
      · rfl
      · rename_i e
        rw [e] at hq
        simp only [] at hq
        split
        · rfl
        · rename_i hp
          split
          · rfl
          · rename_i hn
            rw [if_neg hp, hn] at hq
            exact absurd ⟨rfl, rfl⟩ hq
    have hlook : (w.registerDomain name).1.isOk = true → name ∈ domainsOf tr := by
      intro hok
      have hsome : w.g.domains.lookup name ≠ none := fun hc => hq ⟨hok, hc⟩
      rw [← h.doms, ← h.inv.g.names]
      by_contra hc
      exact hsome (lookup_none_iff.2 hc)
    rw [hw']
    have hd : domainsOf (tr ++ [((ROp.registerDomain name : ROp decl), (w.registerDomain name).1.isOk)]) = domainsOf tr := by
      rw [domainsOf_snoc]
      cases hb : (w.registerDomain name).1.isOk with
      | false => rfl
      | true =>
        show (if name ∈ domainsOf tr then _ else _) = _
        rw [if_pos (hlook hb)]
    have hi : ∀ name', firstInit (tr ++ [((ROp.registerDomain name : ROp decl), (w.registerDomain name).1.isOk)]) name' = (w.g.name2gid.lookup name').bind (w.g.producers[·]?) := by
      intro name'
      rw [firstInit_snoc, h.init]
      cases hb : (w.registerDomain name).1.isOk <;> simp [initOf]
    obtain ⟨c1, c2⟩ := h.cells (e := ((ROp.registerDomain name : ROp decl), (w.registerDomain name).1.isOk)) h.inv (Ext.refl _) (fun k i => Keeps.refl _ k i) (Back.ofEq rfl)
      (fun _ _ => by cases (w.registerDomain name).1.isOk <;> rfl) hi
    have ht : ∀ n, okTable n ((ROp.registerDomain name : ROp decl), (w.registerDomain name).1.isOk) = none := fun n => by
      cases (w.registerDomain name).1.isOk <;> rfl
    refine ⟨h.inv, h.front, hi, ?_, ?_, ?_, c1, c2⟩
    · rw [hd]; exact h.doms
    · intro n info hl
      rw [tablesOf_snoc, ht]; exact h.tabs n info hl
    · intro n hl
      rw [tablesOf_snoc, ht]; exact h.notabs n hl

theorem registerTable_ledger {w : World P V} {tr : List (ROp decl × Bool)} (h : Ledger w tr) (t : GTable) :
    Ledger (w.registerTable t).2 (tr ++ [(.registerTable t, (w.registerTable t).1.isOk)]) := by
  obtain ⟨a1, a2, a3⟩ := registerTable_step h.inv t
  cases hb : (w.registerTable t).1.isOk with
  | false =>
    have hg : (w.registerTable t).2.g = w.g := by
      unfold World.registerTable at hb ⊢
      split
      · rfl
      · rename_i e
        rw [e] at hb
        simp only [] at hb
        split
        · rfl
        · rename_i hp
          rw [if_neg hp] at hb
          split
          · rfl
          · rename_i info hl
            rw [hl] at hb
            simp only [] at hb
            split
            · rfl
            · rename_i hlk
              rw [if_neg hlk] at hb
              split
              · rename_i ht; rw [ht] at hb; cases hb
              · rename_i old ht
                split <;> rfl
    exact h.same a1 hg a3 (fun _ _ => rfl) (fun _ => rfl) rfl (fun _ => rfl)
  | true =>
    have : ∃ info, w.g.domains.lookup t.domain = some info ∧
        ((info.tables.lookup t.name = none ∧ (w.registerTable t).2 = { w with g := w.g.update t.domain (fun info => { info with
              order := info.order ++ [t.name], tables := info.tables ++ [(t.name, t)] }) }) ∨
         ((info.tables.lookup t.name).isSome = true ∧ (w.registerTable t).2 = w)) := by
      unfold World.registerTable at hb ⊢
      cases eb : t.build with
      | error x => rw [eb] at hb; cases hb
      | ok x =>
        simp only [eb] at hb ⊢
        by_cases hp : w.poisoned = true
        · rw [if_pos hp] at hb; cases hb
        · simp only [if_neg hp] at hb ⊢
          cases hl : w.g.domains.lookup t.domain with
          | none => rw [hl] at hb; cases hb
          | some info =>
            simp only [hl] at hb ⊢
            by_cases hlk : info.locked = true
            · rw [if_pos hlk] at hb; cases hb
            · simp only [if_neg hlk] at hb ⊢
              refine ⟨info, rfl, ?_⟩
              cases ht : info.tables.lookup t.name with
              | none => exact Or.inl ⟨rfl, rfl⟩
              | some old =>
                simp only [ht] at hb ⊢
                by_cases he : t.equivalent old = true
                · simp only [he, if_true]
                  exact Or.inr ⟨rfl, trivial⟩
                · rw [if_neg he] at hb; cases hb
    obtain ⟨info, hl, hc⟩ := this
    have htab := h.tabs _ _ hl
    have hmem : (info.tables.lookup t.name).isSome = true ↔ t.name ∈ (tablesOf tr t.domain).map GTable.name := by
      rw [lookup_isSome_iff, htab, List.map_map]
      exact Iff.rfl
    have hi' : ∀ name', firstInit (tr ++ [((ROp.registerTable t : ROp decl), true)]) name' = (w.g.name2gid.lookup name').bind (w.g.producers[·]?) := by
      intro name'
      rw [firstInit_snoc, h.init]
      simp [initOf]
    have hot : ∀ n, n ≠ t.domain → okTable n ((ROp.registerTable t : ROp decl), true) = none := by
      intro n hn
      show (if t.domain = n then some t else none) = none
      rw [if_neg (Ne.symm hn)]
    have hot' : okTable t.domain ((ROp.registerTable t : ROp decl), true) = some t := by
      show (if t.domain = t.domain then some t else none) = some t
      rw [if_pos rfl]
    have hd : domainsOf (tr ++ [((ROp.registerTable t : ROp decl), true)]) = domainsOf tr := by
      rw [domainsOf_snoc]; rfl
    rcases hc with ⟨hn, hw'⟩ | ⟨hs, hw'⟩
    · rw [hw'] at a1 a2 a3 ⊢
      obtain ⟨c1, c2⟩ := h.cells (e := ((ROp.registerTable t : ROp decl), true)) a1 a2.ext (fun k i => Keeps.ofEq a3 k i) (Back.ofEq a3) (fun _ _ => rfl) hi'
      refine ⟨a1, ?_, hi', ?_, ?_, ?_, c1, c2⟩
      · intro n info' hl' m d hm
        simp only [update_lookup] at hl'
        cases e : w.g.domains.lookup n with
        | none => rw [e] at hl'; cases hl'
        | some i0 =>
          rw [e] at hl'
          simp only [Option.map_some, Option.some.injEq] at hl'
          refine h.front n i0 e m d ?_
          rw [← hl'] at hm
          split at hm <;> exact hm
      · rw [hd]; exact h.doms
      · intro n info' hl'
        simp only [update_lookup] at hl'
        rw [tablesOf_snoc]
        by_cases e : n = t.domain
        · subst e
          rw [hl] at hl'
          simp only [Option.map_some, Option.some.injEq, if_true] at hl'
          rw [hot']
          simp only []
          rw [if_neg (by rw [← hmem, hn]; simp), ← hl']
          simp only []
          rw [htab, List.map_append]
          rfl
        · rw [hot n e]
          simp only [e, if_false] at hl'
          exact h.tabs n info' (by simpa using hl')
      · intro n hl'
        simp only [update_lookup, Option.map_eq_none_iff] at hl'
        rw [tablesOf_snoc]
        by_cases e : n = t.domain
        · subst e; rw [hl] at hl'; cases hl'
        · rw [hot n e]; exact h.notabs n hl'
    · rw [hw']
      obtain ⟨c1, c2⟩ := h.cells (e := ((ROp.registerTable t : ROp decl), true)) h.inv (Ext.refl _) (fun k i => Keeps.refl _ k i) (Back.ofEq rfl) (fun _ _ => rfl) hi'
      have htr : ∀ n, tablesOf (tr ++ [((ROp.registerTable t : ROp decl), true)]) n = tablesOf tr n := by
        intro n
        rw [tablesOf_snoc]
        by_cases e : n = t.domain
        · subst e; rw [hot']; simp only []; rw [if_pos (hmem.1 hs)]
        · rw [hot n e]
      refine ⟨h.inv, h.front, hi', by rw [hd]; exact h.doms, ?_, ?_, c1, c2⟩
      · intro n i hi; rw [htr]; exact h.tabs n i hi
      · intro n hi; rw [htr]; exact h.notabs n hi

theorem swap_ledger {w : World P V} {tr : List (ROp decl × Bool)} (h : Ledger w tr) (k : Nat) (p : P) (val : V (decl p).ty) (e : Bool → ROp decl × Bool)
    (he1 : ∀ k' n, written k' n (e false) = none) (he2 : ∀ k' n, written k' n (e true) = if k = k' ∧ (decl p).name = n then some ⟨_, val⟩ else none)
    (hin : ∀ b n, initOf n (e b) = none) (hod : ∀ b, okDomain (e b) = none) (hot : ∀ b n, okTable n (e b) = none) :
    Ledger (w.swap decl k p val).2 (tr ++ [e (w.swap decl k p val).1.isOk]) := by
  obtain ⟨a1, a2, a3, a4⟩ := swap_step h.inv k p val
  rcases a4 with ⟨x, b1, b2⟩ | ⟨u, i, old, b1, b2, b3, b3', b4, b5, b6⟩
  · rw [b1]
    exact h.same a1 a3 b2 he1 (hin _) (hod _) (hot _)
  · rw [b5]
    show Ledger _ (tr ++ [e true])
    have hi : ∀ name, firstInit (tr ++ [e true]) name = firstInit tr name := by
      intro name; rw [firstInit_snoc, hin, Option.or_none]
    have hlt : k < w.unis.length := by
      by_contra hc
      rw [List.getElem?_eq_none (by omega)] at b1; cases b1
    refine ⟨a1, by rw [a3]; exact h.front, ?_, ?_, ?_, ?_, ?_, ?_⟩
    · intro name; rw [hi, a3]; exact h.init name
    · rw [a3, domainsOf_snoc, hod]; exact h.doms
    · rw [a3]; intro n info hl; rw [tablesOf_snoc, hot]; exact h.tabs n info hl
    · rw [a3]; intro n hl; rw [tablesOf_snoc, hot]; exact h.notabs n hl
    · intro k' name v hl
      rw [lastWrite_snoc, he2] at hl
      rw [a3, b6]
      by_cases hc : k = k' ∧ (decl p).name = name
      · rw [if_pos hc] at hl
        obtain ⟨rfl, rfl⟩ := hc
        simp only [Option.some_or, Option.some.injEq] at hl
        subst hl
        refine ⟨putCell u i ⟨_, val⟩, i, decl p, ?_, rfl, b3, ?_⟩
        · rw [List.getElem?_set]; simp [hlt]
        · rw [cellOf_putCell b4]; simp
      · rw [if_neg hc, Option.none_or] at hl
        obtain ⟨x, j, d, c1, c2, c3, c4⟩ := h.wrote k' name v hl
        by_cases hk : k = k'
        · subst hk
          rw [b1] at c1; injection c1 with c1; subst c1
          refine ⟨putCell u i ⟨_, val⟩, j, d, ?_, c2, c3, ?_⟩
          · rw [List.getElem?_set]; simp [hlt]
          · rw [cellOf_putCell b4, if_neg ?_]
            · exact c4
            · intro hpl
              have := IdxOk.place h.inv.g c3 b3 hpl
              exact hc ⟨rfl, by rw [← this]; exact c2⟩
        · exact ⟨x, j, d, by rw [List.getElem?_set_ne hk]; exact c1, c2, c3, c4⟩
    · intro k' d j x v hl hx hj hcv
      rw [lastWrite_snoc, he2] at hl
      rw [a3] at hj
      rw [b6] at hx
      rw [hi]
      have hl1 : ¬ (k = k' ∧ (decl p).name = d.name) := by
        intro hc; rw [if_pos hc] at hl; cases hl
      rw [if_neg hl1, Option.none_or] at hl
      by_cases hk : k = k'
      · subst hk
        have hx' : putCell u i ⟨_, val⟩ = x := by
          rw [List.getElem?_set, if_pos rfl, if_pos hlt] at hx
          injection hx
        subst hx'
        rw [cellOf_putCell b4] at hcv
        split at hcv
        · rename_i hpl
          exact absurd ⟨rfl, (IdxOk.place h.inv.g hj b3 hpl).symm⟩ hl1
        · exact h.fresh k d j u v hl b1 hj hcv
      · rw [List.getElem?_set_ne hk] at hx
        exact h.fresh k' d j x v hl hx hj hcv

theorem registerProp_ledger {w : World P V} {tr : List (ROp decl × Bool)} (h : Ledger w tr) (p : P) :
    Ledger (w.registerProp decl p).2 (tr ++ [(.registerProp p, (w.registerProp decl p).1.isOk)]) := by
  obtain ⟨a1, a2, a3⟩ := registerProp_step h.inv p
  have hwr : ∀ b k n, written k n ((ROp.registerProp p : ROp decl), b) = none := fun b _ _ => by cases b <;> rfl
  have hod : ∀ b, okDomain ((ROp.registerProp p : ROp decl), b) = none := fun b => by cases b <;> rfl
  have hot : ∀ b n, okTable n ((ROp.registerProp p : ROp decl), b) = none := fun b _ => by cases b <;> rfl
  have hd : ∀ b, domainsOf (tr ++ [((ROp.registerProp p : ROp decl), b)]) = domainsOf tr := by
    intro b; rw [domainsOf_snoc, hod]
  have ht : ∀ b n, tablesOf (tr ++ [((ROp.registerProp p : ROp decl), b)]) n = tablesOf tr n := by
    intro b n; rw [tablesOf_snoc, hot]
  cases hb : (w.registerProp decl p).1.isOk with
  | false =>
    have hg : (w.registerProp decl p).2.g = w.g := by
      unfold World.registerProp at hb ⊢
      split
      · rfl
      · rename_i hp
        rw [if_neg hp] at hb
        split
        · rfl
        · rename_i hidx
          rw [hidx] at hb
          simp only [] at hb ⊢
          split
          · rfl
          · rename_i eb
            rw [eb] at hb
            simp only [] at hb
            split
            · rfl
            · rename_i info hl
              rw [hl] at hb
              simp only [] at hb
              split
              · rfl
              · rename_i hlk
                rw [if_neg hlk] at hb
                cases hb
    exact h.same a1 hg a3 (hwr _) (fun _ => rfl) (hod _) (hot _)
  | true =>
    have hin : ∀ n, initOf n ((ROp.registerProp p : ROp decl), true) = if (decl p).name = n then some ⟨_, (decl p).init⟩ else none := fun _ => rfl
    cases hidx : w.idx p with
    | some i =>
      have hw' : (w.registerProp decl p).2 = w := by
        unfold World.registerProp
        split
        · rfl
        · rw [hidx]
      rw [hw']
      obtain ⟨info, b1, b2, b3, b4⟩ := h.inv.idx p i hidx
      have hi : ∀ name', firstInit (tr ++ [((ROp.registerProp p : ROp decl), true)]) name' = (w.g.name2gid.lookup name').bind (w.g.producers[·]?) := by
        intro name'
        rw [firstInit_snoc, h.init, hin]
        by_cases e : (decl p).name = name'
        · subst e
          rw [b4]
          have := h.inv.g.gid_lt b4
          simp [List.getElem?_eq_getElem this]
        · simp [e]
      obtain ⟨c1, c2⟩ := h.cells (e := ((ROp.registerProp p : ROp decl), true)) h.inv (Ext.refl _) (fun k i => Keeps.refl _ k i) (Back.ofEq rfl) (hwr _) hi
      exact ⟨h.inv, h.front, hi, by rw [hd]; exact h.doms, fun n i hi => by rw [ht]; exact h.tabs n i hi, fun n hi => by rw [ht]; exact h.notabs n hi, c1, c2⟩
    | none =>
      have : ∃ info, checkPropName (decl p).domain.toList (decl p).name.toList = .ok () ∧ w.g.domains.lookup (decl p).domain = some info ∧
          (w.registerProp decl p).2.g = ({ w.g with
              name2gid := if (w.g.name2gid.lookup (decl p).name).isSome then w.g.name2gid else w.g.name2gid ++ [((decl p).name, (w.g.name2gid.lookup (decl p).name).getD w.g.producers.length)]
              producers := if (w.g.name2gid.lookup (decl p).name).isSome then w.g.producers else w.g.producers ++ [⟨(decl p).ty, (decl p).init⟩] } : Globals V).update (decl p).domain
            (fun i => { i with
              name2did := if (i.name2did.lookup (decl p).name).isSome then i.name2did else i.name2did ++ [((decl p).name, (info.name2did.lookup (decl p).name).getD info.members.length)]
              members := i.members ++ [(w.g.name2gid.lookup (decl p).name).getD w.g.producers.length] }) := by
        unfold World.registerProp at hb ⊢
        split at hb
        · cases hb
        · rename_i hp
          simp only [if_neg hp, hidx] at hb ⊢
          split at hb
          · cases hb
          · rename_i eb
            split at hb
            · cases hb
            · rename_i info hl
              split at hb
              · cases hb
              · rename_i hlk
                refine ⟨info, eb, hl, ?_⟩
                simp only [eb, hl, if_neg hlk]
      obtain ⟨info, hck, hl, hg⟩ := this
      have hi : ∀ name', firstInit (tr ++ [((ROp.registerProp p : ROp decl), true)]) name' =
          ((w.registerProp decl p).2.g.name2gid.lookup name').bind ((w.registerProp decl p).2.g.producers[·]?) := by
        intro name'
        rw [firstInit_snoc, h.init, hin, hg]
        show _ = ((if (w.g.name2gid.lookup (decl p).name).isSome then w.g.name2gid else w.g.name2gid ++ [((decl p).name, (w.g.name2gid.lookup (decl p).name).getD w.g.producers.length)]).lookup name').bind
          (fun i => (if (w.g.name2gid.lookup (decl p).name).isSome then w.g.producers else w.g.producers ++ [⟨(decl p).ty, (decl p).init⟩])[i]?)
        cases e : w.g.name2gid.lookup (decl p).name with
        | some gid =>
          simp only [Option.isSome_some, if_true]
          by_cases en : (decl p).name = name'
          · subst en
            rw [e]
            have := h.inv.g.gid_lt e
            simp [List.getElem?_eq_getElem this]
          · simp [en]
        | none =>
          simp only [Option.isSome_none, Bool.false_eq_true, if_false, Option.getD_none]
          rw [lookup_append]
          by_cases en : (decl p).name = name'
          · subst en
            rw [e]
            simp
          · have hne : (name' == (decl p).name) = false := by simp [Ne.symm en]
            rw [List.lookup_cons, hne]
            simp only [en, if_false, List.lookup_nil, Option.or_none]
            cases e' : w.g.name2gid.lookup name' with
            | none => rfl
            | some gid' =>
              simp only [Option.bind_some]
              rw [List.getElem?_append_left (h.inv.g.gid_lt e')]
      obtain ⟨c1, c2⟩ := h.cells (e := ((ROp.registerProp p : ROp decl), true)) a1 a2.ext (fun k i => Keeps.ofEq a3 k i) (Back.ofEq a3) (hwr _) hi
      refine ⟨a1, ?_, hi, ?_, ?_, ?_, c1, c2⟩
      · intro n info' hl' m d hm
        rw [hg, update_lookup] at hl'
        simp only [] at hl'
        cases e : w.g.domains.lookup n with
        | none => rw [e] at hl'; cases hl'
        | some i0 =>
          rw [e] at hl'
          simp only [Option.map_some, Option.some.injEq] at hl'
          rw [← hl'] at hm
          split at hm
          · rename_i en
            subst en
            simp only [] at hm
            split at hm
            · exact h.front _ i0 e m d hm
            · rw [lookup_append] at hm
              cases em : i0.name2did.lookup m with
              | some d' => exact h.front _ i0 e m d' em
              | none =>
                rw [em, Option.none_or, List.lookup_cons] at hm
                split at hm
                · rename_i en
                  have : m = (decl p).name := by simpa using en
                  rw [this]
                  exact checkPropName_front hck
                · cases hm
          · exact h.front n i0 e m d hm
      · rw [hd, hg]; exact h.doms
      · intro n info' hl'
        rw [hg, update_lookup] at hl'
        simp only [] at hl'
        rw [ht]
        cases e : w.g.domains.lookup n with
        | none => rw [e] at hl'; cases hl'
        | some i0 =>
          rw [e] at hl'
          simp only [Option.map_some, Option.some.injEq] at hl'
          rw [← h.tabs n i0 e, ← hl']
          split <;> rfl
      · intro n hl'
        rw [hg, update_lookup, Option.map_eq_none_iff] at hl'
        rw [ht]
        exact h.notabs n hl'

theorem isOk_map {α β : Type} (r : R α) (f : α → β) : (r.map f).isOk = r.isOk := by cases r <;> rfl

theorem Touch.ledger {w w' : World P V} {tr : List (ROp decl × Bool)} (h : Ledger w tr) (ht : Touch w w')
    {e : ROp decl × Bool} (hwr : ∀ k n, written k n e = none)
    (hin : ∀ n, initOf n e = none) (hod : okDomain e = none) (hot : ∀ n, okTable n e = none) : Ledger w' (tr ++ [e]) := by
  obtain ⟨a1, a2, a3, a4, a5⟩ := Touch.inv h.inv ht
  refine h.quiet a1 a2.ext (SameG.ofEq a3) a5 ?_ hwr hin hod hot
  rcases ht with rfl | ⟨k, u, did, table, f, hk, hf, rfl⟩
  · exact Back.ofEq rfl
  · refine Back.set hk rfl ?_
    intro i v hc
    left
    have hun := modTable_unset u did table f
    exact (modTable_same u did table f).back hun.1 hun.2 hc

/-- Every call keeps the ledger. -/
theorem step_ledger {w : World P V} {tr : List (ROp decl × Bool)} (h : Ledger w tr) (op : ROp decl) :
    Ledger (w.step decl op).2 (tr ++ [(op, (w.step decl op).1.isOk)]) := by
  cases op with
  | registerDomain n => exact registerDomain_ledger h n
  | registerProp p => exact registerProp_ledger h p
  | registerTable t => exact registerTable_ledger h t
  | newUniverse ns =>
    have := newUniverse_ledger h ns
    show Ledger (w.newUniverse ns).2 (tr ++ [(_, ((w.newUniverse ns).1.map (fun _ => ())).isOk)])
    rw [isOk_map]; exact this
  | addDomain k n => exact addDomain_ledger h k n
  | addProperties k =>
    show Ledger (w.addProperties k).2 _
    rw [(addProperties_noop h.inv k).1]
    refine h.same h.inv rfl rfl ?_ ?_ ?_ ?_
    · intro k' n; cases (w.step decl (ROp.addProperties k)).1.isOk <;> rfl
    · intro n; cases (w.step decl (ROp.addProperties k)).1.isOk <;> rfl
    · cases (w.step decl (ROp.addProperties k)).1.isOk <;> rfl
    · intro n; cases (w.step decl (ROp.addProperties k)).1.isOk <;> rfl
  | get k p =>
    obtain ⟨a1, a2, a3, a4⟩ := get_step h.inv k p
    refine h.same a1 a4 a3 ?_ ?_ ?_ ?_
    · intro k' n; cases (w.step decl (ROp.get k p)).1.isOk <;> rfl
    · intro n; cases (w.step decl (ROp.get k p)).1.isOk <;> rfl
    · cases (w.step decl (ROp.get k p)).1.isOk <;> rfl
    · intro n; cases (w.step decl (ROp.get k p)).1.isOk <;> rfl
  | set k p v =>
    have := swap_ledger h k p v (fun b => (.set k p v, b)) (fun _ _ => rfl) (fun _ _ => rfl) (fun b _ => by cases b <;> rfl)
      (fun b => by cases b <;> rfl) (fun b _ => by cases b <;> rfl)
    show Ledger (w.set decl k p v).2 (tr ++ [(_, (w.set decl k p v).1.isOk)])
    rw [set_snd, set_fst, isOk_map]
    exact this
  | swap k p v =>
    have := swap_ledger h k p v (fun b => (.swap k p v, b)) (fun _ _ => rfl) (fun _ _ => rfl) (fun b _ => by cases b <;> rfl)
      (fun b => by cases b <;> rfl) (fun b _ => by cases b <;> rfl)
    show Ledger (w.swap decl k p v).2 (tr ++ [(_, ((w.swap decl k p v).1.map (fun _ => ())).isOk)])
    rw [isOk_map]
    exact this
  | openTable k m b t =>
    refine Touch.ledger h (openTable_touch w k m b t) ?_ ?_ ?_ ?_
    · intro k' n; cases (w.step decl (ROp.openTable k m b t)).1.isOk <;> rfl
    · intro n; cases (w.step decl (ROp.openTable k m b t)).1.isOk <;> rfl
    · cases (w.step decl (ROp.openTable k m b t)).1.isOk <;> rfl
    · intro n; cases (w.step decl (ROp.openTable k m b t)).1.isOk <;> rfl
  | panicWriting k m t =>
    refine Touch.ledger h (panicWriting_touch w k m t) ?_ ?_ ?_ ?_
    · intro k' n; cases (w.step decl (ROp.panicWriting k m t)).1.isOk <;> rfl
    · intro n; cases (w.step decl (ROp.panicWriting k m t)).1.isOk <;> rfl
    · cases (w.step decl (ROp.panicWriting k m t)).1.isOk <;> rfl
    · intro n; cases (w.step decl (ROp.panicWriting k m t)).1.isOk <;> rfl
  | registerTracker k r =>
    refine Touch.ledger h (registerTracker_touch w k r) ?_ ?_ ?_ ?_
    · intro k' n; cases (w.step decl (ROp.registerTracker k r)).1.isOk <;> rfl
    · intro n; cases (w.step decl (ROp.registerTracker k r)).1.isOk <;> rfl
    · cases (w.step decl (ROp.registerTracker k r)).1.isOk <;> rfl
    · intro n; cases (w.step decl (ROp.registerTracker k r)).1.isOk <;> rfl

theorem Ledger.empty : Ledger (decl := decl) (World.empty : World P V) [] where
  inv := WInv.empty
  front n info h := by simp [World.empty] at h
  init name := rfl
  doms := rfl
  tabs n info h := by simp [World.empty] at h
  notabs n _ := rfl
  wrote k name v h := by cases h
  fresh k d i u v _ h := by simp [World.empty] at h

theorem run_ledger {w : World P V} {tr : List (ROp decl × Bool)} (h : Ledger w tr) (ops : List (ROp decl)) :
    Ledger (w.run decl ops) (tr ++ w.trace decl ops) := by
  induction ops generalizing w tr with
  | nil => simpa [World.trace, World.run] using h
  | cons op ops ih =>
    have := ih (step_ledger h op)
    rw [List.append_assoc] at this
    exact this

/-- Every world a program can reach is what the history says. -/
theorem ledger (ops : List (ROp decl)) : Ledger ((World.empty : World P V).run decl ops) ((World.empty : World P V).trace decl ops) := by
  have := run_ledger (Ledger.empty (decl := decl) (P := P) (V := V)) ops
  simpa using this

end V11
