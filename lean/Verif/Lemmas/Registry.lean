import Verif.Model.Registry
import Mathlib.Data.List.Nodup
import Mathlib.Data.List.Basic

/-!
# Invariants of the registry
-/

set_option linter.unusedSimpArgs false
set_option linter.unusedSectionVars false
set_option linter.unusedVariables false

namespace V11

section Lookup
variable {α β : Type} [BEq α] [LawfulBEq α]

theorem lookup_mem {l : List (α × β)} {a : α} {b : β} (h : l.lookup a = some b) : (a, b) ∈ l := by
  induction l with
  | nil => simp at h
  | cons p l ih =>
    obtain ⟨x, y⟩ := p
    rw [List.lookup_cons] at h
    split at h
    · rename_i e
      have : a = x := by simpa using e
      injection h with h
      subst this; subst h; simp
    · exact List.mem_cons_of_mem _ (ih h)

theorem lookup_isSome_iff {l : List (α × β)} {a : α} : (l.lookup a).isSome = true ↔ a ∈ l.map Prod.fst := by
  induction l with
  | nil => simp
  | cons p l ih =>
    obtain ⟨x, y⟩ := p
    rw [List.lookup_cons]
    split
    · rename_i e
      have : a = x := by simpa using e
      subst this; simp
    · rename_i e
      have : a ≠ x := by simpa using e
      rw [ih]; simp [this]

theorem lookup_none_iff {l : List (α × β)} {a : α} : l.lookup a = none ↔ a ∉ l.map Prod.fst := by
  rw [← lookup_isSome_iff]
  cases l.lookup a <;> simp

theorem lookup_of_mem {l : List (α × β)} (hnd : (l.map Prod.fst).Nodup) {a : α} {b : β} (h : (a, b) ∈ l) : l.lookup a = some b := by
  induction l with
  | nil => simp at h
  | cons p l ih =>
    obtain ⟨x, y⟩ := p
    rw [List.map_cons, List.nodup_cons] at hnd
    rw [List.lookup_cons]
    rcases List.mem_cons.1 h with h' | h'
    · injection h' with h1 h2
      subst h1; subst h2; simp
    · have : a ≠ x := by
        intro e
        exact hnd.1 (List.mem_map.2 ⟨(a, b), h', e⟩)
      have : (a == x) = false := by simpa using this
      rw [this]
      exact ih hnd.2 h'

theorem lookup_append {l m : List (α × β)} {a : α} : (l ++ m).lookup a = (l.lookup a).or (m.lookup a) := by
  induction l with
  | nil => simp
  | cons p l ih =>
    obtain ⟨x, y⟩ := p
    rw [List.cons_append, List.lookup_cons, List.lookup_cons]
    split <;> simp [ih]

theorem lookup_map {γ : Type} {l : List (α × β)} {f : α → β → γ} {a : α} :
    (l.map (fun p => (p.1, f p.1 p.2))).lookup a = (l.lookup a).map (f a) := by
  induction l with
  | nil => simp
  | cons p l ih =>
    obtain ⟨x, y⟩ := p
    rw [List.map_cons, List.lookup_cons, List.lookup_cons]
    simp only []
    cases e : a == x with
    | true =>
      have : a = x := by simpa using e
      subst this; simp
    | false => exact ih

end Lookup

variable {Ty : Type} {V : Ty → Type} {P : Type} [DecidableEq P]

theorem update_lookup (g : Globals V) (name : String) (f : DomainInfo → DomainInfo) (n : String) :
    (g.update name f).domains.lookup n = (g.domains.lookup n).map (fun i => if n = name then f i else i) := by
  unfold Globals.update
  have : (g.domains.map fun p => if p.1 = name then (p.1, f p.2) else p) =
      g.domains.map (fun p => (p.1, (fun a b => if a = name then f b else b) p.1 p.2)) := by
    apply List.map_congr_left
    intro p _
    split <;> simp_all
  show (g.domains.map fun p => if p.1 = name then (p.1, f p.2) else p).lookup n = _
  rw [this]
  exact lookup_map (f := fun a b => if a = name then f b else b)

theorem update_names (g : Globals V) (name : String) (f : DomainInfo → DomainInfo) :
    (g.update name f).domains.map Prod.fst = g.domains.map Prod.fst := by
  unfold Globals.update
  simp only [List.map_map]
  apply List.map_congr_left
  intro p _
  simp only [Function.comp]
  split <;> rfl

/-- What is true of one domain's entry. -/
structure InfoInv (g : Globals V) (info : DomainInfo) : Prop where
  mem : ∀ gid ∈ info.members, gid < g.producers.length
  did : ∀ n d, info.name2did.lookup n = some d → ∃ gid, info.members[d]? = some gid ∧ g.name2gid.lookup n = some gid
  tables : info.order = info.tables.map Prod.fst
  tnodup : info.order.Nodup

/-- What is true of the registry. -/
structure GInv (g : Globals V) : Prop where
  names : g.domains.map Prod.fst = g.did2name
  nodup : g.did2name.Nodup
  ids : ∀ n info, g.domains.lookup n = some info → g.did2name[info.id]? = some n
  gids : g.name2gid.map Prod.snd = List.range g.producers.length
  info : ∀ n info, g.domains.lookup n = some info → InfoInv g info

/-- The registry only grows, and locked domains do not change. -/
structure Ext (g g' : Globals V) : Prop where
  producers : g.producers <+: g'.producers
  gid : ∀ n i, g.name2gid.lookup n = some i → g'.name2gid.lookup n = some i
  names : g.did2name <+: g'.did2name
  dom : ∀ n info, g.domains.lookup n = some info → ∃ info', g'.domains.lookup n = some info' ∧ info'.id = info.id ∧
    (∀ m d, info.name2did.lookup m = some d → info'.name2did.lookup m = some d) ∧ (info.locked = true → info' = info)

theorem Ext.refl (g : Globals V) : Ext g g :=
  ⟨List.prefix_rfl, fun _ _ h => h, List.prefix_rfl, fun n info h => ⟨info, h, rfl, fun _ _ h => h, fun _ => rfl⟩⟩

theorem Ext.trans {a b c : Globals V} (h1 : Ext a b) (h2 : Ext b c) : Ext a c := by
  refine ⟨h1.producers.trans h2.producers, fun n i h => h2.gid n i (h1.gid n i h), h1.names.trans h2.names, ?_⟩
  intro n info h
  obtain ⟨i1, a1, a2, a3, a4⟩ := h1.dom n info h
  obtain ⟨i2, b1, b2, b3, b4⟩ := h2.dom n i1 a1
  refine ⟨i2, b1, b2.trans a2, fun m d h => b3 m d (a3 m d h), ?_⟩
  intro hl
  have e := a4 hl
  subst e
  exact b4 hl

theorem GInv.gid_lt {g : Globals V} (h : GInv g) {n : String} {i : Nat} (hl : g.name2gid.lookup n = some i) : i < g.producers.length := by
  have := List.mem_map_of_mem (f := Prod.snd) (lookup_mem hl)
  rw [h.gids] at this
  simpa using this

theorem nodup_snd_inj {α β : Type} {l : List (α × β)} (h : (l.map Prod.snd).Nodup) {a a' : α} {b : β} (h1 : (a, b) ∈ l) (h2 : (a', b) ∈ l) :
    a = a' := by
  have := List.inj_on_of_nodup_map h h1 h2 rfl
  injection this

theorem GInv.gid_inj {g : Globals V} (h : GInv g) {n m : String} {i : Nat} (h1 : g.name2gid.lookup n = some i)
    (h2 : g.name2gid.lookup m = some i) : n = m :=
  nodup_snd_inj (by rw [h.gids]; exact List.nodup_range) (lookup_mem h1) (lookup_mem h2)

/-- Different names have different places in the domain. -/
theorem InfoInv.did_inj {g : Globals V} (hg : GInv g) {info : DomainInfo} (h : InfoInv g info) {n m : String} {d : Nat}
    (h1 : info.name2did.lookup n = some d) (h2 : info.name2did.lookup m = some d) : n = m := by
  obtain ⟨g1, a1, a2⟩ := h.did n d h1
  obtain ⟨g2, b1, b2⟩ := h.did m d h2
  rw [a1] at b1
  injection b1 with b1
  subst b1
  exact hg.gid_inj a2 b2

theorem GInv.id_inj {g : Globals V} (h : GInv g) {n m : String} {i j : DomainInfo} (h1 : g.domains.lookup n = some i)
    (h2 : g.domains.lookup m = some j) (e : i.id = j.id) : n = m := by
  have a := h.ids n i h1
  have b := h.ids m j h2
  rw [e, b] at a
  injection a with a
  exact a.symm

theorem GInv.empty : GInv (World.empty : World P V).g where
  names := rfl
  nodup := List.nodup_nil
  ids n info h := by simp [World.empty] at h
  gids := rfl
  info n info h := by simp [World.empty] at h

/-- An update that keeps ids and what matters. -/
theorem GInv.update {g : Globals V} (h : GInv g) (name : String) (f : DomainInfo → DomainInfo) (hid : ∀ i, (f i).id = i.id)
    (hinv : ∀ i, g.domains.lookup name = some i → InfoInv g (f i)) : GInv (g.update name f) where
  names := by rw [update_names]; exact h.names
  nodup := h.nodup
  ids n info hl := by
    rw [update_lookup] at hl
    cases e : g.domains.lookup n with
    | none => rw [e] at hl; cases hl
    | some i =>
      rw [e] at hl
      simp only [Option.map_some, Option.some.injEq] at hl
      have hid' : info.id = i.id := by
        rw [← hl]; split
        · exact hid i
        · rfl
      rw [hid']
      exact h.ids n i e
  gids := h.gids
  info n info hl := by
    rw [update_lookup] at hl
    cases e : g.domains.lookup n with
    | none => rw [e] at hl; cases hl
    | some i =>
      rw [e] at hl
      simp only [Option.map_some, Option.some.injEq] at hl
      have : InfoInv g info := by
        rw [← hl]
        split
        · rename_i en; subst en; exact hinv i e
        · exact h.info n i e
      exact ⟨this.mem, this.did, this.tables, this.tnodup⟩

theorem Ext.update (g : Globals V) (name : String) (f : DomainInfo → DomainInfo)
    (hf : ∀ i, g.domains.lookup name = some i → (f i).id = i.id ∧ (∀ m d, i.name2did.lookup m = some d → (f i).name2did.lookup m = some d) ∧
      (i.locked = true → f i = i)) : Ext g (g.update name f) where
  producers := List.prefix_rfl
  gid _ _ h := h
  names := List.prefix_rfl
  dom n info h := by
    rw [update_lookup, h]
    by_cases e : n = name
    · subst e
      obtain ⟨a, b, c⟩ := hf info h
      exact ⟨f info, by simp, a, b, c⟩
    · exact ⟨info, by simp [e], rfl, fun _ _ h => h, fun _ => rfl⟩

/-! ## Domains -/

theorem registerDomain_inv {w : World P V} (h : GInv w.g) (name : String) :
    GInv (w.registerDomain name).2.g ∧ Ext w.g (w.registerDomain name).2.g ∧ (w.registerDomain name).2.idx = w.idx ∧
      (w.registerDomain name).2.unis = w.unis := by
  unfold World.registerDomain
  split
  · exact ⟨h, Ext.refl _, rfl, rfl⟩
  · split
    · exact ⟨h, Ext.refl _, rfl, rfl⟩
    · split
      · exact ⟨h, Ext.refl _, rfl, rfl⟩
      · rename_i hn
        have hnot : name ∉ w.g.did2name := by
          rw [← h.names]; exact lookup_none_iff.1 hn
        have hlen : w.g.domains.length = w.g.did2name.length := by rw [← h.names]; simp
        refine ⟨⟨?_, ?_, ?_, h.gids, ?_⟩, ⟨List.prefix_rfl, fun _ _ h => h, List.prefix_append _ _, ?_⟩, rfl, rfl⟩
        · simp [h.names]
        · simp only []
          rw [List.nodup_append]
          exact ⟨h.nodup, by simp, by intro a ha b hb; simp at hb; subst hb; rintro rfl; exact hnot ha⟩
        · intro n info hl
          simp only [] at hl ⊢
          rw [lookup_append] at hl
          cases e : w.g.domains.lookup n with
          | some i =>
            rw [e] at hl
            simp at hl; subst hl
            have := h.ids n i e
            rw [List.getElem?_append_left (by
              by_contra hc
              rw [List.getElem?_eq_none (by omega)] at this; cases this)]
            exact this
          | none =>
            rw [e] at hl
            simp only [Option.none_or, List.lookup_cons, List.lookup_nil] at hl
            split at hl
            · rename_i en
              have : n = name := by simpa using en
              injection hl with hl
              rw [← hl, this]
              simp [hlen]
            · cases hl
        · intro n info hl
          simp only [] at hl
          rw [lookup_append] at hl
          cases e : w.g.domains.lookup n with
          | some i =>
            rw [e] at hl
            simp at hl; subst hl
            have := h.info n i e
            exact ⟨this.mem, this.did, this.tables, this.tnodup⟩
          | none =>
            rw [e] at hl
            simp only [Option.none_or, List.lookup_cons, List.lookup_nil] at hl
            split at hl
            · injection hl with hl
              rw [← hl]
              exact ⟨by simp, by simp, rfl, by simp⟩
            · cases hl
        · intro n info hl
          refine ⟨info, ?_, rfl, fun _ _ h => h, fun _ => rfl⟩
          simp only []
          rw [lookup_append, hl]; rfl

/-! ## Properties -/

/-- What is true of a resolved property. -/
def IdxOk (g : Globals V) (d : PropDecl V) (i : PIndex) : Prop :=
  ∃ info, g.domains.lookup d.domain = some info ∧ info.id = i.domain ∧ info.name2did.lookup d.name = some i.did ∧
    g.name2gid.lookup d.name = some i.gid

theorem IdxOk.ext {g g' : Globals V} (h : Ext g g') {d : PropDecl V} {i : PIndex} (hi : IdxOk g d i) : IdxOk g' d i := by
  obtain ⟨info, a1, a2, a3, a4⟩ := hi
  obtain ⟨info', b1, b2, b3, -⟩ := h.dom _ _ a1
  exact ⟨info', b1, b2.trans a2, b3 _ _ a3, h.gid _ _ a4⟩

theorem IdxOk.unique {g : Globals V} {d : PropDecl V} {i j : PIndex} (hi : IdxOk g d i) (hj : IdxOk g d j) : i = j := by
  obtain ⟨info, a1, a2, a3, a4⟩ := hi
  obtain ⟨info', b1, b2, b3, b4⟩ := hj
  rw [a1] at b1; injection b1 with b1; subst b1
  rw [a3] at b3; injection b3 with b3
  rw [a4] at b4; injection b4 with b4
  rw [a2] at b2
  cases i; cases j; simp_all

/-- Two resolved properties share a place exactly if they have the same name. -/
theorem IdxOk.place {g : Globals V} (hg : GInv g) {d e : PropDecl V} {i j : PIndex} (hi : IdxOk g d i) (hj : IdxOk g e j) :
    (i.domain = j.domain ∧ i.did = j.did) → d.name = e.name := by
  rintro ⟨h1, h2⟩
  obtain ⟨info, a1, a2, a3, a4⟩ := hi
  obtain ⟨info', b1, b2, b3, b4⟩ := hj
  have hn : d.domain = e.domain := hg.id_inj a1 b1 (by omega)
  rw [hn] at a1
  rw [a1] at b1; injection b1 with b1; subst b1
  rw [h2] at a3
  exact (hg.info _ _ a1).did_inj hg a3 b3

theorem GInv.addName {g : Globals V} (h : GInv g) (name : String) (v : Σ t, V t) (hn : g.name2gid.lookup name = none) :
    GInv { g with name2gid := g.name2gid ++ [(name, g.producers.length)], producers := g.producers ++ [v] } ∧
    Ext g { g with name2gid := g.name2gid ++ [(name, g.producers.length)], producers := g.producers ++ [v] } := by
  refine ⟨⟨h.names, h.nodup, h.ids, ?_, ?_⟩, ⟨List.prefix_append _ _, ?_, List.prefix_rfl, ?_⟩⟩
  · simp [h.gids, List.range_succ]
  · intro n info hl
    have := h.info n info hl
    refine ⟨?_, ?_, this.tables, this.tnodup⟩
    · intro gid hgid
      have := this.mem gid hgid
      simp; omega
    · intro m d hd
      obtain ⟨gid, a1, a2⟩ := this.did m d hd
      exact ⟨gid, a1, by simp only []; rw [lookup_append, a2]; rfl⟩
  · intro n i hi
    simp only []
    rw [lookup_append, hi]; rfl
  · intro n info hl
    exact ⟨info, hl, rfl, fun _ _ h => h, fun _ => rfl⟩

theorem InfoInv.addMember {g : Globals V} {info : DomainInfo} (h : InfoInv g info) (name : String) (gid : Nat) (hlt : gid < g.producers.length)
    (hgid : g.name2gid.lookup name = some gid) :
    InfoInv g { info with
      name2did := if (info.name2did.lookup name).isSome then info.name2did else info.name2did ++ [(name, info.members.length)]
      members := info.members ++ [gid] } := by
  refine ⟨?_, ?_, h.tables, h.tnodup⟩
  · intro x hx
    simp only [List.mem_append, List.mem_singleton] at hx
    rcases hx with hx | rfl
    · exact h.mem x hx
    · exact hlt
  · intro m d hd
    simp only [] at hd ⊢
    have old : ∀ d, info.name2did.lookup m = some d → ∃ x, (info.members ++ [gid])[d]? = some x ∧ g.name2gid.lookup m = some x := by
      intro d hd
      obtain ⟨x, a1, a2⟩ := h.did m d hd
      refine ⟨x, ?_, a2⟩
      rw [List.getElem?_append_left (by
        by_contra hc
        rw [List.getElem?_eq_none (by omega)] at a1; cases a1)]
      exact a1
    split at hd
    · exact old d hd
    · rw [lookup_append] at hd
      cases e : info.name2did.lookup m with
      | some x => rw [e] at hd; simp at hd; subst hd; exact old _ e
      | none =>
        rw [e] at hd
        simp only [Option.none_or, List.lookup_cons, List.lookup_nil] at hd
        split at hd
        · rename_i en
          have : m = name := by simpa using en
          injection hd with hd
          subst hd; subst this
          exact ⟨gid, by simp, hgid⟩
        · cases hd

theorem registerProp_inv {decl : P → PropDecl V} {w : World P V} (h : GInv w.g) (hi : ∀ p i, w.idx p = some i → IdxOk w.g (decl p) i) (p : P) :
    GInv (w.registerProp decl p).2.g ∧ Ext w.g (w.registerProp decl p).2.g ∧
      (∀ q i, (w.registerProp decl p).2.idx q = some i → IdxOk (w.registerProp decl p).2.g (decl q) i) ∧
      (w.registerProp decl p).2.unis = w.unis := by
  unfold World.registerProp
  split
  · exact ⟨h, Ext.refl _, hi, rfl⟩
  · split
    · exact ⟨h, Ext.refl _, hi, rfl⟩
    · rename_i hidx
      simp only []
      split
      · exact ⟨h, Ext.refl _, hi, rfl⟩
      · split
        · exact ⟨h, Ext.refl _, hi, rfl⟩
        · rename_i info hinfo
          split
          · exact ⟨h, Ext.refl _, hi, rfl⟩
          · rename_i hlock
            -- the registry with the name known
            obtain ⟨g1, hg1, he1, hd1, hprod, hgid, hgdef⟩ : ∃ g1 : Globals V, GInv g1 ∧ Ext w.g g1 ∧ g1.domains = w.g.domains ∧
                ((w.g.name2gid.lookup (decl p).name).getD w.g.producers.length) < g1.producers.length ∧
                g1.name2gid.lookup (decl p).name = some ((w.g.name2gid.lookup (decl p).name).getD w.g.producers.length) ∧
                g1 = { w.g with
                  name2gid := if (w.g.name2gid.lookup (decl p).name).isSome then w.g.name2gid else w.g.name2gid ++ [((decl p).name, (w.g.name2gid.lookup (decl p).name).getD w.g.producers.length)]
                  producers := if (w.g.name2gid.lookup (decl p).name).isSome then w.g.producers else w.g.producers ++ [⟨(decl p).ty, (decl p).init⟩] } := by
              cases e : w.g.name2gid.lookup (decl p).name with
              | some x => exact ⟨w.g, h, Ext.refl _, rfl, h.gid_lt e, e, by simp⟩
              | none =>
                obtain ⟨a, b⟩ := h.addName (decl p).name ⟨(decl p).ty, (decl p).init⟩ e
                refine ⟨_, a, b, rfl, by simp, ?_, by simp⟩
                simp only []
                rw [lookup_append, e]
                simp
            rw [← hgdef]
            have hl1 : g1.domains.lookup (decl p).domain = some info := by rw [hd1]; exact hinfo
            have hdid : ∀ i : DomainInfo, g1.domains.lookup (decl p).domain = some i →
                (info.name2did.lookup (decl p).name).getD info.members.length = (i.name2did.lookup (decl p).name).getD i.members.length := by
              intro i hi'; rw [hl1] at hi'; injection hi' with hi'; subst hi'; rfl
            have key : ∀ i : DomainInfo, g1.domains.lookup (decl p).domain = some i →
                ({ i with
                  name2did := if (i.name2did.lookup (decl p).name).isSome then i.name2did else i.name2did ++ [((decl p).name, (info.name2did.lookup (decl p).name).getD info.members.length)]
                  members := i.members ++ [(w.g.name2gid.lookup (decl p).name).getD w.g.producers.length] } : DomainInfo) =
                { i with
                  name2did := if (i.name2did.lookup (decl p).name).isSome then i.name2did else i.name2did ++ [((decl p).name, i.members.length)]
                  members := i.members ++ [(w.g.name2gid.lookup (decl p).name).getD w.g.producers.length] } := by
              intro i hi'
              rw [hl1] at hi'; injection hi' with hi'; subst hi'
              cases e : info.name2did.lookup (decl p).name <;> simp
            have hg2 : GInv (g1.update (decl p).domain (fun i => { i with
                  name2did := if (i.name2did.lookup (decl p).name).isSome then i.name2did else i.name2did ++ [((decl p).name, (info.name2did.lookup (decl p).name).getD info.members.length)]
                  members := i.members ++ [(w.g.name2gid.lookup (decl p).name).getD w.g.producers.length] })) := by
              refine hg1.update _ _ (fun i => rfl) ?_
              intro i hi'
              rw [key i hi']
              exact (hg1.info _ _ hi').addMember _ _ hprod hgid
            have he2 : Ext g1 (g1.update (decl p).domain (fun i => { i with
                  name2did := if (i.name2did.lookup (decl p).name).isSome then i.name2did else i.name2did ++ [((decl p).name, (info.name2did.lookup (decl p).name).getD info.members.length)]
                  members := i.members ++ [(w.g.name2gid.lookup (decl p).name).getD w.g.producers.length] })) := by
              refine Ext.update _ _ _ ?_
              intro i hi'
              refine ⟨rfl, ?_, ?_⟩
              · intro m d hmd
                simp only []
                split
                · exact hmd
                · rw [lookup_append, hmd]; rfl
              · intro hl
                rw [hl1] at hi'; injection hi' with hi'; subst hi'
                exact absurd hl hlock
            refine ⟨hg2, he1.trans he2, ?_, rfl⟩
            intro q i hq
            simp only [] at hq
            by_cases hqp : q = p
            · subst hqp
              rw [Function.update_self] at hq
              injection hq with hq
              subst hq
              refine ⟨_, by rw [update_lookup, hl1]; rfl, ?_, ?_, hgid⟩
              · simp
              · simp only [if_true]
                cases e : info.name2did.lookup (decl q).name with
                | some x => simp [e]
                | none => simp [e, lookup_append]
            · rw [Function.update_of_ne hqp] at hq
              exact (hi q i hq).ext (he1.trans he2)

/-! ## Tables -/

theorem registerTable_inv {w : World P V} (h : GInv w.g) (t : GTable) :
    GInv (w.registerTable t).2.g ∧ Ext w.g (w.registerTable t).2.g ∧ (w.registerTable t).2.idx = w.idx ∧
      (w.registerTable t).2.unis = w.unis := by
  unfold World.registerTable
  split
  · exact ⟨h, Ext.refl _, rfl, rfl⟩
  · split
    · exact ⟨h, Ext.refl _, rfl, rfl⟩
    · split
      · exact ⟨h, Ext.refl _, rfl, rfl⟩
      · rename_i info hinfo
        split
        · exact ⟨h, Ext.refl _, rfl, rfl⟩
        · rename_i hlock
          split
          · rename_i hnone
            refine ⟨?_, ?_, rfl, rfl⟩
            · show GInv (w.g.update t.domain (fun info => { info with order := info.order ++ [t.name], tables := info.tables ++ [(t.name, t)] }))
              refine h.update _ _ (fun i => rfl) ?_
              intro i hi
              rw [hinfo] at hi; injection hi with hi; subst hi
              have := h.info _ _ hinfo
              refine ⟨this.mem, this.did, by simp [this.tables], ?_⟩
              simp only []
              rw [List.nodup_append]
              refine ⟨this.tnodup, by simp, ?_⟩
              intro a ha b hb
              simp at hb; subst hb
              rintro rfl
              rw [this.tables] at ha
              exact lookup_none_iff.1 hnone ha
            · show Ext w.g (w.g.update t.domain (fun info => { info with order := info.order ++ [t.name], tables := info.tables ++ [(t.name, t)] }))
              refine Ext.update _ _ _ ?_
              intro i hi
              rw [hinfo] at hi; injection hi with hi; subst hi
              exact ⟨rfl, fun _ _ h => h, fun hl => absurd hl hlock⟩
          · split
            · exact ⟨h, Ext.refl _, rfl, rfl⟩
            · exact ⟨h, Ext.refl _, rfl, rfl⟩

end V11
