import Verif.Lemmas.RegistryUni

/-!
# Every call preserves the invariant of the world
-/

set_option linter.unusedSimpArgs false
set_option linter.unusedSectionVars false
set_option linter.unusedVariables false

namespace V11

variable {Ty : Type} {V : Ty → Type} {P : Type} [DecidableEq P] {decl : P → PropDecl V}

/-- What is true of every reachable world. -/
structure WInv (decl : P → PropDecl V) (w : World P V) : Prop where
  g : GInv w.g
  idx : ∀ p i, w.idx p = some i → IdxOk w.g (decl p) i
  unis : ∀ u ∈ w.unis, UOk w.g u

theorem WInv.empty : WInv decl (World.empty : World P V) :=
  ⟨GInv.empty, by simp [World.empty], by simp [World.empty]⟩

/-- What a call does to the world apart from writing properties. -/
structure Grows (w w' : World P V) : Prop where
  ext : Ext w.g w'.g
  poisoned : w.poisoned = true → w'.poisoned = true
  idx : ∀ p i, w.idx p = some i → w'.idx p = some i
  unis : w.unis.length ≤ w'.unis.length

theorem Grows.refl (w : World P V) : Grows w w := ⟨Ext.refl _, fun h => h, fun _ _ h => h, le_refl _⟩

theorem Grows.trans {a b c : World P V} (h1 : Grows a b) (h2 : Grows b c) : Grows a c :=
  ⟨h1.ext.trans h2.ext, fun h => h2.poisoned (h1.poisoned h), fun p i h => h2.idx p i (h1.idx p i h), h1.unis.trans h2.unis⟩

theorem Grows.die {α : Type} (w : World P V) (p : Panic) : Grows w (w.die p : R α × World P V).2 :=
  ⟨Ext.refl _, fun _ => rfl, fun _ _ h => h, le_refl _⟩

theorem WInv.die {α : Type} {w : World P V} (h : WInv decl w) (p : Panic) : WInv decl (w.die p : R α × World P V).2 :=
  ⟨h.g, h.idx, h.unis⟩

/-- A property's cell in universe `k` keeps its contents. -/
def Keeps (w w' : World P V) (k : Nat) (i : PIndex) : Prop :=
  ∀ u v, w.unis[k]? = some u → cellOf u i = .ok v → ∃ u', w'.unis[k]? = some u' ∧ cellOf u' i = .ok v

theorem Keeps.refl (w : World P V) (k : Nat) (i : PIndex) : Keeps w w k i := fun u v h1 h2 => ⟨u, h1, h2⟩

theorem Keeps.ofEq {w w' : World P V} (h : w'.unis = w.unis) (k : Nat) (i : PIndex) : Keeps w w' k i :=
  fun u v h1 h2 => ⟨u, by rw [h]; exact h1, h2⟩

theorem Keeps.trans {a b c : World P V} {k : Nat} {i : PIndex} (h1 : Keeps a b k i) (h2 : Keeps b c k i) : Keeps a c k i := by
  intro u v e1 e2
  obtain ⟨u1, a1, a2⟩ := h1 u v e1 e2
  exact h2 u1 v a1 a2

/-! ## Registration -/

theorem registerDomain_step {w : World P V} (h : WInv decl w) (name : String) :
    WInv decl (w.registerDomain name).2 ∧ Grows w (w.registerDomain name).2 ∧ (w.registerDomain name).2.unis = w.unis := by
  obtain ⟨a1, a2, a3, a4⟩ := registerDomain_inv h.g name
  refine ⟨⟨a1, ?_, ?_⟩, ⟨a2, ?_, ?_, by rw [a4]⟩, a4⟩
  · intro p i hp
    rw [a3] at hp
    exact (h.idx p i hp).ext a2
  · rw [a4]
    exact fun u hu => (h.unis u hu).ext h.g a2
  · unfold World.registerDomain
    intro hp
    split
    · exact hp
    · rw [hp]; exact hp
  · intro p i hp; rw [a3]; exact hp

theorem registerProp_step {w : World P V} (h : WInv decl w) (p : P) :
    WInv decl (w.registerProp decl p).2 ∧ Grows w (w.registerProp decl p).2 ∧ (w.registerProp decl p).2.unis = w.unis := by
  obtain ⟨a1, a2, a3, a4⟩ := registerProp_inv h.g h.idx p
  refine ⟨⟨a1, a3, ?_⟩, ⟨a2, ?_, ?_, by rw [a4]⟩, a4⟩
  · rw [a4]
    exact fun u hu => (h.unis u hu).ext h.g a2
  · unfold World.registerProp
    intro hp
    rw [hp]; exact hp
  · intro q i hq
    unfold World.registerProp
    split
    · exact hq
    · split
      · exact hq
      · rename_i hn
        have hqp : q ≠ p := by rintro rfl; rw [hq] at hn; cases hn
        simp only []
        split
        · exact hq
        · split
          · exact hq
          · split
            · exact hq
            · simp only []
              rw [Function.update_of_ne hqp]; exact hq

theorem registerTable_step {w : World P V} (h : WInv decl w) (t : GTable) :
    WInv decl (w.registerTable t).2 ∧ Grows w (w.registerTable t).2 ∧ (w.registerTable t).2.unis = w.unis := by
  obtain ⟨a1, a2, a3, a4⟩ := registerTable_inv h.g t
  refine ⟨⟨a1, ?_, ?_⟩, ⟨a2, ?_, ?_, by rw [a4]⟩, a4⟩
  · intro p i hp
    rw [a3] at hp
    exact (h.idx p i hp).ext a2
  · rw [a4]
    exact fun u hu => (h.unis u hu).ext h.g a2
  · unfold World.registerTable
    intro hp
    split
    · exact hp
    · rw [hp]; exact hp
  · intro p i hp; rw [a3]; exact hp

/-! ## Universes -/

theorem unset_ok {g : Globals V} : UOk g (g.did2name.map .unset) := by
  refine ⟨by simp, ?_, ?_⟩
  · intro k n h
    rw [List.getElem?_map] at h
    cases e : g.did2name[k]? with
    | none => rw [e] at h; cases h
    | some m => rw [e] at h; simp at h; rw [h]
  · intro k d h
    rw [List.getElem?_map] at h
    cases e : g.did2name[k]? with
    | none => rw [e] at h; cases h
    | some m => rw [e] at h; simp at h

theorem newUniverse_step {w : World P V} (h : WInv decl w) (names : List String) :
    WInv decl (w.newUniverse names).2 ∧ Grows w (w.newUniverse names).2 ∧
      ((w.newUniverse names).2.unis = w.unis ∨ ∃ u, (w.newUniverse names).2.unis = w.unis ++ [u]) := by
  unfold World.newUniverse
  split
  · exact ⟨h, Grows.refl _, Or.inl rfl⟩
  · rename_i hp
    have := getDomains_inv h.g (unset_ok (g := w.g)) (by simp) names
    split
    · exact ⟨h.die _, Grows.die _ _, Or.inl rfl⟩
    · rename_i u g' e
      rw [e] at this
      obtain ⟨b1, b2, b3, b4, b5, b6, b7, b8⟩ := this
      have hw : WInv decl ({ w with g := g' } : World P V) :=
        ⟨b1, fun p i hpi => (h.idx p i hpi).ext b2, fun u hu => (h.unis u hu).ext h.g b2⟩
      obtain ⟨c1, c2, -⟩ := initDomains_inv (w := ({ w with g := g' } : World P V)) b1 names b3
      simp only []
      split
      · rename_i u' e'
        rw [e'] at c1
        refine ⟨⟨hw.g, hw.idx, ?_⟩, ⟨b2, fun h => h, fun _ _ h => h, by simp⟩, Or.inr ⟨u', rfl⟩⟩
        intro x hx
        simp only [List.mem_append, List.mem_singleton] at hx
        rcases hx with hx | rfl
        · exact hw.unis x hx
        · exact c1
      · exact ⟨hw, ⟨b2, fun h => h, fun _ _ h => h, le_refl _⟩, Or.inl rfl⟩

theorem UOk.append_unset {g : Globals V} {u : List (MaybeDomain V)} (hu : UOk g u) : UOk g (u ++ (g.did2name.drop u.length).map .unset) := by
  have hlen : u.length + (g.did2name.length - u.length) = g.did2name.length := by have := hu.len; omega
  refine ⟨by simp; omega, ?_, ?_⟩
  · intro k n h
    by_cases hk : k < u.length
    · rw [List.getElem?_append_left hk] at h; exact hu.unset k n h
    · rw [List.getElem?_append_right (by omega), List.getElem?_map, List.getElem?_drop] at h
      rw [show u.length + (k - u.length) = k by omega] at h
      cases e : g.did2name[k]? with
      | none => rw [e] at h; cases h
      | some m => rw [e] at h; simp at h; rw [h]
  · intro k d h
    by_cases hk : k < u.length
    · rw [List.getElem?_append_left hk] at h; exact hu.inst k d h
    · rw [List.getElem?_append_right (by omega), List.getElem?_map] at h
      cases e : (g.did2name.drop u.length)[k - u.length]? with
      | none => rw [e] at h; cases h
      | some m => rw [e] at h; simp at h

/-- The properties in a universe's domains stay. -/
def SameProps (u u' : List (MaybeDomain V)) : Prop :=
  ∀ (k : Nat) (d : Instance V), u[k]? = some (MaybeDomain.domain d) → ∃ d', u'[k]? = some (MaybeDomain.domain d') ∧ d'.props = d.props

theorem SameProps.refl (u : List (MaybeDomain V)) : SameProps u u := fun k d h => ⟨d, h, rfl⟩

theorem SameProps.trans {a b c : List (MaybeDomain V)} (h1 : SameProps a b) (h2 : SameProps b c) : SameProps a c := by
  intro k d h
  obtain ⟨d1, a1, a2⟩ := h1 k d h
  obtain ⟨d2, b1, b2⟩ := h2 k d1 a1
  exact ⟨d2, b1, b2.trans a2⟩

theorem SameProps.cell {u u' : List (MaybeDomain V)} (h : SameProps u u') {i : PIndex} {v : Σ t, V t} (hc : cellOf u i = .ok v) : cellOf u' i = .ok v := by
  unfold cellOf at hc ⊢
  split at hc
  · rename_i d hd
    obtain ⟨d', a1, a2⟩ := h _ _ hd
    rw [a1]
    simp only []
    rw [a2]
    exact hc
  · cases hc

theorem modTable_same (u : List (MaybeDomain V)) (did : Nat) (table : String) (f : TableInst → TableInst) : SameProps u (modTable u did table f) := by
  intro k d hd
  unfold modTable
  rw [List.getElem?_modify, hd]
  by_cases hk : did = k
  · exact ⟨d.modTable table f, by simp [hk], rfl⟩
  · exact ⟨d, by simp [hk], rfl⟩

theorem register_same (w : World P V) (u : List (MaybeDomain V)) (r : Reg) : SameProps u (w.register u r).2 := by
  rcases register_shape w u r with h | ⟨did, f, -, h⟩
  · rw [h]; exact SameProps.refl _
  · rw [h]; exact modTable_same _ _ _ _

theorem registerAll_same {w : World P V} (rs : List Reg) (u : List (MaybeDomain V)) : SameProps u (w.registerAll u rs).2 := by
  induction rs generalizing u with
  | nil => exact SameProps.refl _
  | cons r rs ih =>
    unfold World.registerAll
    have hs := register_same w u r
    rcases h : w.register u r with ⟨e, u1⟩
    rw [h] at hs
    cases e with
    | some p => exact hs
    | none => exact SameProps.trans hs (ih u1)

theorem initDomain_same {w : World P V} (u : List (MaybeDomain V)) (n : String) : SameProps u (w.initDomain u n).2 := by
  unfold World.initDomain
  split
  · exact SameProps.refl _
  · split
    · exact registerAll_same _ _
    · exact SameProps.refl _
    · exact SameProps.refl _

theorem initDomains_same {w : World P V} (ns : List String) (u : List (MaybeDomain V)) : SameProps u (w.initDomains u ns).2 := by
  induction ns generalizing u with
  | nil => exact SameProps.refl _
  | cons n ns ih =>
    unfold World.initDomains
    have := initDomain_same (w := w) u n
    rcases e : w.initDomain u n with ⟨p, u1⟩
    rw [e] at this
    cases p with
    | some p => exact this
    | none => exact SameProps.trans this (ih u1)

theorem Keeps.set {w w' : World P V} {k : Nat} {u u' : List (MaybeDomain V)} (hk : w.unis[k]? = some u) (hs : SameProps u u')
    (hw : w'.unis = w.unis.set k u') (k' : Nat) (i : PIndex) : Keeps w w' k' i := by
  intro x v h1 h2
  rw [hw]
  by_cases e : k = k'
  · subst e
    rw [hk] at h1; injection h1 with h1; subst h1
    refine ⟨u', ?_, hs.cell h2⟩
    rw [List.getElem?_set]
    have : k < w.unis.length := by
      by_contra hc
      rw [List.getElem?_eq_none (by omega)] at hk; cases hk
    simp [this]
  · exact ⟨x, by rw [List.getElem?_set_ne e]; exact h1, h2⟩

theorem WInv.setUni {w : World P V} (h : WInv decl w) (k : Nat) {u : List (MaybeDomain V)} (hu : UOk w.g u) :
    WInv decl ({ w with unis := w.unis.set k u } : World P V) := by
  refine ⟨h.g, h.idx, ?_⟩
  intro x hx
  rcases List.mem_or_eq_of_mem_set hx with hx | rfl
  · exact h.unis x hx
  · exact hu

theorem addDomain_step {w : World P V} (h : WInv decl w) (k : Nat) (name : String) :
    WInv decl (w.addDomain k name).2 ∧ Grows w (w.addDomain k name).2 ∧ ∀ k' i, Keeps w (w.addDomain k name).2 k' i := by
  unfold World.addDomain
  split
  · exact ⟨h, Grows.refl _, Keeps.refl _⟩
  · rename_i u hk
    have hu := h.unis u (List.mem_of_getElem? hk)
    split
    · exact ⟨h, Grows.refl _, Keeps.refl _⟩
    · rename_i u1 hs
      have hu1e : u1 = u ++ (w.g.did2name.drop u.length).map .unset := by
        unfold World.synced at hs
        split at hs
        · cases hs
        · split at hs
          · injection hs with hs; exact hs.symm
          · cases hs
      have hu1 : UOk w.g u1 := by rw [hu1e]; exact hu.append_unset
      have hsame : SameProps u u1 := by
        intro j d hd
        refine ⟨d, ?_, rfl⟩
        rw [hu1e]
        exact prefix_get (List.prefix_append _ _) hd
      have hw1 : WInv decl ({ w with unis := w.unis.set k u1 } : World P V) := h.setUni k hu1
      have hgr1 : Grows w ({ w with unis := w.unis.set k u1 } : World P V) := ⟨Ext.refl _, fun h => h, fun _ _ h => h, by simp⟩
      have hkp1 : ∀ k' i, Keeps w ({ w with unis := w.unis.set k u1 } : World P V) k' i := Keeps.set hk hsame rfl
      simp only []
      split
      · exact ⟨hw1, hgr1, hkp1⟩
      · rename_i id hid
        split
        · exact ⟨hw1, hgr1, hkp1⟩
        · rename_i m hm
          split
          · exact ⟨hw1, hgr1, hkp1⟩
          · rename_i hset
            have hl : ∃ info, w.g.domains.lookup name = some info ∧ info.id = id := by
              unfold World.getId at hid
              split at hid
              · cases hid
              · split at hid
                · rename_i info hl; injection hid with hid; exact ⟨info, hl, hid⟩
                · cases hid
            obtain ⟨info, hl, hidd⟩ := hl
            subst hidd
            obtain ⟨inst, a1, a2, a3, a4, -⟩ := instantiate_ok h.g hl
            rw [a1]
            simp only []
            have hu2 : UOk (w.g.update name (fun i => { i with locked := true })) (u1.set info.id (.domain inst)) := (hu1.ext h.g a3).set _ a4
            have hsame2 : SameProps u1 (u1.set info.id (.domain inst)) := by
              intro j d hd
              by_cases e : info.id = j
              · subst e
                rw [hm] at hd
                injection hd with hd
                subst hd
                simp [MaybeDomain.isSet] at hset
              · exact ⟨d, by rw [List.getElem?_set_ne e]; exact hd, rfl⟩
            have hw2 : WInv decl ({ w with unis := w.unis.set k u1, g := w.g.update name (fun i => { i with locked := true }) } : World P V) :=
              ⟨a2, fun p i hpi => (h.idx p i hpi).ext a3, fun x hx => (hw1.unis x hx).ext h.g a3⟩
            obtain ⟨b1, b2, -⟩ := initDomain_inv (w := ({ w with unis := w.unis.set k u1, g := w.g.update name (fun i => { i with locked := true }) } : World P V)) a2 hu2 name
            have hs3 := initDomain_same (w := ({ w with unis := w.unis.set k u1, g := w.g.update name (fun i => { i with locked := true }) } : World P V)) (u1.set info.id (.domain inst)) name
            have hset2 : (w.unis.set k u1).set k = fun x => w.unis.set k x := by funext x; simp
            split
            · rename_i u3 e3
              rw [e3] at b1 hs3
              refine ⟨?_, ⟨a3, fun h => h, fun _ _ h => h, by simp⟩, ?_⟩
              · exact hw2.setUni k b1
              · exact Keeps.set hk (hsame.trans (hsame2.trans hs3)) (by simp)
            · rename_i p u3 e3
              rw [e3] at b1 hs3
              refine ⟨?_, ⟨a3, fun h => h, fun _ _ h => h, by simp⟩, ?_⟩
              · exact hw2.setUni k b1
              · exact Keeps.set hk (hsame.trans (hsame2.trans hs3)) (by simp)

/-- Every instantiated domain has all its properties already. -/
theorem InstOk.full {g : Globals V} {k : Nat} {d : Instance V} {info : DomainInfo} (h : InstOk g k d info) : d.props.length = info.members.length := by
  have := congrArg List.length h.types
  simpa using this

theorem addProperties_inst {g : Globals V} {k : Nat} {d : Instance V} {info : DomainInfo} (h : InstOk g k d info) : d.addProperties g = .ok d := by
  unfold Instance.addProperties
  rw [h.look]
  simp only []
  rw [List.drop_eq_nil_of_le (by rw [h.full])]
  show (.ok { d with props := d.props ++ [] } : R (Instance V)) = _
  rw [List.append_nil]

theorem mapM_same {α : Type} (l : List α) (f : α → R α) (h : ∀ a ∈ l, f a = .ok a) : l.mapM f = .ok l := by
  induction l with
  | nil => rfl
  | cons a l ih =>
    rw [List.mapM_cons, h a (by simp), ih (fun b hb => h b (by simp [hb]))]
    rfl

/-- `add_properties` never finds anything to add. -/
theorem addProperties_noop {w : World P V} (h : WInv decl w) (k : Nat) : (w.addProperties k).2 = w ∧
    ((w.addProperties k).1 = .ok () ↔ k < w.unis.length ∧ w.poisoned = false) := by
  unfold World.addProperties
  split
  · rename_i hk
    refine ⟨rfl, ?_⟩
    have : ¬ k < w.unis.length := by
      intro hc; rw [List.getElem?_eq_getElem hc] at hk; cases hk
    simp [this]
  · rename_i u hk
    have hlt : k < w.unis.length := by
      by_contra hc
      rw [List.getElem?_eq_none (by omega)] at hk; cases hk
    split
    · rename_i hp; exact ⟨rfl, by simp [hp]⟩
    · rename_i hp
      have hu := h.unis u (List.mem_of_getElem? hk)
      have : u.mapM (fun m => m.addProperties w.g) = .ok u := by
        refine mapM_same _ _ ?_
        intro m hm
        obtain ⟨j, hj, rfl⟩ := List.mem_iff_getElem.1 hm
        cases e : u[j] with
        | unset n => rfl
        | domain d =>
          obtain ⟨info, hi⟩ := hu.inst j d (by rw [List.getElem?_eq_getElem hj, e])
          unfold MaybeDomain.addProperties
          simp only []
          rw [addProperties_inst hi]
          rfl
      rw [this]
      simp only []
      have hset : w.unis.set k u = w.unis := by
        apply List.ext_getElem?
        intro j
        rw [List.getElem?_set]
        split
        · rename_i e; subst e; exact hk.symm
        · rfl
      rw [hset]
      exact ⟨rfl, by simp [hlt, hp]⟩

/-! ## Properties -/

theorem resolve_step {w : World P V} (h : WInv decl w) (p : P) :
    WInv decl (w.resolve decl p).2 ∧ Grows w (w.resolve decl p).2 ∧ (w.resolve decl p).2.unis = w.unis ∧ (w.resolve decl p).2.g = w.g ∧
      ∀ i, (w.resolve decl p).1 = .ok i → IdxOk w.g (decl p) i ∧ (w.resolve decl p).2.idx p = some i := by
  unfold World.resolve
  split
  · rename_i i hi
    exact ⟨h, Grows.refl _, rfl, rfl, fun j hj => by injection hj with hj; subst hj; exact ⟨h.idx p i hi, hi⟩⟩
  · rename_i hnone
    unfold World.syncAlias
    split
    · exact ⟨h, Grows.refl _, rfl, rfl, by simp⟩
    · split
      · exact ⟨h.die _, Grows.die _ _, rfl, rfl, by simp [World.die]⟩
      · rename_i info hinfo
        split
        · exact ⟨h.die _, Grows.die _ _, rfl, rfl, by simp [World.die]⟩
        · rename_i gid hgid
          split
          · exact ⟨h.die _, Grows.die _ _, rfl, rfl, by simp [World.die]⟩
          · rename_i did hdid
            have hok : IdxOk w.g (decl p) { domain := info.id, did := did, gid := gid } := ⟨info, hinfo, rfl, hdid, hgid⟩
            refine ⟨⟨h.g, ?_, h.unis⟩, ⟨Ext.refl _, fun h => h, ?_, le_refl _⟩, rfl, rfl, ?_⟩
            · intro q i hq
              simp only [] at hq
              by_cases e : q = p
              · subst e
                rw [Function.update_self] at hq; injection hq with hq; subst hq; exact hok
              · rw [Function.update_of_ne e] at hq; exact h.idx q i hq
            · intro q i hq
              have e : q ≠ p := by rintro rfl; rw [hq] at hnone; cases hnone
              simp only []
              rw [Function.update_of_ne e]; exact hq
            · intro i hi
              injection hi with hi
              subst hi
              exact ⟨hok, by simp⟩

/-- The cell of a resolved property has a fixed type; it exists if the universe has the domain. -/
theorem cellOf_inv {w : World P V} {u : List (MaybeDomain V)} (hg : GInv w.g) (hu : UOk w.g u) {d : PropDecl V} {i : PIndex} (hi : IdxOk w.g d i) :
    cellOf u i = .error .domainNotInUniverse ∨ ∃ inst v, u[i.domain]? = some (.domain inst) ∧ inst.props[i.did]? = some v ∧ cellOf u i = .ok v ∧
      w.g.producers[i.gid]?.map Sigma.fst = some v.1 := by
  unfold cellOf
  split
  · rename_i inst hinst
    right
    obtain ⟨info, hio⟩ := hu.inst _ _ hinst
    obtain ⟨info', a1, a2, a3, a4⟩ := hi
    have hn : inst.name = d.domain := hg.id_inj hio.look a1 (by rw [hio.id, a2])
    have e : info' = info := by
      have := hio.look
      rw [hn, a1] at this
      injection this
    subst e
    obtain ⟨gid, b1, b2⟩ := (hg.info _ _ a1).did _ _ a3
    rw [a4] at b2; injection b2 with b2; subst b2
    have := congrArg (·[i.did]?) hio.types
    simp only [List.getElem?_map, b1, Option.map_some] at this
    cases hv : inst.props[i.did]? with
    | none => rw [hv] at this; simp at this
    | some v =>
      rw [hv] at this
      simp only [Option.map_some, Option.some.injEq] at this
      exact ⟨inst, v, hinst, hv, rfl, this.symm⟩
  · exact Or.inl rfl

theorem putCell_ok {g : Globals V} {u : List (MaybeDomain V)} (hu : UOk g u) {i : PIndex} {v v' : Σ t, V t} (hc : cellOf u i = .ok v) (ht : v'.1 = v.1) :
    UOk g (putCell u i v') := by
  unfold putCell
  refine hu.modify _ _ (fun _ => rfl) ?_
  intro d info hdu hd
  refine ⟨_, rfl, ?_⟩
  have hv : d.props[i.did]? = some v := by
    unfold cellOf at hc
    rw [hdu] at hc
    simp only [] at hc
    split at hc
    · rename_i x hx; injection hc with hc; subst hc; exact hx
    · cases hc
  refine ⟨hd.name, hd.look, hd.id, hd.locked, ?_, hd.order, hd.tables⟩
  rw [← hd.types]
  simp only [List.map_set]
  apply List.ext_getElem?
  intro j
  rw [List.getElem?_set]
  split
  · rename_i e; subst e
    rw [List.getElem?_map, hv]
    split
    · simp [ht]
    · rename_i hlt
      have : i.did < d.props.length := by
        by_contra hc'
        rw [List.getElem?_eq_none (by omega)] at hv; cases hv
      simp at hlt; omega
  · rfl

/-- What a write does to the cells of its universe. -/
theorem cellOf_putCell {u : List (MaybeDomain V)} {i : PIndex} {v v' : Σ t, V t} (hc : cellOf u i = .ok v) (j : PIndex) :
    cellOf (putCell u i v') j = if j.domain = i.domain ∧ j.did = i.did then .ok v' else cellOf u j := by
  unfold cellOf at hc
  split at hc
  · rename_i d hd
    split at hc
    · rename_i x hx
      unfold putCell cellOf
      rw [List.getElem?_modify]
      by_cases e1 : j.domain = i.domain
      · rw [e1, hd]
        simp only [if_true, Option.map_eq_map, Option.map_some, true_and]
        rw [List.getElem?_set]
        by_cases e2 : j.did = i.did
        · have hlt : i.did < d.props.length := by
            by_contra hc'
            rw [List.getElem?_eq_none (by omega)] at hx; cases hx
          simp [e2, hlt]
        · rw [if_neg (Ne.symm e2), if_neg e2]
      · simp only [Ne.symm e1, e1, if_false, false_and]
        cases u[j.domain]? with
        | none => rfl
        | some m => rfl
    · cases hc
  · cases hc

section
variable [DecidableEq Ty]

theorem downcast_ok {t : Ty} {v : Σ t, V t} {x : V t} (h : downcast t v = .ok x) : v = ⟨t, x⟩ := by
  obtain ⟨a, b⟩ := v
  unfold downcast at h
  split at h
  · rename_i e
    simp only [] at e
    subst e
    injection h with h
    subst h
    rfl
  · cases h

theorem downcast_same (t : Ty) (x : V t) : downcast t (⟨t, x⟩ : Σ t, V t) = .ok x := by
  unfold downcast
  rw [dif_pos rfl]

theorem get_step {w : World P V} (h : WInv decl w) (k : Nat) (p : P) :
    WInv decl (w.get decl k p).2 ∧ Grows w (w.get decl k p).2 ∧ (w.get decl k p).2.unis = w.unis ∧ (w.get decl k p).2.g = w.g := by
  unfold World.get
  split
  · exact ⟨h, Grows.refl _, rfl, rfl⟩
  · obtain ⟨a1, a2, a3, a4, -⟩ := resolve_step h p
    rcases e : w.resolve decl p with ⟨r, w1⟩
    rw [e] at a1 a2 a3 a4
    cases r with
    | error x => exact ⟨a1, a2, a3, a4⟩
    | ok i =>
      simp only []
      split
      · exact ⟨a1, a2, a3, a4⟩
      · exact ⟨a1, a2, a3, a4⟩

/-- A successful read is of the cell the property resolves to. -/
theorem get_ok {w : World P V} (h : WInv decl w) {k : Nat} {p : P} {v : V (decl p).ty} (hg : (w.get decl k p).1 = .ok v) :
    ∃ u i, w.unis[k]? = some u ∧ (w.resolve decl p).1 = .ok i ∧ IdxOk w.g (decl p) i ∧ cellOf u i = .ok ⟨_, v⟩ := by
  unfold World.get at hg
  split at hg
  · cases hg
  · rename_i u hu
    obtain ⟨-, -, -, -, a5⟩ := resolve_step h p
    rcases e : w.resolve decl p with ⟨r, w1⟩
    rw [e] at hg a5
    cases r with
    | error x => cases hg
    | ok i =>
      simp only [] at hg
      cases ec : cellOf u i with
      | error x => rw [ec] at hg; cases hg
      | ok c =>
        rw [ec] at hg
        simp only [] at hg
        exact ⟨u, i, hu, rfl, (a5 i rfl).1, by rw [ec, downcast_ok hg]⟩

theorem get_of {w : World P V} {k : Nat} {p : P} {u : List (MaybeDomain V)} {i : PIndex} {v : V (decl p).ty} (hu : w.unis[k]? = some u)
    (hr : (w.resolve decl p).1 = .ok i) (hc : cellOf u i = .ok ⟨_, v⟩) : (w.get decl k p).1 = .ok v := by
  unfold World.get
  rw [hu]
  simp only []
  rcases e : w.resolve decl p with ⟨r, w1⟩
  rw [e] at hr
  simp only [] at hr
  subst hr
  simp only []
  rw [hc]
  exact downcast_same _ _

theorem swap_step {w : World P V} (h : WInv decl w) (k : Nat) (p : P) (val : V (decl p).ty) :
    WInv decl (w.swap decl k p val).2 ∧ Grows w (w.swap decl k p val).2 ∧ (w.swap decl k p val).2.g = w.g ∧
      ((∃ e, (w.swap decl k p val).1 = .error e ∧ (w.swap decl k p val).2.unis = w.unis) ∨
       ∃ u i old, w.unis[k]? = some u ∧ (w.resolve decl p).1 = .ok i ∧ IdxOk w.g (decl p) i ∧ (w.swap decl k p val).2.idx p = some i ∧
         cellOf u i = .ok ⟨_, old⟩ ∧
         (w.swap decl k p val).1 = .ok old ∧ (w.swap decl k p val).2.unis = w.unis.set k (putCell u i ⟨_, val⟩)) := by
  unfold World.swap
  cases hk : w.unis[k]? with
  | none => exact ⟨h, Grows.refl _, rfl, Or.inl ⟨_, rfl, rfl⟩⟩
  | some u =>
    simp only []
    obtain ⟨a1, a2, a3, a4, a5⟩ := resolve_step h p
    rcases e : w.resolve decl p with ⟨r, w1⟩
    rw [e] at a1 a2 a3 a4 a5
    cases r with
    | error x => exact ⟨a1, a2, a4, Or.inl ⟨_, rfl, a3⟩⟩
    | ok i =>
      simp only [] at a1 a2 a3 a4 a5 ⊢
      obtain ⟨b1, b2⟩ := a5 i rfl
      cases ec : cellOf u i with
      | error x => exact ⟨a1, a2, a4, Or.inl ⟨_, rfl, a3⟩⟩
      | ok c =>
        simp only []
        cases ed : downcast (decl p).ty c with
        | error x => exact ⟨a1, a2, a4, Or.inl ⟨_, rfl, a3⟩⟩
        | ok old =>
          simp only []
          have hc := downcast_ok ed
          subst hc
          refine ⟨?_, ?_, a4, Or.inr ⟨u, i, old, rfl, rfl, b1, b2, ec, rfl, by rw [a3]⟩⟩
          · refine a1.setUni k (putCell_ok ?_ ec rfl)
            exact a1.unis u (by rw [a3]; exact List.mem_of_getElem? hk)
          · exact ⟨a2.ext, a2.poisoned, a2.idx, by simpa using a2.unis⟩

theorem set_snd {w : World P V} (k : Nat) (p : P) (val : V (decl p).ty) : (w.set decl k p val).2 = (w.swap decl k p val).2 := by
  unfold World.set
  rcases w.swap decl k p val with ⟨r, w'⟩
  cases r <;> rfl

theorem set_fst {w : World P V} (k : Nat) (p : P) (val : V (decl p).ty) :
    (w.set decl k p val).1 = (w.swap decl k p val).1.map (fun _ => ()) := by
  unfold World.set
  rcases w.swap decl k p val with ⟨r, w'⟩
  cases r <;> rfl

/-- At most the trackers and the lock of one table changed. -/
def Touch (w w' : World P V) : Prop :=
  w' = w ∨ ∃ k u did table f, w.unis[k]? = some u ∧
    (∀ x, (TableInst.gt (f x)) = x.gt ∧ (x.poisoned = true → (f x).poisoned = true)) ∧ w' = { w with unis := w.unis.set k (modTable u did table f) }

theorem Touch.inv {w w' : World P V} (h : WInv decl w) (ht : Touch w w') : WInv decl w' ∧ Grows w w' ∧ w'.g = w.g ∧
    w'.poisoned = w.poisoned ∧ ∀ k i, Keeps w w' k i := by
  rcases ht with rfl | ⟨k, u, did, table, f, hk, hf, rfl⟩
  · exact ⟨h, Grows.refl _, rfl, rfl, Keeps.refl _⟩
  · exact ⟨h.setUni k (modTable_inv (h.unis u (List.mem_of_getElem? hk)) _ _ (fun x => (hf x).1)), ⟨Ext.refl _, fun h => h, fun _ _ h => h, by simp⟩, rfl, rfl,
      Keeps.set hk (modTable_same _ _ _ _) rfl⟩

theorem openTable_touch (w : World P V) (k : Nat) (m : GTable) (write tolerant : Bool) : Touch w (w.openTable k m write tolerant).2 := by
  unfold World.openTable
  split
  · exact Or.inl rfl
  · rename_i u hk
    split
    · exact Or.inl rfl
    · split
      · exact Or.inl rfl
      · split
        · cases write
          · exact Or.inl rfl
          · exact Or.inr ⟨k, u, _, _, TableInst.poison, hk, fun _ => ⟨rfl, fun _ => rfl⟩, rfl⟩
        · split <;> exact Or.inl rfl

/-- What `panicWriting` comes to. -/
theorem panicWriting_eq (w : World P V) (k : Nat) (m : GTable) (tolerant : Bool) :
    w.panicWriting k m tolerant = match (w.openTable k m true tolerant).1 with
      | .error p => (.error p, (w.openTable k m true tolerant).2)
      | .ok _ =>
        match w.unis[k]?, w.getId m.domain with
        | some u, .ok did => (.error .userPanic, { w with unis := w.unis.set k (modTable u did m.name TableInst.poison) })
        | _, _ => (.error .vecOob, w) := by
  have hw : ∀ x, (w.openTable k m true tolerant).1 = .ok x → (w.openTable k m true tolerant).2 = w := by
    intro x hx
    unfold World.openTable at hx ⊢
    split
    · rfl
    · rename_i u hk
      rw [hk] at hx
      simp only [] at hx
      split
      · rfl
      · rename_i did hd
        rw [hd] at hx
        simp only [] at hx
        split
        · rfl
        · rename_i t ht
          rw [ht] at hx
          simp only [] at hx
          split
          · rename_i hc
            rw [hc] at hx
            cases hx
          · split <;> rfl
  unfold World.panicWriting
  rcases e : w.openTable k m true tolerant with ⟨r, w1⟩
  rw [e] at hw
  cases r with
  | error p => rfl
  | ok x =>
    have := hw x rfl
    simp only [] at this
    subst this
    rfl

theorem panicWriting_touch (w : World P V) (k : Nat) (m : GTable) (tolerant : Bool) : Touch w (w.panicWriting k m tolerant).2 := by
  rw [panicWriting_eq]
  split
  · exact openTable_touch _ _ _ _ _
  · split
    · rename_i u did hk hd
      exact Or.inr ⟨k, u, did, _, TableInst.poison, hk, fun _ => ⟨rfl, fun _ => rfl⟩, rfl⟩
    · exact Or.inl rfl

theorem registerTracker_touch (w : World P V) (k : Nat) (r : Reg) : Touch w (w.registerTracker k r).2 := by
  unfold World.registerTracker
  split
  · exact Or.inl rfl
  · rename_i u hk
    have hsh := register_shape w u r
    have : Touch w ({ w with unis := w.unis.set k (w.register u r).2 } : World P V) := by
      rcases hsh with h | ⟨did, f, hf, h⟩
      · left
        rw [h]
        have : w.unis.set k u = w.unis := by
          apply List.ext_getElem?
          intro j
          rw [List.getElem?_set]
          split
          · rename_i e; subst e; split
            · exact hk.symm
            · rename_i hn; rw [List.getElem?_eq_none (by omega)]
          · rfl
        rw [this]
      · exact Or.inr ⟨k, u, did, _, f, hk, hf, by rw [h]⟩
    rcases e : w.register u r with ⟨p, u1⟩
    rw [e] at this
    cases p <;> exact this

/-- Every call keeps the invariant, and the registry only grows. -/
theorem step_inv {w : World P V} (h : WInv decl w) (op : ROp decl) : WInv decl (w.step decl op).2 ∧ Grows w (w.step decl op).2 := by
  cases op with
  | registerDomain n => exact ⟨(registerDomain_step h n).1, (registerDomain_step h n).2.1⟩
  | registerProp p => exact ⟨(registerProp_step h p).1, (registerProp_step h p).2.1⟩
  | registerTable t => exact ⟨(registerTable_step h t).1, (registerTable_step h t).2.1⟩
  | newUniverse ns => exact ⟨(newUniverse_step h ns).1, (newUniverse_step h ns).2.1⟩
  | addDomain k n => exact ⟨(addDomain_step h k n).1, (addDomain_step h k n).2.1⟩
  | addProperties k =>
    show WInv decl (w.addProperties k).2 ∧ Grows w (w.addProperties k).2
    rw [(addProperties_noop h k).1]; exact ⟨h, Grows.refl _⟩
  | get k p => exact ⟨(get_step h k p).1, (get_step h k p).2.1⟩
  | set k p v =>
    show WInv decl (w.set decl k p v).2 ∧ Grows w (w.set decl k p v).2
    rw [set_snd]; exact ⟨(swap_step h k p v).1, (swap_step h k p v).2.1⟩
  | swap k p v => exact ⟨(swap_step h k p v).1, (swap_step h k p v).2.1⟩
  | openTable k m b t => exact ⟨(Touch.inv h (openTable_touch w k m b t)).1, (Touch.inv h (openTable_touch w k m b t)).2.1⟩
  | panicWriting k m t => exact ⟨(Touch.inv h (panicWriting_touch w k m t)).1, (Touch.inv h (panicWriting_touch w k m t)).2.1⟩
  | registerTracker k r => exact ⟨(Touch.inv h (registerTracker_touch w k r)).1, (Touch.inv h (registerTracker_touch w k r)).2.1⟩

theorem run_inv {w : World P V} (h : WInv decl w) (ops : List (ROp decl)) : WInv decl (w.run decl ops) ∧ Grows w (w.run decl ops) := by
  induction ops generalizing w with
  | nil => exact ⟨h, Grows.refl _⟩
  | cons op ops ih =>
    obtain ⟨a1, a2⟩ := step_inv h op
    obtain ⟨b1, b2⟩ := ih a1
    exact ⟨b1, a2.trans b2⟩

end
end V11
