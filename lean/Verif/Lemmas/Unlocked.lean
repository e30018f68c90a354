import Verif.Lemmas.RegistryMore
import Verif.Spec.Unlocked

/-!
# What is still true of worlds whose domains can be unlocked
-/

set_option linter.unusedSimpArgs false
set_option linter.unusedSectionVars false
set_option linter.unusedVariables false

namespace V11

variable {Ty : Type} [DecidableEq Ty] {V : Ty → Type} {P : Type} [DecidableEq P] {decl : P → PropDecl V}

/-- What is true of a universe: it may not have the properties registered last. -/
structure UL (g : Globals V) (u : List (MaybeDomain V)) : Prop where
  len : u.length ≤ g.did2name.length
  inst : ∀ (k : Nat) (d : Instance V), u[k]? = some (MaybeDomain.domain d) → ∃ info, g.domains.lookup d.name = some info ∧ info.id = k ∧
    ∀ (j : Nat) v, d.props[j]? = some v → ∃ (gid : Nat) (pr : Σ t, V t), info.members[j]? = some gid ∧ g.producers[gid]? = some pr ∧ v.1 = pr.1

/-- The registry only grows. -/
structure ExtL (g g' : Globals V) : Prop where
  producers : g.producers <+: g'.producers
  gid : ∀ n i, g.name2gid.lookup n = some i → g'.name2gid.lookup n = some i
  names : g.did2name <+: g'.did2name
  dom : ∀ n info, g.domains.lookup n = some info → ∃ info', g'.domains.lookup n = some info' ∧ info'.id = info.id ∧
    (∀ m d, info.name2did.lookup m = some d → info'.name2did.lookup m = some d) ∧ info.members <+: info'.members

theorem ExtL.refl (g : Globals V) : ExtL g g :=
  ⟨List.prefix_rfl, fun _ _ h => h, List.prefix_rfl, fun n info h => ⟨info, h, rfl, fun _ _ h => h, List.prefix_rfl⟩⟩

theorem ExtL.trans {a b c : Globals V} (h1 : ExtL a b) (h2 : ExtL b c) : ExtL a c := by
  refine ⟨h1.producers.trans h2.producers, fun n i h => h2.gid n i (h1.gid n i h), h1.names.trans h2.names, ?_⟩
  intro n info h
  obtain ⟨i1, a1, a2, a3, a4⟩ := h1.dom n info h
  obtain ⟨i2, b1, b2, b3, b4⟩ := h2.dom n i1 a1
  exact ⟨i2, b1, b2.trans a2, fun m d h => b3 m d (a3 m d h), a4.trans b4⟩

/-- Members only grow. -/
def MemExt (g g' : Globals V) : Prop :=
  ∀ n info, g.domains.lookup n = some info → ∃ info', g'.domains.lookup n = some info' ∧ info.members <+: info'.members

theorem MemExt.refl (g : Globals V) : MemExt g g := fun n info h => ⟨info, h, List.prefix_rfl⟩

theorem MemExt.trans {a b c : Globals V} (h1 : MemExt a b) (h2 : MemExt b c) : MemExt a c := by
  intro n info h
  obtain ⟨i1, a1, a2⟩ := h1 n info h
  obtain ⟨i2, b1, b2⟩ := h2 n i1 a1
  exact ⟨i2, b1, a2.trans b2⟩

theorem MemExt.update (g : Globals V) (name : String) (f : DomainInfo → DomainInfo) (hf : ∀ i, i.members <+: (f i).members) :
    MemExt g (g.update name f) := by
  intro n info h
  rw [update_lookup, h]
  refine ⟨_, rfl, ?_⟩
  split
  · exact hf info
  · exact List.prefix_rfl

theorem Ext.weak {g g' : Globals V} (h : Ext g g') (hm : MemExt g g') : ExtL g g' := by
  refine ⟨h.producers, h.gid, h.names, ?_⟩
  intro n info hl
  obtain ⟨i1, a1, a2, a3, -⟩ := h.dom n info hl
  obtain ⟨i2, b1, b2⟩ := hm n info hl
  rw [a1] at b1
  injection b1 with b1
  subst b1
  exact ⟨i1, a1, a2, a3, b2⟩

theorem ExtL.idx {g g' : Globals V} (h : ExtL g g') {d : PropDecl V} {i : PIndex} (hi : IdxOk g d i) : IdxOk g' d i := by
  obtain ⟨info, a1, a2, a3, a4⟩ := hi
  obtain ⟨info', b1, b2, b3, -⟩ := h.dom _ _ a1
  exact ⟨info', b1, b2.trans a2, b3 _ _ a3, h.gid _ _ a4⟩

theorem UL.ext {g g' : Globals V} (h : ExtL g g') {u : List (MaybeDomain V)} (hu : UL g u) : UL g' u := by
  refine ⟨hu.len.trans h.names.length_le, ?_⟩
  intro k d hk
  obtain ⟨info, a1, a2, a3⟩ := hu.inst k d hk
  obtain ⟨info', b1, b2, -, b4⟩ := h.dom _ _ a1
  refine ⟨info', b1, b2.trans a2, ?_⟩
  intro j v hv
  obtain ⟨gid, pr, c1, c2, c3⟩ := a3 j v hv
  exact ⟨gid, pr, prefix_get b4 c1, prefix_get h.producers c2, c3⟩

theorem InstOk.weak {g : Globals V} {k : Nat} {d : Instance V} {info : DomainInfo} (h : InstOk g k d info) :
    ∃ info, g.domains.lookup d.name = some info ∧ info.id = k ∧
      ∀ (j : Nat) v, d.props[j]? = some v → ∃ (gid : Nat) (pr : Σ t, V t), info.members[j]? = some gid ∧ g.producers[gid]? = some pr ∧ v.1 = pr.1 := by
  refine ⟨info, h.look, h.id, ?_⟩
  intro j v hv
  have := congrArg (·[j]?) h.types
  simp only [List.getElem?_map, hv, Option.map_some] at this
  cases hm : info.members[j]? with
  | none => rw [hm] at this; simp at this
  | some gid =>
    rw [hm] at this
    simp only [Option.map_some, Option.some.injEq] at this
    cases hp : g.producers[gid]? with
    | none => rw [hp] at this; simp at this
    | some pr =>
      rw [hp] at this
      simp only [Option.map_some, Option.some.injEq] at this
      exact ⟨gid, pr, rfl, hp, this⟩

theorem UOk.weak {g : Globals V} {u : List (MaybeDomain V)} (h : UOk g u) : UL g u :=
  ⟨h.len, fun k d hk => by obtain ⟨info, hi⟩ := h.inst k d hk; exact hi.weak⟩

/-! ## How universes change -/

/-- An entry of a universe's list keeps its name, its tables and the types of its properties. -/
def MLike : MaybeDomain V → MaybeDomain V → Prop
  | .unset n, m => m = .unset n
  | .domain d, m => ∃ d', m = .domain d' ∧ d'.name = d.name ∧ d'.tables.map Prod.fst = d.tables.map Prod.fst ∧
      d'.props.map Sigma.fst = d.props.map Sigma.fst

/-- So do all of them. -/
def ULike (u u' : List (MaybeDomain V)) : Prop :=
  u'.length = u.length ∧ ∀ (k : Nat) m, u[k]? = some m → ∃ m', u'[k]? = some m' ∧ MLike m m'

theorem MLike.refl (m : MaybeDomain V) : MLike m m := by
  cases m with
  | unset n => exact rfl
  | domain d => exact ⟨d, rfl, rfl, rfl, rfl⟩

theorem MLike.trans {a b c : MaybeDomain V} (h1 : MLike a b) (h2 : MLike b c) : MLike a c := by
  cases a with
  | unset n => cases h1; exact h2
  | domain d =>
    obtain ⟨d1, rfl, a1, a2, a3⟩ := h1
    obtain ⟨d2, rfl, b1, b2, b3⟩ := h2
    exact ⟨d2, rfl, b1.trans a1, b2.trans a2, b3.trans a3⟩

theorem ULike.refl (u : List (MaybeDomain V)) : ULike u u := ⟨rfl, fun _ m h => ⟨m, h, MLike.refl m⟩⟩

theorem ULike.trans {a b c : List (MaybeDomain V)} (h1 : ULike a b) (h2 : ULike b c) : ULike a c := by
  refine ⟨h2.1.trans h1.1, ?_⟩
  intro k m hm
  obtain ⟨m1, a1, a2⟩ := h1.2 k m hm
  obtain ⟨m2, b1, b2⟩ := h2.2 k m1 a1
  exact ⟨m2, b1, a2.trans b2⟩

theorem ULike.modify (u : List (MaybeDomain V)) (k : Nat) (f : MaybeDomain V → MaybeDomain V) (hf : ∀ m, u[k]? = some m → MLike m (f m)) :
    ULike u (u.modify k f) := by
  refine ⟨by simp, ?_⟩
  intro j m hj
  rw [List.getElem?_modify, hj]
  by_cases e : k = j
  · subst e
    exact ⟨f m, by simp, hf m hj⟩
  · exact ⟨m, by simp [e], MLike.refl m⟩

theorem modTable_like (u : List (MaybeDomain V)) (did : Nat) (table : String) (f : TableInst → TableInst) : ULike u (modTable u did table f) := by
  refine ULike.modify _ _ _ ?_
  intro m _
  cases m with
  | unset n => exact rfl
  | domain d =>
    refine ⟨_, rfl, rfl, ?_, rfl⟩
    unfold Instance.modTable
    simp only [List.map_map]
    apply List.map_congr_left
    intro p _
    simp only [Function.comp]
    split <;> rfl

theorem register_like (w : World P V) (u : List (MaybeDomain V)) (r : Reg) : ULike u (w.register u r).2 := by
  rcases register_shape w u r with h | ⟨did, f, -, h⟩
  · rw [h]; exact ULike.refl _
  · rw [h]; exact modTable_like _ _ _ _

theorem registerAll_like {w : World P V} (rs : List Reg) (u : List (MaybeDomain V)) : ULike u (w.registerAll u rs).2 := by
  induction rs generalizing u with
  | nil => exact ULike.refl _
  | cons r rs ih =>
    unfold World.registerAll
    have hs := register_like w u r
    rcases h : w.register u r with ⟨e, u1⟩
    rw [h] at hs
    cases e with
    | some p => exact hs
    | none => exact ULike.trans hs (ih u1)

theorem initDomain_like {w : World P V} (u : List (MaybeDomain V)) (n : String) : ULike u (w.initDomain u n).2 := by
  unfold World.initDomain
  split
  · exact ULike.refl _
  · split
    · exact registerAll_like _ _
    · exact ULike.refl _
    · exact ULike.refl _

theorem ULike.back {u u' : List (MaybeDomain V)} (h : ULike u u') {k : Nat} {d' : Instance V} (hk : u'[k]? = some (.domain d')) :
    ∃ d, u[k]? = some (.domain d) ∧ d'.name = d.name ∧ d'.tables.map Prod.fst = d.tables.map Prod.fst ∧
      d'.props.map Sigma.fst = d.props.map Sigma.fst := by
  have hlt : k < u.length := by
    rw [← h.1]
    by_contra hc
    rw [List.getElem?_eq_none (by omega)] at hk; cases hk
  obtain ⟨m', a1, a2⟩ := h.2 k _ (List.getElem?_eq_getElem hlt)
  rw [hk] at a1
  injection a1 with a1
  subst a1
  cases e : u[k] with
  | unset n => rw [e] at a2; cases a2
  | domain d =>
    rw [e] at a2
    obtain ⟨d1, b1, b2, b3, b4⟩ := a2
    injection b1 with b1
    subst b1
    exact ⟨d, by rw [List.getElem?_eq_getElem hlt, e], b2, b3, b4⟩

theorem ULike.ok {g : Globals V} {u u' : List (MaybeDomain V)} (h : ULike u u') (hu : UL g u) : UL g u' := by
  refine ⟨by rw [h.1]; exact hu.len, ?_⟩
  intro k d' hk
  obtain ⟨d, a1, a2, -, a4⟩ := h.back hk
  obtain ⟨info, b1, b2, b3⟩ := hu.inst k d a1
  refine ⟨info, by rw [a2]; exact b1, b2, ?_⟩
  intro j v hv
  have := congrArg (·[j]?) a4
  simp only [List.getElem?_map, hv, Option.map_some] at this
  cases hx : d.props[j]? with
  | none => rw [hx] at this; simp at this
  | some x =>
    rw [hx] at this
    simp only [Option.map_some, Option.some.injEq] at this
    obtain ⟨gid, pr, c1, c2, c3⟩ := b3 j x hx
    exact ⟨gid, pr, c1, c2, this.trans c3⟩

/-- The domains of a universe stay, with their tables. With `more = false` they get no properties either. -/
def UGrow (more : Bool) (u u' : List (MaybeDomain V)) : Prop :=
  ∀ (k : Nat) (d : Instance V), u[k]? = some (.domain d) → ∃ d', u'[k]? = some (.domain d') ∧ d'.name = d.name ∧
    d'.tables.map Prod.fst = d.tables.map Prod.fst ∧ d.props.length ≤ d'.props.length ∧ (more = false → d'.props.length = d.props.length)

theorem UGrow.refl (more : Bool) (u : List (MaybeDomain V)) : UGrow more u u := fun k d h => ⟨d, h, rfl, rfl, le_refl _, fun _ => rfl⟩

theorem UGrow.trans {more : Bool} {a b c : List (MaybeDomain V)} (h1 : UGrow more a b) (h2 : UGrow more b c) : UGrow more a c := by
  intro k d h
  obtain ⟨d1, a1, a2, a3, a4, a5⟩ := h1 k d h
  obtain ⟨d2, b1, b2, b3, b4, b5⟩ := h2 k d1 a1
  exact ⟨d2, b1, b2.trans a2, b3.trans a3, a4.trans b4, fun h => (b5 h).trans (a5 h)⟩

theorem UGrow.weaken {u u' : List (MaybeDomain V)} (h : UGrow false u u') (more : Bool) : UGrow more u u' := by
  intro k d hk
  obtain ⟨d1, a1, a2, a3, a4, a5⟩ := h k d hk
  exact ⟨d1, a1, a2, a3, a4, fun _ => a5 rfl⟩

theorem ULike.grow {u u' : List (MaybeDomain V)} (h : ULike u u') (more : Bool) : UGrow more u u' := by
  intro k d hk
  obtain ⟨m', a1, d', rfl, a2, a3, a4⟩ := h.2 k _ hk
  have := congrArg List.length a4
  simp only [List.length_map] at this
  exact ⟨d', a1, a2, a3, this.ge, fun _ => this⟩

/-! ## What is true of every reachable world -/

/-- What is true of every reachable world. -/
structure LInv (decl : P → PropDecl V) (w : World P V) : Prop where
  g : GInv w.g
  idx : ∀ p i, w.idx p = some i → IdxOk w.g (decl p) i
  unis : ∀ u ∈ w.unis, UL w.g u

/-- How a call changes the world; `more k` says whether universe `k` may get properties. -/
structure LStep (decl : P → PropDecl V) (more : Nat → Bool) (w w' : World P V) : Prop where
  inv : LInv decl w'
  ext : ExtL w.g w'.g
  poisoned : w.poisoned = true → w'.poisoned = true
  idx : ∀ p i, w.idx p = some i → w'.idx p = some i
  unis : ∀ (k : Nat) u, w.unis[k]? = some u → ∃ u', w'.unis[k]? = some u' ∧ UGrow (more k) u u'

theorem LInv.empty : LInv decl (World.empty : World P V) :=
  ⟨GInv.empty, by simp [World.empty], by simp [World.empty]⟩

theorem LStep.refl {w : World P V} (h : LInv decl w) (more : Nat → Bool) : LStep decl more w w :=
  ⟨h, ExtL.refl _, fun h => h, fun _ _ h => h, fun k u h => ⟨u, h, UGrow.refl _ u⟩⟩

theorem LStep.trans {more : Nat → Bool} {a b c : World P V} (h1 : LStep decl more a b) (h2 : LStep decl more b c) : LStep decl more a c := by
  refine ⟨h2.inv, h1.ext.trans h2.ext, fun h => h2.poisoned (h1.poisoned h), fun p i h => h2.idx p i (h1.idx p i h), ?_⟩
  intro k u hk
  obtain ⟨u1, a1, a2⟩ := h1.unis k u hk
  obtain ⟨u2, b1, b2⟩ := h2.unis k u1 a1
  exact ⟨u2, b1, a2.trans b2⟩

theorem LStep.die {α : Type} {w : World P V} (h : LInv decl w) (more : Nat → Bool) (p : Panic) : LStep decl more w (w.die p : R α × World P V).2 :=
  ⟨⟨h.g, h.idx, h.unis⟩, ExtL.refl _, fun _ => rfl, fun _ _ h => h, fun k u h => ⟨u, h, UGrow.refl _ u⟩⟩

/-- The registry grows and nothing else changes. -/
theorem LStep.ofG {w w' : World P V} (h : LInv decl w) (more : Nat → Bool) (hg : GInv w'.g) (he : ExtL w.g w'.g)
    (hi : ∀ p i, w'.idx p = some i → IdxOk w'.g (decl p) i) (hu : w'.unis = w.unis) (hp : w.poisoned = true → w'.poisoned = true)
    (hx : ∀ p i, w.idx p = some i → w'.idx p = some i) : LStep decl more w w' :=
  ⟨⟨hg, hi, fun u hm => (h.unis u (by rw [← hu]; exact hm)).ext he⟩, he, hp, hx, fun k u h => ⟨u, by rw [hu]; exact h, UGrow.refl _ u⟩⟩

/-- One universe changes. -/
theorem LStep.ofU {w : World P V} (h : LInv decl w) (more : Nat → Bool) {k : Nat} {u u' : List (MaybeDomain V)} (hk : w.unis[k]? = some u)
    (hu : UL w.g u') (hg : UGrow (more k) u u') : LStep decl more w { w with unis := w.unis.set k u' } := by
  refine ⟨⟨h.g, h.idx, ?_⟩, ExtL.refl _, fun h => h, fun _ _ h => h, ?_⟩
  · intro x hx
    rcases List.mem_or_eq_of_mem_set hx with hx | rfl
    · exact h.unis x hx
    · exact hu
  · intro j x hj
    simp only []
    rw [List.getElem?_set]
    by_cases e : k = j
    · subst e
      rw [hk] at hj
      injection hj with hj
      subst hj
      have : k < w.unis.length := by
        by_contra hc
        rw [List.getElem?_eq_none (by omega)] at hk; cases hk
      exact ⟨u', by simp [this], hg⟩
    · exact ⟨x, by simp [e, hj], UGrow.refl _ x⟩

/-! ## Registration -/

theorem registerDomain_mem (w : World P V) (name : String) : MemExt w.g (w.registerDomain name).2.g := by
  unfold World.registerDomain
  split
  · exact MemExt.refl _
  · split
    · exact MemExt.refl _
    · split
      · exact MemExt.refl _
      · intro n info hl
        refine ⟨info, ?_, List.prefix_rfl⟩
        simp only []
        rw [lookup_append, hl]; rfl

theorem registerProp_mem (w : World P V) (p : P) : MemExt w.g (w.registerProp decl p).2.g := by
  unfold World.registerProp
  split
  · exact MemExt.refl _
  · split
    · exact MemExt.refl _
    · simp only []
      split
      · exact MemExt.refl _
      · split
        · exact MemExt.refl _
        · split
          · exact MemExt.refl _
          · exact MemExt.update ({ w.g with
              name2gid := if (w.g.name2gid.lookup (decl p).name).isSome then w.g.name2gid else w.g.name2gid ++ [((decl p).name, (w.g.name2gid.lookup (decl p).name).getD w.g.producers.length)]
              producers := if (w.g.name2gid.lookup (decl p).name).isSome then w.g.producers else w.g.producers ++ [⟨(decl p).ty, (decl p).init⟩] } : Globals V) _ _
              (fun i => List.prefix_append _ _)

theorem registerTable_mem (w : World P V) (t : GTable) : MemExt w.g (w.registerTable t).2.g := by
  unfold World.registerTable
  split
  · exact MemExt.refl _
  · split
    · exact MemExt.refl _
    · split
      · exact MemExt.refl _
      · split
        · exact MemExt.refl _
        · split
          · exact MemExt.update _ _ _ (fun i => List.prefix_rfl)
          · split <;> exact MemExt.refl _

theorem registerDomain_l {w : World P V} (h : LInv decl w) (more : Nat → Bool) (name : String) : LStep decl more w (w.registerDomain name).2 := by
  obtain ⟨a1, a2, a3, a4⟩ := registerDomain_inv h.g name
  refine LStep.ofG h more a1 (a2.weak (registerDomain_mem w name)) ?_ a4 ?_ (fun p i hp => by rw [a3]; exact hp)
  · intro p i hp
    rw [a3] at hp
    exact (h.idx p i hp).ext a2
  · unfold World.registerDomain
    intro hp
    split
    · exact hp
    · rw [hp]; exact hp

theorem registerProp_l {w : World P V} (h : LInv decl w) (more : Nat → Bool) (p : P) : LStep decl more w (w.registerProp decl p).2 := by
  obtain ⟨a1, a2, a3, a4⟩ := registerProp_inv h.g h.idx p
  refine LStep.ofG h more a1 (a2.weak (registerProp_mem w p)) a3 a4 ?_ ?_
  · unfold World.registerProp
    intro hp
    rw [hp]; exact hp
  · intro q i hq
    unfold World.registerProp
    split
    · exact hq
    · split
      · exact hq
      · rename_i hn
        have hqp : q ≠ p := by rintro rfl; rw [hq] at hn; cases hn
        simp only []
        split
        · exact hq
        · split
          · exact hq
          · split
            · exact hq
            · simp only []
              rw [Function.update_of_ne hqp]; exact hq

theorem registerTable_l {w : World P V} (h : LInv decl w) (more : Nat → Bool) (t : GTable) : LStep decl more w (w.registerTable t).2 := by
  obtain ⟨a1, a2, a3, a4⟩ := registerTable_inv h.g t
  refine LStep.ofG h more a1 (a2.weak (registerTable_mem w t)) ?_ a4 ?_ (fun p i hp => by rw [a3]; exact hp)
  · intro p i hp
    rw [a3] at hp
    exact (h.idx p i hp).ext a2
  · unfold World.registerTable
    intro hp
    split
    · exact hp
    · rw [hp]; exact hp

theorem setLocked_l {w : World P V} (h : LInv decl w) (more : Nat → Bool) (name : String) (b : Bool) : LStep decl more w (w.setLocked name b).2 := by
  unfold World.setLocked
  split
  · exact LStep.refl h more
  · split
    · exact LStep.die h more _
    · have hu : ExtL w.g (w.g.update name (fun info => { info with locked := b })) := by
        refine ⟨List.prefix_rfl, fun _ _ h => h, List.prefix_rfl, ?_⟩
        intro n info hl
        rw [update_lookup, hl]
        refine ⟨_, rfl, ?_⟩
        split <;> exact ⟨rfl, fun _ _ h => h, List.prefix_rfl⟩
      refine LStep.ofG h more ?_ hu (fun p i hp => hu.idx (h.idx p i hp)) rfl (fun h => h) (fun _ _ h => h)
      show GInv (w.g.update name (fun info => { info with locked := b }))
      refine h.g.update _ _ (fun _ => rfl) ?_
      intro i hi
      have := h.g.info _ _ hi
      exact ⟨this.mem, this.did, this.tables, this.tnodup⟩

/-! ## Universes -/

theorem getDomains_mem {g : Globals V} (hg : GInv g) (names : List String) {ret u : List (MaybeDomain V)} {g' : Globals V}
    (h : g.getDomains ret names = .ok (u, g')) : MemExt g g' := by
  induction names generalizing g ret with
  | nil =>
    injection h with h
    injection h with h1 h2
    subst h2
    exact MemExt.refl _
  | cons n names ih =>
    rw [Globals.getDomains] at h
    cases hl : g.domains.lookup n with
    | none => rw [hl] at h; cases h
    | some info =>
      obtain ⟨inst, a1, a2, -⟩ := instantiate_ok hg hl
      rw [hl] at h
      simp only [] at h
      rw [a1] at h
      replace h : (if info.id < ret.length then _ else _) = _ := h
      split at h
      · exact MemExt.trans (MemExt.update g n (fun i => { i with locked := true }) (fun _ => List.prefix_rfl)) (ih (g := g.update n (fun i => { i with locked := true })) a2 h)
      · cases h

theorem newUniverse_l {w : World P V} (h : LInv decl w) (more : Nat → Bool) (names : List String) : LStep decl more w (w.newUniverse names).2 := by
  unfold World.newUniverse
  split
  · exact LStep.refl h more
  · rename_i hp
    have := getDomains_inv h.g (unset_ok (g := w.g)) (by simp) names
    split
    · exact LStep.die h more _
    · rename_i u g' e
      rw [e] at this
      obtain ⟨b1, b2, b3, b4, b5, b6, b7, b8⟩ := this
      have he := b2.weak (getDomains_mem h.g names e)
      have hw : LStep decl more w ({ w with g := g' } : World P V) :=
        LStep.ofG h more b1 he (fun p i hpi => he.idx (h.idx p i hpi)) rfl (fun h => h) (fun _ _ h => h)
      obtain ⟨c1, c2, -⟩ := initDomains_inv (w := ({ w with g := g' } : World P V)) b1 names b3
      simp only []
      split
      · rename_i u' e'
        rw [e'] at c1
        refine ⟨⟨b1, hw.inv.idx, ?_⟩, he, fun h => h, fun _ _ h => h, ?_⟩
        · intro x hx
          simp only [List.mem_append, List.mem_singleton] at hx
          rcases hx with hx | rfl
          · exact hw.inv.unis x hx
          · exact c1.weak
        · intro k x hk
          exact ⟨x, prefix_get (List.prefix_append _ _) hk, UGrow.refl _ x⟩
      · exact hw

theorem padded_ok {g : Globals V} {u : List (MaybeDomain V)} (hu : UL g u) : UL g (u ++ (g.did2name.drop u.length).map .unset) := by
  have := hu.len
  refine ⟨by simp; omega, ?_⟩
  intro k d h
  by_cases hk : k < u.length
  · rw [List.getElem?_append_left hk] at h; exact hu.inst k d h
  · rw [List.getElem?_append_right (by omega), List.getElem?_map] at h
    cases e : (g.did2name.drop u.length)[k - u.length]? with
    | none => rw [e] at h; cases h
    | some m => rw [e] at h; simp at h

theorem UL.set {g : Globals V} {u : List (MaybeDomain V)} (hu : UL g u) (k : Nat) {d : Instance V} {info : DomainInfo} (hd : InstOk g k d info) :
    UL g (u.set k (.domain d)) := by
  refine ⟨by simpa using hu.len, ?_⟩
  intro k' d' h
  rw [List.getElem?_set] at h
  split at h
  · rename_i e
    subst e
    split at h
    · injection h with h; injection h with h; subst h; exact hd.weak
    · cases h
  · exact hu.inst k' d' h

theorem addDomain_l {w : World P V} (h : LInv decl w) (more : Nat → Bool) (k : Nat) (name : String) : LStep decl more w (w.addDomain k name).2 := by
  unfold World.addDomain
  split
  · exact LStep.refl h more
  · rename_i u hk
    have hu := h.unis u (List.mem_of_getElem? hk)
    split
    · exact LStep.refl h more
    · rename_i u1 hs
      have hu1e := synced_ok hs
      have hu1 : UL w.g u1 := by rw [hu1e]; exact padded_ok hu
      have hgrow1 : UGrow (more k) u u1 := by
        intro j d hd
        refine ⟨d, ?_, rfl, rfl, le_refl _, fun _ => rfl⟩
        rw [hu1e]
        exact prefix_get (List.prefix_append _ _) hd
      have hw1 : LStep decl more w ({ w with unis := w.unis.set k u1 } : World P V) := LStep.ofU h more hk hu1 hgrow1
      have hk1 : (w.unis.set k u1)[k]? = some u1 := by
        rw [List.getElem?_set]
        have : k < w.unis.length := by
          by_contra hc
          rw [List.getElem?_eq_none (by omega)] at hk; cases hk
        simp [this]
      simp only []
      split
      · exact hw1
      · rename_i id hid
        split
        · exact hw1
        · rename_i m hm
          split
          · exact hw1
          · rename_i hset
            obtain ⟨-, info, hl, hidd⟩ := getId_ok hid
            simp only [] at hl
            subst hidd
            obtain ⟨inst, a1, a2, a3, a4, -⟩ := instantiate_ok h.g hl
            rw [a1]
            simp only []
            have he : ExtL w.g (w.g.update name (fun i => { i with locked := true })) := a3.weak (MemExt.update _ _ _ (fun _ => List.prefix_rfl))
            have hw2 : LStep decl more w ({ w with unis := w.unis.set k u1, g := w.g.update name (fun i => { i with locked := true }) } : World P V) := by
              refine hw1.trans (LStep.ofG hw1.inv more a2 he (fun p i hpi => he.idx (h.idx p i hpi)) rfl (fun h => h) (fun _ _ h => h))
            have hu2 : UL (w.g.update name (fun i => { i with locked := true })) (u1.set info.id (.domain inst)) := (hu1.ext he).set _ a4
            have hgrow2 : UGrow (more k) u1 (u1.set info.id (.domain inst)) := by
              intro j d hd
              by_cases e : info.id = j
              · subst e
                rw [hm] at hd
                injection hd with hd
                subst hd
                simp [MaybeDomain.isSet] at hset
              · exact ⟨d, by rw [List.getElem?_set_ne e]; exact hd, rfl, rfl, le_refl _, fun _ => rfl⟩
            have hs3 := initDomain_like (w := ({ w with unis := w.unis.set k u1, g := w.g.update name (fun i => { i with locked := true }) } : World P V)) (u1.set info.id (.domain inst)) name
            split
            · rename_i u3 e3
              rw [e3] at hs3
              exact hw2.trans (LStep.ofU (k := k) (u := u1) hw2.inv more hk1 (hs3.ok hu2) (hgrow2.trans (hs3.grow _)))
            · rename_i p u3 e3
              rw [e3] at hs3
              exact hw2.trans (LStep.ofU (k := k) (u := u1) hw2.inv more hk1 (hs3.ok hu2) (hgrow2.trans (hs3.grow _)))

/-! ## `add_properties` -/

theorem addProperties_some {g : Globals V} (hg : GInv g) {d : Instance V} {info : DomainInfo} (hl : g.domains.lookup d.name = some info) :
    ∃ extra, d.addProperties g = .ok { d with props := d.props ++ extra } ∧
      extra.map some = (info.members.drop d.props.length).map (g.producers[·]?) := by
  obtain ⟨r, h1, h2⟩ := mapM_checkedGet g.producers (info.members.drop d.props.length)
    (fun i hi => (hg.info _ _ hl).mem i (List.mem_of_mem_drop hi))
  refine ⟨r, ?_, h2⟩
  unfold Instance.addProperties
  rw [hl]
  simp only []
  rw [h1]
  rfl

theorem mapM_each {α : Type} (l : List α) (f : α → R α) (Q : α → α → Prop) (h : ∀ a ∈ l, ∃ b, f a = .ok b ∧ Q a b) :
    ∃ l', l.mapM f = .ok l' ∧ l'.length = l.length ∧ ∀ (k : Nat) a, l[k]? = some a → ∃ b, l'[k]? = some b ∧ Q a b := by
  induction l with
  | nil => exact ⟨[], rfl, rfl, by simp⟩
  | cons a l ih =>
    obtain ⟨b, hb, hq⟩ := h a (by simp)
    obtain ⟨l', h1, h2, h3⟩ := ih (fun x hx => h x (by simp [hx]))
    refine ⟨b :: l', ?_, by simp [h2], ?_⟩
    · rw [List.mapM_cons, hb, h1]; rfl
    · intro k x hx
      cases k with
      | zero => simp at hx; subst hx; exact ⟨b, by simp, hq⟩
      | succ k => simp at hx; simpa using h3 k x hx

/-- What `add_properties` makes of an entry. -/
def Filled (g : Globals V) (m m' : MaybeDomain V) : Prop :=
  match m with
  | .unset n => m' = .unset n
  | .domain d => ∃ info extra, g.domains.lookup d.name = some info ∧ m' = .domain { d with props := d.props ++ extra } ∧
      extra.map some = (info.members.drop d.props.length).map (g.producers[·]?)

theorem addProperties_does {w : World P V} (h : LInv decl w) (hp : w.poisoned = false) {k : Nat} {u : List (MaybeDomain V)} (hk : w.unis[k]? = some u) :
    ∃ u', w.addProperties k = (.ok (), { w with unis := w.unis.set k u' }) ∧ u'.length = u.length ∧
      ∀ (j : Nat) m, u[j]? = some m → ∃ m', u'[j]? = some m' ∧ Filled w.g m m' := by
  have hu := h.unis u (List.mem_of_getElem? hk)
  obtain ⟨u', h1, h2, h3⟩ := mapM_each u (fun m => m.addProperties w.g) (Filled w.g) (by
    intro m hm
    obtain ⟨j, hj, rfl⟩ := List.mem_iff_getElem.1 hm
    cases e : u[j] with
    | unset n => exact ⟨.unset n, rfl, rfl⟩
    | domain d =>
      obtain ⟨info, hi, -⟩ := hu.inst j d (by rw [List.getElem?_eq_getElem hj, e])
      obtain ⟨extra, a1, a2⟩ := addProperties_some h.g hi
      refine ⟨.domain { d with props := d.props ++ extra }, ?_, info, extra, hi, rfl, a2⟩
      unfold MaybeDomain.addProperties
      simp only []
      rw [a1]
      rfl)
  refine ⟨u', ?_, h2, h3⟩
  unfold World.addProperties
  rw [hk]
  simp only []
  rw [if_neg (by simp [hp]), h1]

theorem filled_ok {g : Globals V} (hg : GInv g) {u u' : List (MaybeDomain V)} (hu : UL g u) (hlen : u'.length = u.length)
    (h : ∀ (j : Nat) m, u[j]? = some m → ∃ m', u'[j]? = some m' ∧ Filled g m m') : UL g u' ∧ UGrow true u u' := by
  constructor
  · refine ⟨by rw [hlen]; exact hu.len, ?_⟩
    intro k d' hk
    have hlt : k < u.length := by
      rw [← hlen]
      by_contra hc
      rw [List.getElem?_eq_none (by omega)] at hk; cases hk
    obtain ⟨m', a1, a2⟩ := h k _ (List.getElem?_eq_getElem hlt)
    rw [hk] at a1
    injection a1 with a1
    subst a1
    cases e : u[k] with
    | unset n => rw [e] at a2; cases a2
    | domain d =>
      rw [e] at a2
      obtain ⟨info, extra, b1, b2, b3⟩ := a2
      injection b2 with b2
      obtain ⟨info', c1, c2, c3⟩ := hu.inst k d (by rw [List.getElem?_eq_getElem hlt, e])
      rw [b1] at c1
      injection c1 with c1
      subst c1
      refine ⟨info, by rw [b2]; exact b1, c2, ?_⟩
      intro j v hv
      rw [b2] at hv
      simp only [] at hv
      by_cases hj : j < d.props.length
      · rw [List.getElem?_append_left hj] at hv
        exact c3 j v hv
      · rw [List.getElem?_append_right (by omega)] at hv
        have := congrArg (·[j - d.props.length]?) b3
        simp only [List.getElem?_map, hv, Option.map_some, List.getElem?_drop] at this
        rw [show d.props.length + (j - d.props.length) = j by omega] at this
        cases hm : info.members[j]? with
        | none => rw [hm] at this; cases this
        | some gid =>
          rw [hm] at this
          simp only [Option.map_some, Option.some.injEq] at this
          exact ⟨gid, v, rfl, this.symm, rfl⟩
  · intro k d hk
    obtain ⟨m', a1, info, extra, -, rfl, -⟩ := h k _ hk
    exact ⟨_, a1, rfl, rfl, by simp, by simp⟩

theorem addProperties_l {w : World P V} (h : LInv decl w) (more : Nat → Bool) (k : Nat) (hm : more k = true) : LStep decl more w (w.addProperties k).2 := by
  cases hk : w.unis[k]? with
  | none => unfold World.addProperties; rw [hk]; exact LStep.refl h more
  | some u =>
    by_cases hp : w.poisoned = true
    · unfold World.addProperties
      rw [hk]
      simp only []
      rw [if_pos hp]
      exact LStep.refl h more
    · obtain ⟨u', h1, h2, h3⟩ := addProperties_does h (by simpa using hp) hk
      obtain ⟨a1, a2⟩ := filled_ok h.g (h.unis u (List.mem_of_getElem? hk)) h2 h3
      rw [h1]
      exact LStep.ofU h more hk a1 (by rw [hm]; exact a2)

/-! ## Properties -/

theorem resolve_l {w : World P V} (h : LInv decl w) (more : Nat → Bool) (p : P) :
    LStep decl more w (w.resolve decl p).2 ∧ (w.resolve decl p).2.unis = w.unis ∧ (w.resolve decl p).2.g = w.g ∧
      ∀ i, (w.resolve decl p).1 = .ok i → IdxOk w.g (decl p) i := by
  unfold World.resolve
  split
  · rename_i i hi
    exact ⟨LStep.refl h more, rfl, rfl, fun j hj => by injection hj with hj; subst hj; exact h.idx p i hi⟩
  · rename_i hnone
    unfold World.syncAlias
    split
    · exact ⟨LStep.refl h more, rfl, rfl, by simp⟩
    · split
      · exact ⟨LStep.die h more _, rfl, rfl, by simp [World.die]⟩
      · rename_i info hinfo
        split
        · exact ⟨LStep.die h more _, rfl, rfl, by simp [World.die]⟩
        · rename_i gid hgid
          split
          · exact ⟨LStep.die h more _, rfl, rfl, by simp [World.die]⟩
          · rename_i did hdid
            have hok : IdxOk w.g (decl p) { domain := info.id, did := did, gid := gid } := ⟨info, hinfo, rfl, hdid, hgid⟩
            refine ⟨LStep.ofG h more h.g (ExtL.refl _) ?_ rfl (fun h => h) ?_, rfl, rfl, ?_⟩
            · intro q i hq
              simp only [] at hq
              by_cases e : q = p
              · subst e
                rw [Function.update_self] at hq; injection hq with hq; subst hq; exact hok
              · rw [Function.update_of_ne e] at hq; exact h.idx q i hq
            · intro q i hq
              have e : q ≠ p := by rintro rfl; rw [hq] at hnone; cases hnone
              simp only []
              rw [Function.update_of_ne e]; exact hq
            · intro i hi
              injection hi with hi
              subst hi
              exact hok

theorem putCell_like {u : List (MaybeDomain V)} {i : PIndex} {v v' : Σ t, V t} (hc : cellOf u i = .ok v) (ht : v'.1 = v.1) :
    ULike u (putCell u i v') := by
  refine ULike.modify _ _ _ ?_
  intro m hm
  cases m with
  | unset n => exact rfl
  | domain d =>
    refine ⟨_, rfl, rfl, rfl, ?_⟩
    have hv : d.props[i.did]? = some v := by
      obtain ⟨d0, a1, a2⟩ := cell_inst hc
      rw [hm] at a1
      injection a1 with a1
      injection a1 with a1
      subst a1
      exact a2
    simp only [List.map_set]
    apply List.ext_getElem?
    intro j
    rw [List.getElem?_set]
    split
    · rename_i e; subst e
      rw [List.getElem?_map, hv]
      split
      · simp [ht]
      · rename_i hlt
        have : i.did < d.props.length := by
          by_contra hc'
          rw [List.getElem?_eq_none (by omega)] at hv; cases hv
        simp at hlt; omega
    · rfl


theorem get_l {w : World P V} (h : LInv decl w) (more : Nat → Bool) (k : Nat) (p : P) :
    LStep decl more w (w.get decl k p).2 ∧ (w.get decl k p).2.unis = w.unis ∧ (w.get decl k p).2.g = w.g := by
  unfold World.get
  split
  · exact ⟨LStep.refl h more, rfl, rfl⟩
  · obtain ⟨a1, a2, a3, -⟩ := resolve_l h more p
    rcases e : w.resolve decl p with ⟨r, w1⟩
    rw [e] at a1 a2 a3
    cases r with
    | error x => exact ⟨a1, a2, a3⟩
    | ok i =>
      simp only []
      split <;> exact ⟨a1, a2, a3⟩

theorem swap_l {w : World P V} (h : LInv decl w) (more : Nat → Bool) (k : Nat) (p : P) (val : V (decl p).ty) :
    LStep decl more w (w.swap decl k p val).2 ∧ (w.swap decl k p val).2.g = w.g := by
  unfold World.swap
  cases hk : w.unis[k]? with
  | none => exact ⟨LStep.refl h more, rfl⟩
  | some u =>
    simp only []
    obtain ⟨a1, a3, a4, a5⟩ := resolve_l h more p
    rcases e : w.resolve decl p with ⟨r, w1⟩
    rw [e] at a1 a3 a4 a5
    cases r with
    | error x => exact ⟨a1, a4⟩
    | ok i =>
      simp only [] at a1 a3 a4 a5 ⊢
      cases ec : cellOf u i with
      | error x => exact ⟨a1, a4⟩
      | ok c =>
        simp only []
        cases ed : downcast (decl p).ty c with
        | error x => exact ⟨a1, a4⟩
        | ok old =>
          simp only []
          have hc := downcast_ok ed
          subst hc
          have hl := putCell_like (v' := ⟨(decl p).ty, val⟩) ec rfl
          have hu1 : UL w1.g u := a1.inv.unis u (by rw [a3]; exact List.mem_of_getElem? hk)
          exact ⟨a1.trans (LStep.ofU a1.inv more (by rw [a3]; exact hk) (hl.ok hu1) (hl.grow _)), a4⟩

theorem Touch.l {w w' : World P V} (h : LInv decl w) (more : Nat → Bool) (ht : Touch w w') : LStep decl more w w' ∧ w'.g = w.g := by
  rcases ht with rfl | ⟨k, u, did, table, f, hk, hf, rfl⟩
  · exact ⟨LStep.refl h more, rfl⟩
  · have hl := modTable_like u did table f
    exact ⟨LStep.ofU h more hk (hl.ok (h.unis u (List.mem_of_getElem? hk))) (hl.grow _), rfl⟩

/-- Which universes a call may give properties. -/
def LkOp.adds : LkOp decl → Nat → Bool
  | .call (.addProperties k), k' => decide (k = k')
  | _, _ => false

theorem lkStep_l {w : World P V} (h : LInv decl w) (more : Nat → Bool) (op : LkOp decl) (hm : ∀ k, op.adds k = true → more k = true) :
    LStep decl more w (w.lkStep decl op).2 := by
  cases op with
  | setLocked n b => exact setLocked_l h more n b
  | call op =>
    cases op with
    | registerDomain n => exact registerDomain_l h more n
    | registerProp p => exact registerProp_l h more p
    | registerTable t => exact registerTable_l h more t
    | newUniverse ns => exact newUniverse_l h more ns
    | addDomain k n => exact addDomain_l h more k n
    | addProperties k => exact addProperties_l h more k (hm k (by simp [LkOp.adds]))
    | get k p => exact (get_l h more k p).1
    | set k p v =>
      show LStep decl more w (w.set decl k p v).2
      rw [set_snd]; exact (swap_l h more k p v).1
    | swap k p v => exact (swap_l h more k p v).1
    | openTable k m wr tol => exact ((openTable_touch w k m wr tol).l h more).1
    | panicWriting k m tol => exact ((panicWriting_touch w k m tol).l h more).1
    | registerTracker k r => exact ((registerTracker_touch w k r).l h more).1

theorem lkRun_l {w : World P V} (h : LInv decl w) (more : Nat → Bool) (ops : List (LkOp decl)) (hm : ∀ op ∈ ops, ∀ k, op.adds k = true → more k = true) :
    LStep decl more w (w.lkRun decl ops) := by
  induction ops generalizing w with
  | nil => exact LStep.refl h more
  | cons op ops ih =>
    have a := lkStep_l h more op (hm op (by simp))
    exact a.trans (ih a.inv (fun o ho => hm o (by simp [ho])))

theorem lkRun_inv (ops : List (LkOp decl)) : LInv decl (World.lkAfter decl ops : World P V) :=
  (lkRun_l LInv.empty (fun _ => true) ops (fun _ _ _ _ => rfl)).inv

theorem lkRun_append (w : World P V) (a b : List (LkOp decl)) : w.lkRun decl (a ++ b) = (w.lkRun decl a).lkRun decl b := by
  induction a generalizing w with
  | nil => rfl
  | cons op a ih => exact ih _

/-! ## First registrations -/

/-- The registry knows the first initial value of each name. -/
def InitOk (w : World P V) (tr : List (ROp decl × Bool)) : Prop :=
  ∀ name, firstInit tr name = (w.g.name2gid.lookup name).bind (w.g.producers[·]?)

theorem InitOk.quiet {w w' : World P V} {tr : List (ROp decl × Bool)} (h : InitOk w tr) (h1 : w'.g.name2gid = w.g.name2gid)
    (h2 : w'.g.producers = w.g.producers) {e : ROp decl × Bool} (he : ∀ n, initOf n e = none) : InitOk w' (tr ++ [e]) := by
  intro name
  rw [firstInit_snoc, he, Option.or_none, h1, h2]
  exact h name

theorem InitOk.known {w : World P V} {tr : List (ROp decl × Bool)} (hg : GInv w.g) (h : InitOk w tr) {name : String} {gid : Nat}
    (hn : w.g.name2gid.lookup name = some gid) : ∃ v, firstInit tr name = some v := by
  rw [h name, hn]
  exact ⟨_, List.getElem?_eq_getElem (hg.gid_lt hn)⟩

theorem InitOk.again {w w' : World P V} {tr : List (ROp decl × Bool)} (h : InitOk w tr) (h1 : w'.g.name2gid = w.g.name2gid)
    (h2 : w'.g.producers = w.g.producers) {e : ROp decl × Bool} (he : ∀ n v, initOf n e = some v → ∃ v0, firstInit tr n = some v0) :
    InitOk w' (tr ++ [e]) := by
  intro name
  rw [firstInit_snoc, h1, h2, ← h name]
  cases hi : initOf name e with
  | none => simp
  | some v =>
    obtain ⟨v0, h0⟩ := he name v hi
    rw [h0]; rfl

theorem addDomain_names {w : World P V} (h : LInv decl w) (k : Nat) (name : String) :
    (w.addDomain k name).2.g.name2gid = w.g.name2gid ∧ (w.addDomain k name).2.g.producers = w.g.producers := by
  unfold World.addDomain
  split
  · exact ⟨rfl, rfl⟩
  · rename_i u hk
    split
    · exact ⟨rfl, rfl⟩
    · rename_i u1 hs
      simp only []
      split
      · exact ⟨rfl, rfl⟩
      · rename_i id hid
        split
        · exact ⟨rfl, rfl⟩
        · split
          · exact ⟨rfl, rfl⟩
          · obtain ⟨-, info, hl, hidd⟩ := getId_ok hid
            simp only [] at hl
            obtain ⟨inst, a1, -⟩ := instantiate_ok h.g hl
            rw [a1]
            simp only []
            split <;> exact ⟨rfl, rfl⟩

theorem newUniverse_names {w : World P V} (h : LInv decl w) (names : List String) :
    (w.newUniverse names).2.g.name2gid = w.g.name2gid ∧ (w.newUniverse names).2.g.producers = w.g.producers := by
  unfold World.newUniverse
  split
  · exact ⟨rfl, rfl⟩
  · have := getDomains_inv h.g (unset_ok (g := w.g)) (by simp) names
    split
    · exact ⟨rfl, rfl⟩
    · rename_i u g' e
      rw [e] at this
      obtain ⟨b1, b2, b3, b4, b5, b6, b7, b8⟩ := this
      simp only []
      split <;> exact ⟨b8, b7⟩

theorem registerProp_init {w : World P V} (h : LInv decl w) {tr : List (ROp decl × Bool)} (ht : InitOk w tr) (p : P) :
    InitOk (w.registerProp decl p).2 (tr ++ [((ROp.registerProp p : ROp decl), (w.registerProp decl p).1.isOk)]) := by
  have hfalse : ∀ n, initOf n ((ROp.registerProp p : ROp decl), false) = none := fun n => rfl
  have hknown : ∀ gid, w.g.name2gid.lookup (decl p).name = some gid → ∀ b n v, initOf n ((ROp.registerProp p : ROp decl), b) = some v →
      ∃ v0, firstInit tr n = some v0 := by
    intro gid hg b n v hi
    cases b with
    | false => cases hi
    | true =>
      by_cases e : (decl p).name = n
      · subst e
        exact InitOk.known h.g ht hg
      · simp [initOf, e] at hi
  unfold World.registerProp
  by_cases hp : w.poisoned = true
  · rw [if_pos hp]; exact ht.quiet rfl rfl hfalse
  · rw [if_neg hp]
    cases hi : w.idx p with
    | some i =>
      simp only []
      obtain ⟨info, -, -, -, h4⟩ := h.idx p i hi
      exact ht.again rfl rfl (hknown _ h4 _)
    | none =>
      simp only []
      cases hc : checkPropName (decl p).domain.toList (decl p).name.toList with
      | error e => exact ht.quiet rfl rfl hfalse
      | ok x =>
        simp only []
        cases hl : w.g.domains.lookup (decl p).domain with
        | none => exact ht.quiet rfl rfl hfalse
        | some info =>
          simp only []
          by_cases hk : info.locked = true
          · rw [if_pos hk]; exact ht.quiet rfl rfl hfalse
          · rw [if_neg hk]
            cases hn : w.g.name2gid.lookup (decl p).name with
            | some gid => exact ht.again (by rfl) (by rfl) (hknown gid hn _)
            | none =>
              intro name
              rw [firstInit_snoc, ht name]
              show _ = ((w.g.name2gid ++ [((decl p).name, w.g.producers.length)]).lookup name).bind ((w.g.producers ++ [(⟨(decl p).ty, (decl p).init⟩ : Σ t, V t)])[·]?)
              rw [lookup_append]
              show (_ : Option (Σ t, V t)).or (if (decl p).name = name then some ⟨_, (decl p).init⟩ else none) = _
              cases hx : w.g.name2gid.lookup name with
              | some gid =>
                have := h.g.gid_lt hx
                have hne : (decl p).name ≠ name := by rintro rfl; rw [hx] at hn; cases hn
                simp [hne, List.getElem?_append_left this]
              | none =>
                by_cases e : (decl p).name = name
                · subst e; simp
                · have : (name == (decl p).name) = false := by simpa using Ne.symm e
                  simp [e, List.lookup_cons, this]

theorem step_init {w : World P V} (h : LInv decl w) {tr : List (ROp decl × Bool)} (ht : InitOk w tr) (op : ROp decl) :
    InitOk (w.step decl op).2 (tr ++ [(op, (w.step decl op).1.isOk)]) := by
  cases op with
  | registerProp p => exact registerProp_init h ht p
  | registerDomain n =>
    refine ht.quiet ?_ ?_ (fun m => by cases (w.step decl (.registerDomain n)).1.isOk <;> rfl)
    all_goals
      simp only [World.step]
      unfold World.registerDomain
      split
      · rfl
      · split
        · rfl
        · split <;> rfl
  | registerTable t =>
    refine ht.quiet ?_ ?_ (fun m => by cases (w.step decl (.registerTable t)).1.isOk <;> rfl)
    all_goals
      simp only [World.step]
      unfold World.registerTable
      split
      · rfl
      · split
        · rfl
        · split
          · rfl
          · split
            · rfl
            · split
              · rfl
              · split <;> rfl
  | newUniverse ns =>
    exact ht.quiet (newUniverse_names h ns).1 (newUniverse_names h ns).2 (fun m => by cases (w.step decl (.newUniverse ns)).1.isOk <;> rfl)
  | addDomain k n =>
    exact ht.quiet (addDomain_names h k n).1 (addDomain_names h k n).2 (fun m => by cases (w.step decl (.addDomain k n)).1.isOk <;> rfl)
  | addProperties k =>
    have : (w.addProperties k).2.g = w.g := by
      unfold World.addProperties
      split
      · rfl
      · split
        · rfl
        · split <;> rfl
    exact ht.quiet (by show (w.addProperties k).2.g.name2gid = _; rw [this]) (by show (w.addProperties k).2.g.producers = _; rw [this])
      (fun m => by cases (w.step decl (.addProperties k)).1.isOk <;> rfl)
  | get k p =>
    have := (get_l h (fun _ => true) k p).2.2
    exact ht.quiet (by show (w.get decl k p).2.g.name2gid = _; rw [this]) (by show (w.get decl k p).2.g.producers = _; rw [this])
      (fun m => by cases (w.step decl (.get k p)).1.isOk <;> rfl)
  | set k p v =>
    have := (swap_l h (fun _ => true) k p v).2
    rw [← set_snd] at this
    exact ht.quiet (by show (w.set decl k p v).2.g.name2gid = _; rw [this]) (by show (w.set decl k p v).2.g.producers = _; rw [this])
      (fun m => by cases (w.step decl (.set k p v)).1.isOk <;> rfl)
  | swap k p v =>
    have := (swap_l h (fun _ => true) k p v).2
    exact ht.quiet (by show (w.swap decl k p v).2.g.name2gid = _; rw [this]) (by show (w.swap decl k p v).2.g.producers = _; rw [this])
      (fun m => by cases (w.step decl (.swap k p v)).1.isOk <;> rfl)
  | openTable k m wr tol =>
    have := ((openTable_touch w k m wr tol).l h (fun _ => true)).2
    exact ht.quiet (by show (w.openTable k m wr tol).2.g.name2gid = _; rw [this]) (by show (w.openTable k m wr tol).2.g.producers = _; rw [this])
      (fun n => by cases (w.step decl (.openTable k m wr tol)).1.isOk <;> rfl)
  | panicWriting k m tol =>
    have := ((panicWriting_touch w k m tol).l h (fun _ => true)).2
    exact ht.quiet (by show (w.panicWriting k m tol).2.g.name2gid = _; rw [this]) (by show (w.panicWriting k m tol).2.g.producers = _; rw [this])
      (fun n => by cases (w.step decl (.panicWriting k m tol)).1.isOk <;> rfl)
  | registerTracker k r =>
    have := ((registerTracker_touch w k r).l h (fun _ => true)).2
    exact ht.quiet (by show (w.registerTracker k r).2.g.name2gid = _; rw [this]) (by show (w.registerTracker k r).2.g.producers = _; rw [this])
      (fun n => by cases (w.step decl (.registerTracker k r)).1.isOk <;> rfl)

theorem setLocked_same (w : World P V) (n : String) (b : Bool) :
    (w.setLocked n b).2.g.name2gid = w.g.name2gid ∧ (w.setLocked n b).2.g.producers = w.g.producers := by
  unfold World.setLocked
  split
  · exact ⟨rfl, rfl⟩
  · split <;> exact ⟨rfl, rfl⟩

theorem lkRun_init {w : World P V} (h : LInv decl w) {tr : List (ROp decl × Bool)} (ht : InitOk w tr) (ops : List (LkOp decl)) :
    InitOk (w.lkRun decl ops) (tr ++ w.lkTrace decl ops) := by
  induction ops generalizing w tr with
  | nil =>
    show InitOk w (tr ++ [])
    rw [List.append_nil]; exact ht
  | cons op ops ih =>
    have hl := lkStep_l h (fun _ => true) op (fun _ _ => rfl)
    cases op with
    | call op =>
      have := ih hl.inv (step_init h ht op)
      rw [List.append_assoc] at this
      exact this
    | setLocked n b =>
      refine ih hl.inv ?_
      intro name
      show _ = ((w.setLocked n b).2.g.name2gid.lookup name).bind ((w.setLocked n b).2.g.producers[·]?)
      rw [(setLocked_same w n b).1, (setLocked_same w n b).2]
      exact ht name

theorem lk_init (ops : List (LkOp decl)) : InitOk (World.lkAfter decl ops : World P V) (World.lkHistory decl ops) := by
  have : InitOk (World.empty : World P V) ([] : List (ROp decl × Bool)) := by
    intro name
    simp [firstInit, World.empty]
  exact lkRun_init LInv.empty this ops

/-- A registered property has its place. -/
theorem lk_registered {w : World P V} (h : LInv decl w) {ops : List (LkOp decl)} {p : P}
    (hr : ((ROp.registerProp p : ROp decl), true) ∈ w.lkTrace decl ops) : ∃ i, (w.lkRun decl ops).idx p = some i := by
  induction ops generalizing w with
  | nil => cases hr
  | cons op ops ih =>
    have hl := lkStep_l h (fun _ => true) op (fun _ _ => rfl)
    cases op with
    | setLocked n b => exact ih hl.inv hr
    | call op =>
      rcases List.mem_cons.1 hr with hr | hr
      · injection hr with h1 h2
        subst h1
        obtain ⟨i, hi⟩ := registerProp_idx (w := w) (decl := decl) (p := p) h2.symm
        exact ⟨i, (lkRun_l hl.inv (fun _ => true) ops (fun _ _ _ _ => rfl)).idx p i hi⟩
      · exact ih hl.inv hr

theorem Registers.idx {ops : List (LkOp decl)} {p : P} (h : Registers p ops) : ∃ i, (World.lkAfter decl ops : World P V).idx p = some i :=
  lk_registered LInv.empty h

/-- How a resolved property is read. -/
theorem get_idx {w : World P V} {k : Nat} {p : P} {u : List (MaybeDomain V)} {i : PIndex} (hk : w.unis[k]? = some u) (hi : w.idx p = some i) :
    w.get decl k p = (match cellOf u i with | .error e => (.error e, w) | .ok v => (downcast _ v, w)) := by
  unfold World.get World.resolve
  rw [hk, hi]
  simp only []
  cases cellOf u i <;> rfl

/-- Where a domain is in a universe. -/
theorem hasDomain_l {w : World P V} (h : LInv decl w) {k : Nat} {u : List (MaybeDomain V)} (hk : w.unis[k]? = some u) {n : String} {info : DomainInfo}
    (hl : w.g.domains.lookup n = some info) : w.hasDomain k n ↔ ∃ d, u[info.id]? = some (.domain d) ∧ d.name = n := by
  have hu := h.unis u (List.mem_of_getElem? hk)
  constructor
  · rintro ⟨u', d, h1, h2, h3⟩
    rw [hk] at h1; injection h1 with h1; subst h1
    obtain ⟨j, hj, e⟩ := List.mem_iff_getElem.1 h2
    have hj' : u[j]? = some (.domain d) := by rw [List.getElem?_eq_getElem hj, e]
    obtain ⟨i, a1, a2, -⟩ := hu.inst _ _ hj'
    rw [h3, hl] at a1
    injection a1 with a1
    subst a1
    exact ⟨d, by rw [a2]; exact hj', h3⟩
  · rintro ⟨d, hd, hn⟩
    exact ⟨u, d, hk, List.mem_of_getElem? hd, hn⟩

/-- What is at a domain's place is the domain. -/
theorem at_place {w : World P V} (h : LInv decl w) {k : Nat} {u : List (MaybeDomain V)} (hk : w.unis[k]? = some u) {n : String} {info : DomainInfo}
    (hl : w.g.domains.lookup n = some info) {d : Instance V} (hd : u[info.id]? = some (.domain d)) : d.name = n := by
  obtain ⟨i, a1, a2, -⟩ := (h.unis u (List.mem_of_getElem? hk)).inst _ _ hd
  exact h.g.id_inj a1 hl a2

end V11
