import Verif.Spec.RegThreads
import Verif.Lemmas.RegistryAdd

/-!
# Calls of several threads: universes and registries that look the same
-/

set_option linter.unusedSimpArgs false
set_option linter.unusedSectionVars false
set_option linter.unusedVariables false

namespace V11

variable {Ty : Type} [DecidableEq Ty] {V : Ty → Type} {P : Type} [DecidableEq P] {decl : P → PropDecl V}

/-! ## Universes that have the same domains -/

theorem domAt_iff {u : List (MaybeDomain V)} {j : Nat} {d : Instance V} : domAt u j = some d ↔ u[j]? = some (.domain d) := by
  unfold domAt
  cases u[j]? with
  | none => simp
  | some m => cases m <;> simp

theorem sameDomains_iff {u u' : List (MaybeDomain V)} : SameDomains u u' ↔ domAt u = domAt u' := by
  constructor
  · intro h
    funext j
    apply Option.ext
    intro d
    rw [domAt_iff, domAt_iff]
    exact h j d
  · intro h j d
    rw [← domAt_iff, ← domAt_iff, h]

theorem findTable_domAt (u : List (MaybeDomain V)) (did : Nat) (t : String) : findTable u did t = match domAt u did with
    | some d => (match d.tables.lookup t with | some x => .ok x | none => .error .noSuchTable)
    | none => .error .domainNotInUniverse := by
  unfold findTable domAt
  cases u[did]? with
  | none => rfl
  | some m => cases m <;> rfl

theorem cellOf_domAt (u : List (MaybeDomain V)) (i : PIndex) : cellOf u i = match domAt u i.domain with
    | some d => (match d.props[i.did]? with | some v => .ok v | none => .error .lateProp)
    | none => .error .domainNotInUniverse := by
  unfold cellOf domAt
  cases u[i.domain]? with
  | none => rfl
  | some m => cases m <;> rfl

theorem modTable_domAt (u : List (MaybeDomain V)) (did : Nat) (t : String) (f : TableInst → TableInst) :
    domAt (modTable u did t f) = fun j => if j = did then (domAt u j).map (·.modTable t f) else domAt u j := by
  funext j
  unfold modTable domAt
  rw [List.getElem?_modify]
  by_cases h : did = j
  · subst h
    cases u[did]? with
    | none => simp
    | some m => cases m <;> simp
  · have h' : ¬ j = did := fun e => h e.symm
    simp only [h, h', if_false]
    cases u[j]? with
    | none => simp
    | some m => cases m <;> simp

theorem putCell_domAt (u : List (MaybeDomain V)) (i : PIndex) (v : Σ t, V t) :
    domAt (putCell u i v) = fun j => if j = i.domain then (domAt u j).map (fun d => { d with props := d.props.set i.did v }) else domAt u j := by
  funext j
  unfold putCell domAt
  rw [List.getElem?_modify]
  by_cases h : i.domain = j
  · subst h
    cases u[i.domain]? with
    | none => simp
    | some m => cases m <;> simp
  · have h' : ¬ j = i.domain := fun e => h e.symm
    simp only [h, h', if_false]
    cases u[j]? with
    | none => simp
    | some m => cases m <;> simp

theorem set_domAt {u : List (MaybeDomain V)} {k : Nat} (hk : k < u.length) (d : Instance V) :
    domAt (u.set k (.domain d)) = fun j => if j = k then some d else domAt u j := by
  funext j
  unfold domAt
  rw [List.getElem?_set]
  by_cases h : k = j
  · subst h; simp [hk]
  · have h' : ¬ j = k := fun e => h e.symm
    simp [h, h']

theorem append_unset_domAt (u : List (MaybeDomain V)) (ns : List String) : domAt (u ++ ns.map .unset) = domAt u := by
  funext j
  unfold domAt
  by_cases h : j < u.length
  · rw [List.getElem?_append_left h]
  · rw [List.getElem?_append_right (by omega), List.getElem?_map, List.getElem?_eq_none (l := u) (by omega)]
    cases ns[j - u.length]? <;> rfl

theorem unset_domAt (ns : List String) : domAt (ns.map (MaybeDomain.unset (V := V))) = fun _ => none := by
  have := append_unset_domAt (V := V) [] ns
  rw [List.nil_append] at this
  rw [this]
  rfl

theorem findTable_alike {u u' : List (MaybeDomain V)} (h : domAt u = domAt u') (did : Nat) (t : String) : findTable u did t = findTable u' did t := by
  rw [findTable_domAt, findTable_domAt, h]

theorem cellOf_alike {u u' : List (MaybeDomain V)} (h : domAt u = domAt u') (i : PIndex) : cellOf u i = cellOf u' i := by
  rw [cellOf_domAt, cellOf_domAt, h]

theorem modTable_alike {u u' : List (MaybeDomain V)} (h : domAt u = domAt u') (did : Nat) (t : String) (f : TableInst → TableInst) :
    domAt (modTable u did t f) = domAt (modTable u' did t f) := by
  rw [modTable_domAt, modTable_domAt, h]

theorem registerAt_alike {u u' : List (MaybeDomain V)} (h : domAt u = domAt u') (did : Nat) (r : Reg) :
    (registerAt u did r).1 = (registerAt u' did r).1 ∧ domAt (registerAt u did r).2 = domAt (registerAt u' did r).2 := by
  unfold registerAt
  rw [findTable_alike h]
  split
  · exact ⟨rfl, h⟩
  · split
    · exact ⟨rfl, h⟩
    · split
      · exact ⟨rfl, modTable_alike h _ _ _⟩
      · split <;> exact ⟨rfl, modTable_alike h _ _ _⟩

theorem openAt_alike {u u' : List (MaybeDomain V)} (h : domAt u = domAt u') (did : Nat) (m : GTable) (b t : Bool) :
    (openAt u did m b t).1 = (openAt u' did m b t).1 ∧ domAt (openAt u did m b t).2 = domAt (openAt u' did m b t).2 := by
  unfold openAt
  rw [findTable_alike h]
  split
  · exact ⟨rfl, h⟩
  · split
    · refine ⟨rfl, ?_⟩
      cases b
      · exact h
      · exact modTable_alike h _ _ _
    · split <;> exact ⟨rfl, h⟩

theorem panicAt_alike {u u' : List (MaybeDomain V)} (h : domAt u = domAt u') (did : Nat) (m : GTable) (t : Bool) :
    (panicAt u did m t).1 = (panicAt u' did m t).1 ∧ domAt (panicAt u did m t).2 = domAt (panicAt u' did m t).2 := by
  unfold panicAt
  obtain ⟨h1, h2⟩ := openAt_alike h did m true t
  rcases e : openAt u did m true t with ⟨r, v⟩
  rcases e' : openAt u' did m true t with ⟨r', v'⟩
  rw [e, e'] at h1 h2
  simp only [] at h1 h2
  subst h1
  cases r with
  | error p => exact ⟨rfl, h2⟩
  | ok x => exact ⟨rfl, modTable_alike h2 _ _ _⟩

theorem register_eq (w : World P V) (u : List (MaybeDomain V)) (r : Reg) :
    w.register u r = match w.getId r.domain with | .error p => (some p, u) | .ok did => registerAt u did r := rfl

/-! ## Registries in which more domains are locked -/

/-- These domains are locked too. -/
def lockOn (L : String → Bool) (g : Globals V) : Globals V :=
  { g with domains := g.domains.map (fun p => (p.1, if L p.1 then { p.2 with locked := true } else p.2)) }

theorem lockOn_lookup (L : String → Bool) (g : Globals V) (n : String) :
    (lockOn L g).domains.lookup n = (g.domains.lookup n).map (fun i => if L n then { i with locked := true } else i) :=
  lookup_map (f := fun a (b : DomainInfo) => if L a then { b with locked := true } else b)

theorem lockOn_update (L : String → Bool) (g : Globals V) (n : String) (f : DomainInfo → DomainInfo)
    (hf : ∀ i : DomainInfo, f { i with locked := true } = { f i with locked := true }) :
    (lockOn L g).update n f = lockOn L (g.update n f) := by
  unfold Globals.update lockOn
  simp only [List.map_map]
  congr 1
  apply List.map_congr_left
  intro p _
  simp only [Function.comp]
  by_cases h : p.1 = n <;> by_cases h2 : L p.1 <;> simp [h, h2]
  · subst h
    simp [h2, hf]
  · subst h
    simp [h2]

theorem lockOn_lockOn (L M : String → Bool) (g : Globals V) : lockOn L (lockOn M g) = lockOn (fun n => L n || M n) g := by
  unfold lockOn
  simp only [List.map_map]
  congr 1
  apply List.map_congr_left
  intro p _
  simp only [Function.comp]
  cases h : L p.1 <;> cases h2 : M p.1 <;> simp [h, h2]

theorem lockOn_false (g : Globals V) : lockOn (fun _ => false) g = g := by
  unfold lockOn
  simp

theorem update_lock (g : Globals V) (n : String) : g.update n (fun i => { i with locked := true }) = lockOn (fun m => decide (m = n)) g := by
  unfold Globals.update lockOn
  congr 1
  apply List.map_congr_left
  intro p _
  by_cases h : p.1 = n <;> simp [h]

theorem lockOn_instantiate (L : String → Bool) (g : Globals V) (n : String) :
    (lockOn L g).instantiate n = (g.instantiate n).map (fun x => (x.1, lockOn L x.2)) := by
  unfold Globals.instantiate
  rw [lockOn_lookup]
  cases e : g.domains.lookup n with
  | none => rfl
  | some info =>
    have hu : (lockOn L g).update n (fun i => { i with locked := true }) = lockOn L (g.update n (fun i => { i with locked := true })) :=
      lockOn_update L g n _ (fun _ => rfl)
    simp only [Option.map_some]
    cases h : L n
    · simp only [Bool.false_eq_true, if_false]
      show (info.members.mapM (checkedGet g.producers)).bind _ = ((info.members.mapM (checkedGet g.producers)).bind _).map _
      cases info.members.mapM (checkedGet g.producers) with
      | error p => rfl
      | ok r => simp only [Except.bind, Except.map]; rw [hu]
    · simp only [if_true]
      show (info.members.mapM (checkedGet g.producers)).bind _ = ((info.members.mapM (checkedGet g.producers)).bind _).map _
      cases info.members.mapM (checkedGet g.producers) with
      | error p => rfl
      | ok r => simp only [Except.bind, Except.map]; rw [hu]

theorem lockOn_getDomains (L : String → Bool) (g : Globals V) (ret : List (MaybeDomain V)) (ns : List String) :
    (lockOn L g).getDomains ret ns = (g.getDomains ret ns).map (fun x => (x.1, lockOn L x.2)) := by
  induction ns generalizing g ret with
  | nil => rfl
  | cons n ns ih =>
    unfold Globals.getDomains
    rw [lockOn_lookup]
    cases e : g.domains.lookup n with
    | none => rfl
    | some info =>
      simp only [Option.map_some]
      rw [lockOn_instantiate]
      have hid : (if L n = true then { info with locked := true } else info).id = info.id := by split <;> rfl
      rw [hid]
      cases e2 : g.instantiate n with
      | error p => rfl
      | ok x =>
        obtain ⟨inst, g'⟩ := x
        show (if info.id < ret.length then _ else _) = ((if info.id < ret.length then _ else _) : R _).map _
        split
        · exact ih g' _
        · rfl

theorem instantiate_g {g g' : Globals V} {n : String} {inst : Instance V} (h : g.instantiate n = .ok (inst, g')) :
    g' = lockOn (fun m => decide (m = n)) g := by
  unfold Globals.instantiate at h
  cases e : g.domains.lookup n with
  | none => rw [e] at h; cases h
  | some info =>
    rw [e] at h
    simp only [] at h
    replace h : (info.members.mapM (checkedGet g.producers)).bind _ = _ := h
    cases e2 : info.members.mapM (checkedGet g.producers) with
    | error p => rw [e2] at h; cases h
    | ok r =>
      rw [e2] at h
      simp only [Except.bind] at h
      injection h with h
      injection h with h1 h2
      rw [← h2, update_lock]

theorem getDomains_g {g g' : Globals V} {ret u : List (MaybeDomain V)} {ns : List String} (h : g.getDomains ret ns = .ok (u, g')) :
    g' = lockOn (fun m => decide (m ∈ ns)) g := by
  induction ns generalizing g ret with
  | nil =>
    injection h with h
    injection h with h1 h2
    rw [← h2]
    simp only [List.not_mem_nil, decide_false]
    exact (lockOn_false g).symm
  | cons n ns ih =>
    unfold Globals.getDomains at h
    cases e : g.domains.lookup n with
    | none => rw [e] at h; cases h
    | some info =>
      rw [e] at h
      simp only [] at h
      cases e2 : g.instantiate n with
      | error p => rw [e2] at h; cases h
      | ok x =>
        obtain ⟨inst, g1⟩ := x
        rw [e2] at h
        replace h : (if info.id < ret.length then g1.getDomains (ret.set info.id (.domain inst)) ns else .error .vecOob) = .ok (u, g') := h
        split at h
        · rw [ih h, instantiate_g e2, lockOn_lockOn]
          congr 1
          funext m
          by_cases h1 : m = n <;> by_cases h2 : m ∈ ns <;> simp [h1, h2]
        · cases h


/-! ## Processes that look the same, apart from domains that are locked already -/

/-- `v` is what is in memory, `w` is what a single thread would have: in `v` these domains are locked as well. -/
structure Behind (L : String → Bool) (v w : World P V) : Prop where
  g : v.g = lockOn L w.g
  vp : v.poisoned = false
  wp : w.poisoned = false
  idx : v.idx = w.idx
  unis : v.unis.map domAt = w.unis.map domAt

theorem Behind.len {L : String → Bool} {v w : World P V} (h : Behind L v w) : v.unis.length = w.unis.length := by
  have := congrArg List.length h.unis
  simpa using this

theorem Behind.at {L : String → Bool} {v w : World P V} (h : Behind L v w) {k : Nat} {u : List (MaybeDomain V)} (hk : v.unis[k]? = some u) :
    ∃ u', w.unis[k]? = some u' ∧ domAt u = domAt u' := by
  have := congrArg (·[k]?) h.unis
  simp only [List.getElem?_map, hk, Option.map_some] at this
  cases e : w.unis[k]? with
  | none => rw [e] at this; cases this
  | some u' =>
    rw [e] at this
    simp only [Option.map_some] at this
    injection this with this
    exact ⟨u', rfl, this⟩

theorem Behind.none {L : String → Bool} {v w : World P V} (h : Behind L v w) {k : Nat} (hk : v.unis[k]? = none) : w.unis[k]? = none := by
  have hl := h.len
  rw [List.getElem?_eq_none_iff] at hk ⊢
  omega

theorem Behind.set {L : String → Bool} {v w : World P V} (h : Behind L v w) (k : Nat) {u u' : List (MaybeDomain V)} (hu : domAt u = domAt u') :
    Behind L ({ v with unis := v.unis.set k u } : World P V) ({ w with unis := w.unis.set k u' } : World P V) where
  g := h.g
  vp := h.vp
  wp := h.wp
  idx := h.idx
  unis := by rw [List.map_set, List.map_set, h.unis, hu]

/-- Only one side's list of domains is brought up to date. -/
theorem Behind.setLeft {L : String → Bool} {v w : World P V} (h : Behind L v w) (k : Nat) {u u' : List (MaybeDomain V)} (hk : v.unis[k]? = some u')
    (hu : domAt u = domAt u') : Behind L ({ v with unis := v.unis.set k u } : World P V) w where
  g := h.g
  vp := h.vp
  wp := h.wp
  idx := h.idx
  unis := by
    rw [List.map_set, hu, ← h.unis]
    apply List.ext_getElem?
    intro j
    rw [List.getElem?_set, List.getElem?_map]
    by_cases e : k = j
    · subst e
      have := get_lt hk
      rw [hk]
      simp [this]
    · simp [e]

theorem Behind.setRight {L : String → Bool} {v w : World P V} (h : Behind L v w) (k : Nat) {u u' : List (MaybeDomain V)} (hk : w.unis[k]? = some u')
    (hu : domAt u = domAt u') : Behind L v ({ w with unis := w.unis.set k u } : World P V) where
  g := h.g
  vp := h.vp
  wp := h.wp
  idx := h.idx
  unis := by
    rw [List.map_set, hu, h.unis]
    apply List.ext_getElem?
    intro j
    rw [List.getElem?_set, List.getElem?_map]
    by_cases e : k = j
    · subst e
      have := get_lt hk
      rw [hk]
      simp [this]
    · simp [e]

theorem Behind.lookup {L : String → Bool} {v w : World P V} (h : Behind L v w) (n : String) :
    v.g.domains.lookup n = (w.g.domains.lookup n).map (fun i => if L n then { i with locked := true } else i) := by
  rw [h.g, lockOn_lookup]

theorem Behind.getId {L : String → Bool} {v w : World P V} (h : Behind L v w) (n : String) : v.getId n = w.getId n := by
  unfold World.getId
  rw [h.vp, h.wp, h.lookup n]
  cases w.g.domains.lookup n with
  | none => rfl
  | some i => cases L n <;> rfl

theorem Behind.registerDomain {L : String → Bool} {v w : World P V} (h : Behind L v w) (n : String)
    (hL : ∀ m, L m = true → (w.g.domains.lookup m).isSome = true) :
    (v.registerDomain n).1 = (w.registerDomain n).1 ∧ Behind L (v.registerDomain n).2 (w.registerDomain n).2 := by
  unfold World.registerDomain
  cases checkName n.toList with
  | error p => exact ⟨rfl, h⟩
  | ok x =>
    simp only []
    rw [if_neg (by simp [h.vp]), if_neg (by simp [h.wp]), h.lookup n]
    cases e : w.g.domains.lookup n with
    | some i => exact ⟨rfl, h⟩
    | none =>
      refine ⟨rfl, ?_, h.vp, h.wp, h.idx, h.unis⟩
      simp only [Option.map_none]
      rw [h.g]
      have hn : L n = false := by
        cases hl : L n with
        | false => rfl
        | true => have := hL n hl; rw [e] at this; cases this
      unfold lockOn
      simp [hn]

theorem Behind.registerTable {L : String → Bool} {v w : World P V} (h : Behind L v w) (t : GTable) (hp : (v.registerTable t).2.poisoned = false) :
    (v.registerTable t).1 = (w.registerTable t).1 ∧ Behind L (v.registerTable t).2 (w.registerTable t).2 := by
  unfold World.registerTable at hp ⊢
  cases hb : t.build with
  | error p => exact ⟨rfl, h⟩
  | ok x =>
    rw [hb] at hp
    simp only [] at hp ⊢
    rw [if_neg (by simp [h.vp]), h.lookup t.domain] at hp
    rw [if_neg (by simp [h.vp]), if_neg (by simp [h.wp]), h.lookup t.domain]
    cases e : w.g.domains.lookup t.domain with
    | none => rw [e] at hp; simp [World.die] at hp
    | some info =>
      rw [e] at hp
      simp only [Option.map_some] at hp ⊢
      cases hl : L t.domain with
      | true => rw [hl] at hp; simp [World.die] at hp
      | false =>
        rw [hl] at hp
        simp only [Bool.false_eq_true, if_false] at hp ⊢
        cases hk : info.locked with
        | true => rw [hk] at hp; simp [World.die] at hp
        | false =>
          rw [hk] at hp
          simp only [Bool.false_eq_true, if_false] at hp ⊢
          cases ht : info.tables.lookup t.name with
          | none =>
            refine ⟨rfl, ?_, h.vp, h.wp, h.idx, h.unis⟩
            simp only []
            rw [h.g]
            exact lockOn_update _ _ _ _ (fun _ => rfl)
          | some old =>
            rw [ht] at hp
            simp only [] at hp ⊢
            split at hp
            · rename_i hq
              rw [if_pos hq, if_pos hq]
              exact ⟨rfl, h⟩
            · simp [World.die] at hp

theorem Behind.registerProp {L : String → Bool} {v w : World P V} (h : Behind L v w) (p : P) (hp : (v.registerProp decl p).2.poisoned = false) :
    (v.registerProp decl p).1 = (w.registerProp decl p).1 ∧ Behind L (v.registerProp decl p).2 (w.registerProp decl p).2 := by
  unfold World.registerProp at hp ⊢
  rw [if_neg (by simp [h.vp])] at hp
  rw [if_neg (by simp [h.vp]), if_neg (by simp [h.wp]), ← h.idx]
  cases hi : v.idx p with
  | some i => exact ⟨rfl, h⟩
  | none =>
    rw [hi] at hp
    simp only [] at hp ⊢
    cases hc : checkPropName (decl p).domain.toList (decl p).name.toList with
    | error e => rw [hc] at hp; simp [World.die] at hp
    | ok x =>
      rw [hc, h.lookup] at hp
      rw [h.lookup]
      simp only [] at hp ⊢
      cases e : w.g.domains.lookup (decl p).domain with
      | none => rw [e] at hp; simp [World.die] at hp
      | some info =>
        rw [e] at hp
        simp only [Option.map_some] at hp ⊢
        cases hl : L (decl p).domain with
        | true => rw [hl] at hp; simp [World.die] at hp
        | false =>
          rw [hl] at hp
          simp only [Bool.false_eq_true, if_false] at hp ⊢
          cases hk : info.locked with
          | true => rw [hk] at hp; simp [World.die] at hp
          | false =>
            simp only [Bool.false_eq_true, if_false]
            have hg1 : v.g.name2gid = w.g.name2gid := by rw [h.g]; rfl
            have hg2 : v.g.producers = w.g.producers := by rw [h.g]; rfl
            rw [hg1, hg2]
            refine ⟨trivial, ?_, h.vp, h.wp, ?_, h.unis⟩
            · simp only []
              rw [h.g]
              exact lockOn_update L { w.g with
                name2gid := if (w.g.name2gid.lookup (decl p).name).isSome then w.g.name2gid else w.g.name2gid ++ [((decl p).name, (w.g.name2gid.lookup (decl p).name).getD w.g.producers.length)]
                producers := if (w.g.name2gid.lookup (decl p).name).isSome then w.g.producers else w.g.producers ++ [Sigma.mk (decl p).ty (decl p).init] } _ _ (fun _ => rfl)
            · rfl

theorem Behind.syncAlias {L : String → Bool} {v w : World P V} (h : Behind L v w) (p : P) (hp : (v.syncAlias decl p).2.poisoned = false) :
    (v.syncAlias decl p).1 = (w.syncAlias decl p).1 ∧ Behind L (v.syncAlias decl p).2 (w.syncAlias decl p).2 := by
  unfold World.syncAlias at hp ⊢
  rw [if_neg (by simp [h.vp])] at hp
  rw [if_neg (by simp [h.vp]), if_neg (by simp [h.wp])]
  rw [h.lookup] at hp ⊢
  have hg1 : v.g.name2gid = w.g.name2gid := by rw [h.g]; rfl
  rw [hg1] at hp ⊢
  cases e : w.g.domains.lookup (decl p).domain with
  | none => rw [e] at hp; simp [World.die] at hp
  | some info =>
    rw [e] at hp
    simp only [Option.map_some] at hp ⊢
    cases e2 : w.g.name2gid.lookup (decl p).name with
    | none => rw [e2] at hp; simp [World.die] at hp
    | some gid =>
      rw [e2] at hp
      simp only [] at hp ⊢
      have h1 : (if L (decl p).domain = true then { info with locked := true } else info).name2did = info.name2did := by split <;> rfl
      have h2 : (if L (decl p).domain = true then { info with locked := true } else info).id = info.id := by split <;> rfl
      rw [h1] at hp
      rw [h1, h2]
      cases e3 : info.name2did.lookup (decl p).name with
      | none => rw [e3] at hp; simp [World.die] at hp
      | some did => exact ⟨rfl, h.g, h.vp, h.wp, by simp only []; rw [h.idx], h.unis⟩

/-- A property call after the static is set. -/
theorem Behind.get {L : String → Bool} {v w : World P V} (h : Behind L v w) (k : Nat) (p : P) (hi : (v.idx p).isSome = true) :
    (v.get decl k p).1 = (w.get decl k p).1 ∧ Behind L (v.get decl k p).2 (w.get decl k p).2 := by
  obtain ⟨i, hi⟩ := Option.isSome_iff_exists.1 hi
  have hr : v.resolve decl p = (.ok i, v) := by unfold World.resolve; rw [hi]
  have hr' : w.resolve decl p = (.ok i, w) := by unfold World.resolve; rw [← h.idx, hi]
  unfold World.get
  rw [hr, hr']
  cases e : v.unis[k]? with
  | none => rw [h.none e]; exact ⟨rfl, h⟩
  | some u =>
    obtain ⟨u', e', hu⟩ := h.at e
    rw [e']
    simp only []
    rw [cellOf_alike hu]
    cases cellOf u' i with
    | error x => exact ⟨rfl, h⟩
    | ok x => exact ⟨rfl, h⟩

theorem Behind.swap {L : String → Bool} {v w : World P V} (h : Behind L v w) (k : Nat) (p : P) (x : V (decl p).ty) (hi : (v.idx p).isSome = true) :
    (v.swap decl k p x).1 = (w.swap decl k p x).1 ∧ Behind L (v.swap decl k p x).2 (w.swap decl k p x).2 := by
  obtain ⟨i, hi⟩ := Option.isSome_iff_exists.1 hi
  have hr : v.resolve decl p = (.ok i, v) := by unfold World.resolve; rw [hi]
  have hr' : w.resolve decl p = (.ok i, w) := by unfold World.resolve; rw [← h.idx, hi]
  unfold World.swap
  rw [hr, hr']
  cases e : v.unis[k]? with
  | none => rw [h.none e]; exact ⟨rfl, h⟩
  | some u =>
    obtain ⟨u', e', hu⟩ := h.at e
    rw [e']
    simp only []
    rw [cellOf_alike hu]
    cases cellOf u' i with
    | error x => exact ⟨rfl, h⟩
    | ok y =>
      simp only []
      cases downcast (decl p).ty y with
      | error x => exact ⟨rfl, h⟩
      | ok old =>
        refine ⟨rfl, h.set k ?_⟩
        rw [putCell_domAt, putCell_domAt, hu]

theorem Behind.addProperties {L : String → Bool} {v w : World P V} (h : Behind L v w) (hv : WInv decl v) (hw : WInv decl w) (k : Nat) :
    (v.addProperties k).1.toOption = (w.addProperties k).1.toOption ∧ Behind L (v.addProperties k).2 (w.addProperties k).2 := by
  obtain ⟨a1, a2⟩ := addProperties_noop hv k
  obtain ⟨b1, b2⟩ := addProperties_noop hw k
  rw [a1, b1]
  refine ⟨?_, h⟩
  have : (v.addProperties k).1 = .ok () ↔ (w.addProperties k).1 = .ok () := by
    rw [a2, b2, h.vp, h.wp, h.len]
  rcases e : (v.addProperties k).1 with p | x <;> rcases e' : (w.addProperties k).1 with p' | x'
  · rfl
  · rw [e, e'] at this; cases this.2 rfl
  · rw [e, e'] at this; cases this.1 rfl
  · rfl


/-! ## Calls on tables -/

theorem set_self {α : Type} {l : List α} {k : Nat} {a : α} (h : l[k]? = some a) : l.set k a = l := by
  apply List.ext_getElem?
  intro j
  rw [List.getElem?_set]
  by_cases e : k = j
  · subst e
    have := get_lt h
    rw [h]
    simp [this]
  · simp [e]

/-- The domain of the table a call is about. -/
def ROp.tableDomain {decl : P → PropDecl V} : ROp decl → Option String
  | .openTable _ m _ _ => some m.domain
  | .panicWriting _ m _ => some m.domain
  | .registerTracker _ r => some r.domain
  | _ => none

theorem openTable_at {w : World P V} {k : Nat} {u : List (MaybeDomain V)} (hk : w.unis[k]? = some u) {m : GTable} {did : Nat} (hd : w.getId m.domain = .ok did)
    (b t : Bool) : w.openTable k m b t = ((openAt u did m b t).1, { w with unis := w.unis.set k (openAt u did m b t).2 }) := by
  unfold World.openTable openAt
  rw [hk, hd]
  simp only []
  have hs : ({ w with unis := w.unis.set k u } : World P V) = w := by rw [set_self hk]
  cases e : findTable u did m.name with
  | error p => exact Prod.ext rfl hs.symm
  | ok x =>
    simp only []
    cases e2 : x.gt.convert m with
    | error p =>
      cases b
      · exact Prod.ext rfl hs.symm
      · rfl
    | ok y =>
      simp only []
      split <;> exact Prod.ext rfl hs.symm

theorem openAt_ok {u : List (MaybeDomain V)} {did : Nat} {m : GTable} {b t : Bool} {x : Unit} (h : (openAt u did m b t).1 = .ok x) : (openAt u did m b t).2 = u := by
  unfold openAt at h ⊢
  cases e : findTable u did m.name with
  | error p => rfl
  | ok y =>
    rw [e] at h
    simp only [] at h ⊢
    cases e2 : y.gt.convert m with
    | error p => rw [e2] at h; cases h
    | ok z => simp only []; split <;> rfl

theorem panicWriting_at {w : World P V} {k : Nat} {u : List (MaybeDomain V)} (hk : w.unis[k]? = some u) {m : GTable} {did : Nat} (hd : w.getId m.domain = .ok did)
    (t : Bool) : w.panicWriting k m t = ((panicAt u did m t).1, { w with unis := w.unis.set k (panicAt u did m t).2 }) := by
  unfold World.panicWriting panicAt
  rw [openTable_at hk hd]
  cases e : openAt u did m true t with
  | mk r v =>
    cases r with
    | error p => rfl
    | ok x =>
      simp only []
      have h1 : v = u := by
        have := openAt_ok (u := u) (did := did) (m := m) (b := true) (t := t) (x := x) (by rw [e])
        rw [e] at this; exact this
      subst h1
      have hs := set_self hk
      have : (w.unis.set k v)[k]? = some v := by rw [hs, hk]
      rw [this]
      have hd' : ({ w with unis := w.unis.set k v } : World P V).getId m.domain = .ok did := hd
      rw [hd']
      simp [hs]

/-- What `register` gives as a result. -/
def panicR : Option Panic → R Unit
  | none => .ok ()
  | some p => .error p

theorem registerTracker_at {w : World P V} {k : Nat} {u : List (MaybeDomain V)} (hk : w.unis[k]? = some u) {r : Reg} {did : Nat} (hd : w.getId r.domain = .ok did) :
    w.registerTracker k r = (panicR (registerAt u did r).1, { w with unis := w.unis.set k (registerAt u did r).2 }) := by
  unfold World.registerTracker
  rw [hk]
  simp only []
  rw [register_eq, hd]
  simp only []
  rcases registerAt u did r with ⟨p, v⟩
  cases p <;> rfl

/-! ## Initialising new domains -/

/-- What is left of an initialisation. -/
def World.buildRun (w : World P V) : List (MaybeDomain V) → List (String ⊕ Reg) → Option Panic × List (MaybeDomain V)
  | u, [] => (none, u)
  | u, .inl n :: t =>
    match w.initDomain u n with
    | (none, u) => w.buildRun u t
    | r => r
  | u, .inr r :: t =>
    match w.register u r with
    | (none, u) => w.buildRun u t
    | r => r

theorem buildRun_inl (w : World P V) (ns : List String) (u : List (MaybeDomain V)) : w.buildRun u (ns.map .inl) = w.initDomains u ns := by
  induction ns generalizing u with
  | nil => rfl
  | cons n ns ih =>
    show (match w.initDomain u n with | (none, u) => w.buildRun u (ns.map .inl) | r => r) = (match w.initDomain u n with | (none, u) => w.initDomains u ns | r => r)
    rcases w.initDomain u n with ⟨p, v⟩
    cases p with
    | none => exact ih v
    | some p => rfl

theorem buildRun_one (w : World P V) (n : String) (u : List (MaybeDomain V)) : w.buildRun u [.inl n] = w.initDomain u n := by
  show (match w.initDomain u n with | (none, u) => w.buildRun u [] | r => r) = _
  rcases w.initDomain u n with ⟨p, v⟩
  cases p <;> rfl

theorem buildRun_inr (w : World P V) (rs : List Reg) (u : List (MaybeDomain V)) (t : List (String ⊕ Reg)) :
    w.buildRun u (rs.map .inr ++ t) = match w.registerAll u rs with | (none, u) => w.buildRun u t | r => r := by
  induction rs generalizing u with
  | nil => rfl
  | cons r rs ih =>
    show (match w.register u r with | (none, u) => w.buildRun u (rs.map .inr ++ t) | r => r) =
      match (match w.register u r with | (none, u) => w.registerAll u rs | (some p, u) => (some p, u)) with | (none, u) => w.buildRun u t | r => r
    rcases w.register u r with ⟨p, v⟩
    cases p with
    | none => exact ih v
    | some p => rfl

theorem buildOne_none {w : World P V} {u u' : List (MaybeDomain V)} {t t' : List (String ⊕ Reg)} {x : String ⊕ Reg} (h : w.buildOne u t x = (none, u', t')) :
    w.buildRun u (x :: t) = w.buildRun u' t' := by
  cases x with
  | inl n =>
    show (match w.initDomain u n with | (none, u) => w.buildRun u t | r => r) = _
    simp only [World.buildOne] at h
    unfold World.initDomain
    cases e : w.getId n with
    | error p => rw [e] at h; cases h
    | ok did =>
      rw [e] at h
      simp only [] at h ⊢
      cases e2 : u[did]? with
      | none => rw [e2] at h; cases h
      | some m =>
        rw [e2] at h
        cases m with
        | unset n => cases h
        | domain d =>
          simp only [] at h ⊢
          injection h with h1 h2
          injection h2 with h2 h3
          subst h2; subst h3
          rw [buildRun_inr]
  | inr r =>
    show (match w.register u r with | (none, u) => w.buildRun u t | r => r) = _
    simp only [World.buildOne] at h
    rcases e : w.register u r with ⟨p, v⟩
    rw [e] at h
    simp only [] at h
    injection h with h1 h2
    injection h2 with h2 h3
    subst h1; subst h2; subst h3
    rfl

theorem buildOne_some {w : World P V} {u u' : List (MaybeDomain V)} {t t' : List (String ⊕ Reg)} {x : String ⊕ Reg} {p : Panic} (h : w.buildOne u t x = (some p, u', t')) :
    w.buildRun u (x :: t) = (some p, u') := by
  cases x with
  | inl n =>
    show (match w.initDomain u n with | (none, u) => w.buildRun u t | r => r) = _
    simp only [World.buildOne] at h
    unfold World.initDomain
    cases e : w.getId n with
    | error p =>
      rw [e] at h
      simp only [] at h ⊢
      injection h with h1 h2
      injection h2 with h2 h3
      rw [h1, h2]
    | ok did =>
      rw [e] at h
      simp only [] at h ⊢
      cases e2 : u[did]? with
      | none =>
        rw [e2] at h
        simp only [] at h ⊢
        injection h with h1 h2
        injection h2 with h2 h3
        rw [h1, h2]
      | some m =>
        rw [e2] at h
        cases m with
        | unset n =>
          simp only [] at h ⊢
          injection h with h1 h2
          injection h2 with h2 h3
          rw [h1, h2]
        | domain d =>
          simp only [] at h
          injection h with h1 h2
          cases h1
  | inr r =>
    show (match w.register u r with | (none, u) => w.buildRun u t | r => r) = _
    simp only [World.buildOne] at h
    rcases e : w.register u r with ⟨q, v⟩
    rw [e] at h
    simp only [] at h
    injection h with h1 h2
    injection h2 with h2 h3
    subst h1; subst h2
    rfl

theorem buildOne_inv {w : World P V} {g : Globals V} {u u' : List (MaybeDomain V)} {t t' : List (String ⊕ Reg)} {x : String ⊕ Reg} {p : Option Panic}
    (hu : UOk g u) (h : w.buildOne u t x = (p, u', t')) : UOk g u' := by
  cases x with
  | inl n =>
    simp only [World.buildOne] at h
    cases e : w.getId n with
    | error p => rw [e] at h; injection h with h1 h2; injection h2 with h2 h3; rw [← h2]; exact hu
    | ok did =>
      rw [e] at h
      simp only [] at h
      cases e2 : u[did]? with
      | none => rw [e2] at h; injection h with h1 h2; injection h2 with h2 h3; rw [← h2]; exact hu
      | some m =>
        rw [e2] at h
        cases m <;> (injection h with h1 h2; injection h2 with h2 h3; rw [← h2]; exact hu)
  | inr r =>
    simp only [World.buildOne] at h
    injection h with h1 h2; injection h2 with h2 h3; rw [← h2]
    exact (register_inv hu).1

theorem buildRun_inv {w : World P V} {g : Globals V} (hg : w.g = g) (hgi : GInv g) (t : List (String ⊕ Reg)) {u : List (MaybeDomain V)} (hu : UOk g u) : UOk g (w.buildRun u t).2 := by
  subst hg
  induction t generalizing u with
  | nil => exact hu
  | cons x t ih =>
    cases x with
    | inl n =>
      show UOk w.g (match w.initDomain u n with | (none, u) => w.buildRun u t | r => r).2
      have h1 := (initDomain_inv hgi hu n).1
      rcases e : w.initDomain u n with ⟨p, v⟩
      rw [e] at h1
      cases p with
      | none => exact ih h1
      | some p => exact h1
    | inr r =>
      show UOk w.g (match w.register u r with | (none, u) => w.buildRun u t | r => r).2
      have h1 := (register_inv (w := w) (r := r) hu).1
      rcases e : w.register u r with ⟨p, v⟩
      rw [e] at h1
      cases p with
      | none => exact ih h1
      | some p => exact h1

/-- Both panic or neither does, with the same domains left. -/
def SameEnd (a b : Option Panic × List (MaybeDomain V)) : Prop := (a.1 = none ↔ b.1 = none) ∧ domAt a.2 = domAt b.2

theorem SameEnd.refl (a : Option Panic × List (MaybeDomain V)) : SameEnd a a := ⟨Iff.rfl, rfl⟩
theorem SameEnd.symm {a b : Option Panic × List (MaybeDomain V)} (h : SameEnd a b) : SameEnd b a := ⟨h.1.symm, h.2.symm⟩
theorem SameEnd.trans {a b c : Option Panic × List (MaybeDomain V)} (h : SameEnd a b) (h' : SameEnd b c) : SameEnd a c :=
  ⟨h.1.trans h'.1, h.2.trans h'.2⟩

/-- What later registrations mean for the lookup of a domain. -/
theorem getId_later {v v' : World P V} (hg : GInv v.g) (hg' : GInv v'.g) (hx : Ext v.g v'.g) (hp : v.poisoned = false) (hp' : v'.poisoned = false)
    (n : String) {u : List (MaybeDomain V)} (hu : UOk v.g u) :
    (∃ did, v.getId n = .ok did ∧ v'.getId n = .ok did) ∨ (∃ p, v.getId n = .error p ∧ ∀ did, v'.getId n = .ok did → domAt u did = none) := by
  cases e : v.g.domains.lookup n with
  | some info =>
    obtain ⟨info', h1, h2, -⟩ := hx.dom n info e
    exact Or.inl ⟨info.id, getId_eq hp e, by rw [getId_eq hp' h1, h2]⟩
  | none =>
    refine Or.inr ⟨.noSuchDomain, by unfold World.getId; rw [if_neg (by simp [hp]), e], ?_⟩
    intro did hd
    cases e' : v'.g.domains.lookup n with
    | none => unfold World.getId at hd; rw [if_neg (by simp [hp']), e'] at hd; cases hd
    | some info =>
      rw [getId_eq hp' e'] at hd
      injection hd with hd
      cases hdd : domAt u did with
      | none => rfl
      | some d =>
        obtain ⟨i, hi⟩ := hu.inst did d (domAt_iff.1 hdd)
        have h1 := prefix_get hx.names hi.name
        have h2 := hg'.ids _ _ e'
        rw [hd, h1] at h2
        injection h2 with h2
        have := hi.look
        rw [h2, e] at this
        cases this

theorem findTable_none {u : List (MaybeDomain V)} {did : Nat} (h : domAt u did = none) (t : String) : findTable u did t = .error .domainNotInUniverse := by
  rw [findTable_domAt, h]

theorem register_later {v v' : World P V} (hg : GInv v.g) (hg' : GInv v'.g) (hx : Ext v.g v'.g) (hp : v.poisoned = false) (hp' : v'.poisoned = false)
    {u u' : List (MaybeDomain V)} (hu : UOk v.g u) (ha : domAt u = domAt u') (r : Reg) : SameEnd (v.register u r) (v'.register u' r) := by
  rw [register_eq, register_eq]
  rcases getId_later hg hg' hx hp hp' r.domain hu with ⟨did, h1, h2⟩ | ⟨p, h1, h2⟩
  · rw [h1, h2]
    obtain ⟨a1, a2⟩ := registerAt_alike ha did r
    exact ⟨by simp only []; rw [a1], a2⟩
  · rw [h1]
    cases e : v'.getId r.domain with
    | error q => exact ⟨by simp, ha⟩
    | ok did =>
      have := h2 did e
      rw [ha] at this
      simp only []
      unfold registerAt
      rw [findTable_none this]
      exact ⟨by simp, ha⟩

theorem registerAll_later {v v' : World P V} (hg : GInv v.g) (hg' : GInv v'.g) (hx : Ext v.g v'.g) (hp : v.poisoned = false) (hp' : v'.poisoned = false)
    (rs : List Reg) {u u' : List (MaybeDomain V)} (hu : UOk v.g u) (ha : domAt u = domAt u') : SameEnd (v.registerAll u rs) (v'.registerAll u' rs) := by
  induction rs generalizing u u' with
  | nil => exact ⟨Iff.rfl, ha⟩
  | cons r rs ih =>
    unfold World.registerAll
    have h := register_later hg hg' hx hp hp' hu ha r
    have hu1 := (register_inv (w := v) (r := r) hu).1
    rcases e : v.register u r with ⟨p, u1⟩
    rcases e' : v'.register u' r with ⟨p', u1'⟩
    rw [e, e'] at h
    rw [e] at hu1
    obtain ⟨h1, h2⟩ := h
    simp only [] at h1 h2
    cases p with
    | none =>
      have := h1.1 rfl
      subst this
      exact ih hu1 h2
    | some p =>
      cases p' with
      | none => cases h1.2 rfl
      | some p' => exact ⟨by simp, h2⟩

theorem initDomain_domAt (w : World P V) (u : List (MaybeDomain V)) (n : String) : SameEnd (w.initDomain u n) (match w.getId n with
    | .error p => (some p, u)
    | .ok did => match domAt u did with | some d => w.registerAll u d.inits | none => (some .vecOob, u)) := by
  unfold World.initDomain domAt
  cases w.getId n with
  | error p => exact SameEnd.refl _
  | ok did =>
    simp only []
    cases u[did]? with
    | none => exact SameEnd.refl _
    | some m =>
      cases m with
      | unset n => exact ⟨by simp, rfl⟩
      | domain d => exact SameEnd.refl _

theorem initDomain_later {v v' : World P V} (hg : GInv v.g) (hg' : GInv v'.g) (hx : Ext v.g v'.g) (hp : v.poisoned = false) (hp' : v'.poisoned = false)
    {u u' : List (MaybeDomain V)} (hu : UOk v.g u) (ha : domAt u = domAt u') (n : String) : SameEnd (v.initDomain u n) (v'.initDomain u' n) := by
  refine (initDomain_domAt v u n).trans (SameEnd.trans ?_ (initDomain_domAt v' u' n).symm)
  rcases getId_later hg hg' hx hp hp' n hu with ⟨did, h1, h2⟩ | ⟨p, h1, h2⟩
  · rw [h1, h2]
    simp only []
    rw [← ha]
    cases domAt u did with
    | none => exact ⟨by simp, ha⟩
    | some d => exact registerAll_later hg hg' hx hp hp' _ hu ha
  · rw [h1]
    cases e : v'.getId n with
    | error q => exact ⟨by simp, ha⟩
    | ok did =>
      have := h2 did e
      simp only []
      rw [← ha, this]
      exact ⟨by simp, ha⟩

/-- Whether an initialisation panics, and what it leaves, does not depend on what others register meanwhile. -/
theorem buildRun_later {v v' : World P V} (hg : GInv v.g) (hg' : GInv v'.g) (hx : Ext v.g v'.g) (hp : v.poisoned = false) (hp' : v'.poisoned = false)
    (t : List (String ⊕ Reg)) {u u' : List (MaybeDomain V)} (hu : UOk v.g u) (ha : domAt u = domAt u') : SameEnd (v.buildRun u t) (v'.buildRun u' t) := by
  induction t generalizing u u' with
  | nil => exact ⟨Iff.rfl, ha⟩
  | cons x t ih =>
    cases x with
    | inl n =>
      show SameEnd (match v.initDomain u n with | (none, u) => v.buildRun u t | r => r) (match v'.initDomain u' n with | (none, u) => v'.buildRun u t | r => r)
      have h := initDomain_later hg hg' hx hp hp' hu ha n
      have hu1 := (initDomain_inv hg hu n).1
      rcases e : v.initDomain u n with ⟨p, u1⟩
      rcases e' : v'.initDomain u' n with ⟨p', u1'⟩
      rw [e, e'] at h
      rw [e] at hu1
      obtain ⟨h1, h2⟩ := h
      simp only [] at h1 h2
      cases p with
      | none => have := h1.1 rfl; subst this; exact ih hu1 h2
      | some p =>
        cases p' with
        | none => cases h1.2 rfl
        | some p' => exact ⟨by simp, h2⟩
    | inr r =>
      show SameEnd (match v.register u r with | (none, u) => v.buildRun u t | r => r) (match v'.register u' r with | (none, u) => v'.buildRun u t | r => r)
      have h := register_later hg hg' hx hp hp' hu ha r
      have hu1 := (register_inv (w := v) (r := r) hu).1
      rcases e : v.register u r with ⟨p, u1⟩
      rcases e' : v'.register u' r with ⟨p', u1'⟩
      rw [e, e'] at h
      rw [e] at hu1
      obtain ⟨h1, h2⟩ := h
      simp only [] at h1 h2
      cases p with
      | none => have := h1.1 rfl; subst this; exact ih hu1 h2
      | some p =>
        cases p' with
        | none => cases h1.2 rfl
        | some p' => exact ⟨by simp, h2⟩

theorem registerAll_congr {v w : World P V} (h : ∀ n, v.getId n = w.getId n) (rs : List Reg) (u : List (MaybeDomain V)) : v.registerAll u rs = w.registerAll u rs := by
  induction rs generalizing u with
  | nil => rfl
  | cons r rs ih =>
    unfold World.registerAll
    have : v.register u r = w.register u r := by rw [register_eq, register_eq, h]
    rw [this]
    rcases w.register u r with ⟨p, u1⟩
    cases p with
    | none => exact ih u1
    | some p => rfl

theorem initDomain_congr {v w : World P V} (h : ∀ n, v.getId n = w.getId n) (u : List (MaybeDomain V)) (n : String) : v.initDomain u n = w.initDomain u n := by
  unfold World.initDomain
  rw [h]
  cases w.getId n with
  | error p => rfl
  | ok did =>
    simp only []
    split
    · exact registerAll_congr h _ _
    · rfl
    · rfl

theorem initDomains_congr {v w : World P V} (h : ∀ n, v.getId n = w.getId n) (ns : List String) (u : List (MaybeDomain V)) : v.initDomains u ns = w.initDomains u ns := by
  induction ns generalizing u with
  | nil => rfl
  | cons n ns ih =>
    unfold World.initDomains
    rw [initDomain_congr h]
    rcases w.initDomain u n with ⟨p, u1⟩
    cases p with
    | none => exact ih u1
    | some p => rfl

/-! ## The domains that are made -/

/-- A locked domain is made the same later. -/
theorem instantiate_later {g g' : Globals V} (hg : GInv g) (hx : Ext g g') {n : String} {info : DomainInfo} (hl : g.domains.lookup n = some info) (hk : info.locked = true) :
    ∃ inst, g.instantiate n = .ok (inst, lockOn (fun m => decide (m = n)) g) ∧ g'.instantiate n = .ok (inst, lockOn (fun m => decide (m = n)) g') := by
  obtain ⟨info', h1, -, -, h4⟩ := hx.dom n info hl
  have := h4 hk
  subst this
  obtain ⟨r, h2, h3⟩ := mapM_checkedGet g.producers info'.members (hg.info _ _ hl).mem
  obtain ⟨r', h2', h3'⟩ := mapM_checkedGet g'.producers info'.members
    (fun i hi => lt_of_lt_of_le ((hg.info _ _ hl).mem i hi) hx.producers.length_le)
  have hr : r = r' := by
    apply List.map_injective_iff.2 (Option.some_injective _)
    rw [h3, h3']
    apply List.map_congr_left
    intro i hi
    have hlt := (hg.info _ _ hl).mem i hi
    have e := List.getElem?_eq_getElem hlt
    rw [e, prefix_get hx.producers e]
  subst hr
  refine ⟨Instance.mk info'.id n r (info'.tables.map (fun p => (p.1, { gt := p.2, trackers := [], poisoned := false }))) info'.order, ?_, ?_⟩
  · unfold Globals.instantiate
    rw [hl]
    simp only []
    rw [h2]
    show Except.ok _ = Except.ok _
    rw [update_lock]
  · unfold Globals.instantiate
    rw [h1]
    simp only []
    rw [h2']
    show Except.ok _ = Except.ok _
    rw [update_lock]

theorem getDomains_cons {g : Globals V} {ret : List (MaybeDomain V)} {n : String} {ns : List String} {info : DomainInfo} {inst : Instance V} {g1 : Globals V}
    (hl : g.domains.lookup n = some info) (hi : g.instantiate n = .ok (inst, g1)) (hlt : info.id < ret.length) :
    (g.getDomains ret (n :: ns)).map Prod.fst = (g.getDomains (ret.set info.id (.domain inst)) ns).map Prod.fst := by
  have : g.getDomains ret (n :: ns) = g1.getDomains (ret.set info.id (.domain inst)) ns := by
    rw [Globals.getDomains, hl]
    simp only []
    rw [hi]
    show (if info.id < ret.length then _ else _) = _
    rw [if_pos hlt]
  rw [this, instantiate_g hi, lockOn_getDomains]
  cases g.getDomains (ret.set info.id (.domain inst)) ns <;> rfl

/-- Locked domains are made the same later. -/
theorem getDomains_later {g g' : Globals V} (hg : GInv g) (hg' : GInv g') (hx : Ext g g') (ns : List String)
    (hk : ∀ n ∈ ns, ∃ info, g.domains.lookup n = some info ∧ info.locked = true) {ret ret' : List (MaybeDomain V)} (hl : ret.length = g.did2name.length)
    (hl' : ret'.length = g'.did2name.length) (ha : domAt ret = domAt ret') :
    ∃ u u', (g.getDomains ret ns).map Prod.fst = .ok u ∧ (g'.getDomains ret' ns).map Prod.fst = .ok u' ∧ domAt u = domAt u' := by
  induction ns generalizing ret ret' with
  | nil => exact ⟨ret, ret', rfl, rfl, ha⟩
  | cons n ns ih =>
    obtain ⟨info, h1, h2⟩ := hk n (by simp)
    obtain ⟨inst, a1, a2⟩ := instantiate_later hg hx h1 h2
    obtain ⟨info', b1, b2, -⟩ := hx.dom n info h1
    have hlt : info.id < ret.length := by rw [hl]; exact get_lt (hg.ids _ _ h1)
    have hlt' : info.id < ret'.length := by rw [hl', ← b2]; exact get_lt (hg'.ids _ _ b1)
    rw [getDomains_cons h1 a1 hlt, getDomains_cons b1 a2 (by rw [b2]; exact hlt'), b2]
    refine ih (fun m hm => hk m (by simp [hm])) (by simpa using hl) (by simpa using hl') ?_
    rw [set_domAt hlt, set_domAt hlt', ha]

/-- If making these domains locks nothing new, they are locked. -/
theorem locked_of_same {g : Globals V} {L : String → Bool} (h : lockOn L g = g) {n : String} (hn : L n = true) {info : DomainInfo} (hl : g.domains.lookup n = some info) :
    info.locked = true := by
  have := lockOn_lookup L g n
  rw [h, hl, hn] at this
  simp only [Option.map_some, if_true] at this
  injection this with this
  rw [this]

theorem lockOn_idem (L : String → Bool) (g : Globals V) : lockOn L (lockOn L g) = lockOn L g := by
  rw [lockOn_lockOn]
  congr 1
  funext n
  cases L n <;> rfl

end V11
