import Verif.Lemmas.RegistryLedger
import Verif.Lemmas.Names

/-!
# More about reachable worlds
-/

set_option linter.unusedSimpArgs false
set_option linter.unusedSectionVars false
set_option linter.unusedVariables false

namespace V11

variable {Ty : Type} [DecidableEq Ty] {V : Ty → Type} {P : Type} [DecidableEq P] {decl : P → PropDecl V}

/-- Everything a call can leave in the trace. -/
theorem mem_trace {w : World P V} {ops : List (ROp decl)} {e : ROp decl × Bool} (h : e ∈ w.trace decl ops) :
    ∃ a b, ops = a ++ e.1 :: b ∧ e.2 = ((w.run decl a).step decl e.1).1.isOk := by
  induction ops generalizing w with
  | nil => cases h
  | cons op ops ih =>
    rw [World.trace, List.mem_cons] at h
    rcases h with rfl | h
    · exact ⟨[], ops, rfl, rfl⟩
    · obtain ⟨a, b, h1, h2⟩ := ih h
      exact ⟨op :: a, b, by rw [h1]; rfl, h2⟩

theorem isOk_iff {α : Type} {r : R α} : r.isOk = true ↔ ∃ v, r = .ok v := by
  cases r <;> simp [Except.isOk, Except.toBool]

theorem registerDomain_ok_iff (w : World P V) (n : String) : (w.registerDomain n).1 = .ok () ↔ IsName n.toList ∧ w.poisoned = false := by
  rw [← checkName_ok]
  unfold World.registerDomain
  cases h : checkName n.toList with
  | error e => simp
  | ok x =>
    simp only []
    cases hp : w.poisoned with
    | true => simp
    | false =>
      simp only [Bool.false_eq_true, if_false]
      cases w.g.domains.lookup n <;> simp

theorem mem_domains {ops : List (ROp decl)} {n : String} (h : n ∈ domainsOf ((World.empty : World P V).trace decl ops)) : IsName n.toList := by
  have := mem_firsts h
  obtain ⟨e, h1, h2⟩ := List.mem_filterMap.1 this
  obtain ⟨a, b, -, h4⟩ := mem_trace h1
  obtain ⟨op, ok⟩ := e
  cases op <;> cases ok <;> simp [okDomain] at h2
  subst h2
  simp only [] at h4
  obtain ⟨v, hv⟩ := isOk_iff.1 h4.symm
  exact ((registerDomain_ok_iff _ _).1 hv).1

theorem registerProp_idx {w : World P V} {p : P} (h : (w.registerProp decl p).1.isOk = true) : ∃ i, (w.registerProp decl p).2.idx p = some i := by
  unfold World.registerProp at h ⊢
  by_cases hp : w.poisoned = true
  · rw [if_pos hp] at h; cases h
  · simp only [if_neg hp] at h ⊢
    cases hi : w.idx p with
    | some i => simp only [hi]; exact ⟨i, rfl⟩
    | none =>
      simp only [hi] at h ⊢
      cases hc : checkPropName (decl p).domain.toList (decl p).name.toList with
      | error e => rw [hc] at h; cases h
      | ok x =>
        simp only [hc] at h ⊢
        cases hl : w.g.domains.lookup (decl p).domain with
        | none => rw [hl] at h; cases h
        | some info =>
          simp only [hl] at h ⊢
          by_cases hk : info.locked = true
          · rw [if_pos hk] at h; cases h
          · simp only [if_neg hk]
            exact ⟨_, by rw [Function.update_self]⟩

/-- A successfully registered property stays resolved. -/
theorem registered_idx {ops : List (ROp decl)} {p : P} (h : ((ROp.registerProp p : ROp decl), true) ∈ (World.empty : World P V).trace decl ops) :
    ∃ i, ((World.empty : World P V).run decl ops).idx p = some i := by
  obtain ⟨a, b, h1, h2⟩ := mem_trace h
  simp only [] at h1 h2
  obtain ⟨i, hi⟩ := registerProp_idx (w := (World.empty : World P V).run decl a) (decl := decl) (p := p) h2.symm
  refine ⟨i, ?_⟩
  rw [h1, run_append]
  have hw := (run_inv (decl := decl) WInv.empty a).1
  have := (run_inv (step_inv hw (ROp.registerProp p)).1 b).2
  exact this.idx p i hi

theorem firstInit_mem {tr : List (ROp decl × Bool)} {name : String} {v : Σ t, V t} (h : firstInit tr name = some v) :
    ∃ p, (ROp.registerProp p, true) ∈ tr ∧ (decl p).name = name ∧ v = ⟨_, (decl p).init⟩ := by
  have := List.mem_of_mem_head? h
  obtain ⟨e, h1, h2⟩ := List.mem_filterMap.1 this
  obtain ⟨op, ok⟩ := e
  cases op <;> cases ok <;> simp [initOf] at h2
  exact ⟨_, h1, h2.1, h2.2.symm⟩

/-- The place of a registered name. -/
theorem registered_place {ops : List (ROp decl)} {d : PropDecl V} {v : Σ t, V t}
    (h : firstInit ((World.empty : World P V).trace decl ops) d.name = some v) (hn : IsPropName d.domain.toList d.name.toList) :
    ∃ i, IdxOk ((World.empty : World P V).run decl ops).g d i ∧ ((World.empty : World P V).run decl ops).g.producers[i.gid]? = some v := by
  have L := ledger (P := P) (V := V) ops
  obtain ⟨q, h1, h2, h3⟩ := firstInit_mem h
  obtain ⟨i, hi⟩ := registered_idx h1
  obtain ⟨info, b1, b2, b3, b4⟩ := L.inv.idx q i hi
  have hf := L.front _ _ b1 _ _ b3
  have hf2 := checkPropName_front ((checkPropName_ok _ _).2 hn)
  rw [h2, hf2] at hf
  have hd : d.domain = (decl q).domain := String.toList_inj.1 hf
  have hidx : IdxOk ((World.empty : World P V).run decl ops).g d i := ⟨info, by rw [hd]; exact b1, b2, by rw [← h2]; exact b3, by rw [← h2]; exact b4⟩
  refine ⟨i, hidx, ?_⟩
  have := L.init d.name
  rw [h] at this
  obtain ⟨_, _, _, _, c4⟩ := hidx
  rw [c4] at this
  exact this.symm

/-- Resolving does not fail for a registered name, unless the registry is poisoned and the static was never used. -/
theorem resolve_of_idx {w : World P V} (h : WInv decl w) {p : P} {i : PIndex} (hi : IdxOk w.g (decl p) i)
    (hp : w.poisoned = false ∨ (w.idx p).isSome = true) : (w.resolve decl p).1 = .ok i := by
  unfold World.resolve
  cases hx : w.idx p with
  | some j =>
    rw [(h.idx p j hx).unique hi]
  | none =>
    have hp : w.poisoned = false := by
      rcases hp with hp | hp
      · exact hp
      · rw [hx] at hp; cases hp
    obtain ⟨info, a1, a2, a3, a4⟩ := hi
    simp only []
    unfold World.syncAlias
    rw [if_neg (by simp [hp]), a1]
    simp only []
    rw [a4]
    simp only []
    rw [a3]
    simp only []
    rw [a2]

/-- A domain is locked. -/
def World.isLocked (w : World P V) (n : String) : Prop := ∃ info, w.g.domains.lookup n = some info ∧ info.locked = true

/-- A domain in a universe is locked. -/
theorem inst_locked {w : World P V} (h : WInv decl w) {u : List (MaybeDomain V)} {d : Instance V} (hu : u ∈ w.unis) (hd : .domain d ∈ u) : w.isLocked d.name := by
  obtain ⟨j, hj, e⟩ := List.mem_iff_getElem.1 hd
  obtain ⟨info, hi⟩ := (h.unis u hu).inst j d (by rw [List.getElem?_eq_getElem hj, e])
  exact ⟨info, hi.look, hi.locked⟩

/-- The call puts (or tries to put) the domain into a universe. -/
def Mentions (n : String) : ROp decl → Prop
  | .newUniverse ns => n ∈ ns
  | .addDomain _ m => m = n
  | _ => False

theorem update_locked {g : Globals V} {name n : String} {f : DomainInfo → DomainInfo} (hf : name ≠ n ∨ ∀ i, (f i).locked = i.locked)
    {info : DomainInfo} (hl : (g.update name f).domains.lookup n = some info) (hk : info.locked = true) :
    ∃ info, g.domains.lookup n = some info ∧ info.locked = true := by
  rw [update_lookup] at hl
  cases e : g.domains.lookup n with
  | none => rw [e] at hl; cases hl
  | some i =>
    rw [e] at hl
    simp only [Option.map_some, Option.some.injEq] at hl
    refine ⟨i, rfl, ?_⟩
    split at hl
    · rename_i en
      rcases hf with hf | hf
      · exact absurd en.symm hf
      · rw [← hf i, hl]; exact hk
    · rw [hl]; exact hk

theorem getDomains_locked {g : Globals V} (hg : GInv g) (names : List String) {ret u : List (MaybeDomain V)} {g' : Globals V}
    (h : g.getDomains ret names = .ok (u, g')) {n : String} (hn : n ∉ names) (hl : ∃ info, g'.domains.lookup n = some info ∧ info.locked = true) :
    ∃ info, g.domains.lookup n = some info ∧ info.locked = true := by
  induction names generalizing g ret with
  | nil =>
    injection h with h
    injection h with h1 h2
    subst h2
    exact hl
  | cons m names ih =>
    rw [Globals.getDomains] at h
    cases hlk : g.domains.lookup m with
    | none => rw [hlk] at h; cases h
    | some info =>
      rw [hlk] at h
      simp only [] at h
      obtain ⟨inst, a1, a2, -⟩ := instantiate_ok hg hlk
      rw [a1] at h
      replace h : (if info.id < ret.length then (g.update m (fun i => { i with locked := true })).getDomains (ret.set info.id (.domain inst)) names
        else .error .vecOob) = .ok (u, g') := h
      split at h
      · obtain ⟨i, c1, c2⟩ := ih a2 h (fun hc => hn (by simp [hc]))
        exact update_locked (Or.inl (fun e => hn (by simp [e]))) c1 c2
      · cases h

theorem step_locked {w : World P V} (h : WInv decl w) (op : ROp decl) {n : String} (hl : (w.step decl op).2.isLocked n) :
    w.isLocked n ∨ Mentions n op := by
  by_cases hm : Mentions n op
  · exact Or.inr hm
  · left
    obtain ⟨info, hl, hk⟩ := hl
    cases op with
    | registerDomain m =>
      replace hl : (w.registerDomain m).2.g.domains.lookup n = some info := hl
      unfold World.registerDomain at hl
      split at hl
      · exact ⟨info, hl, hk⟩
      · split at hl
        · exact ⟨info, hl, hk⟩
        · split at hl
          · exact ⟨info, hl, hk⟩
          · simp only [] at hl
            rw [lookup_append] at hl
            cases e : w.g.domains.lookup n with
            | some i => rw [e] at hl; simp only [Option.some_or, Option.some.injEq] at hl; subst hl; exact ⟨i, e, hk⟩
            | none =>
              rw [e, Option.none_or, List.lookup_cons] at hl
              split at hl
              · injection hl with hl; subst hl; cases hk
              · cases hl
    | registerProp p =>
      replace hl : (w.registerProp decl p).2.g.domains.lookup n = some info := hl
      unfold World.registerProp at hl
      split at hl
      · exact ⟨info, hl, hk⟩
      · split at hl
        · exact ⟨info, hl, hk⟩
        · simp only [] at hl
          split at hl
          · exact ⟨info, hl, hk⟩
          · split at hl
            · exact ⟨info, hl, hk⟩
            · split at hl
              · exact ⟨info, hl, hk⟩
              · simp only [] at hl
                obtain ⟨i, h1, h2⟩ := update_locked (by right; intro _; rfl) hl hk
                exact ⟨i, h1, h2⟩
    | registerTable t =>
      replace hl : (w.registerTable t).2.g.domains.lookup n = some info := hl
      unfold World.registerTable at hl
      split at hl
      · exact ⟨info, hl, hk⟩
      · split at hl
        · exact ⟨info, hl, hk⟩
        · split at hl
          · exact ⟨info, hl, hk⟩
          · split at hl
            · exact ⟨info, hl, hk⟩
            · split at hl
              · simp only [] at hl
                obtain ⟨i, h1, h2⟩ := update_locked (by right; intro _; rfl) hl hk
                exact ⟨i, h1, h2⟩
              · split at hl
                · exact ⟨info, hl, hk⟩
                · exact ⟨info, hl, hk⟩
    | newUniverse ns =>
      replace hl : (w.newUniverse ns).2.g.domains.lookup n = some info := hl
      unfold World.newUniverse at hl
      split at hl
      · exact ⟨info, hl, hk⟩
      · split at hl
        · exact ⟨info, hl, hk⟩
        · rename_i u g' e
          have : ∃ info, g'.domains.lookup n = some info ∧ info.locked = true := by
            simp only [] at hl
            split at hl <;> exact ⟨info, hl, hk⟩
          exact getDomains_locked h.g ns e hm this
    | addDomain k m =>
      replace hl : (w.addDomain k m).2.g.domains.lookup n = some info := hl
      have hmn : m ≠ n := fun e => hm e
      unfold World.addDomain at hl
      split at hl
      · exact ⟨info, hl, hk⟩
      · split at hl
        · exact ⟨info, hl, hk⟩
        · simp only [] at hl
          split at hl
          · exact ⟨info, hl, hk⟩
          · rename_i id hid
            split at hl
            · exact ⟨info, hl, hk⟩
            · split at hl
              · exact ⟨info, hl, hk⟩
              · obtain ⟨-, i0, hl0, -⟩ := getId_ok hid
                obtain ⟨inst, a1, a2, -⟩ := instantiate_ok h.g (name := m) hl0
                rw [a1] at hl
                simp only [] at hl
                have : (w.g.update m (fun i => { i with locked := true })).domains.lookup n = some info := by
                  split at hl <;> exact hl
                exact update_locked (Or.inl hmn) this hk
    | addProperties k =>
      replace hl : (w.addProperties k).2.g.domains.lookup n = some info := hl
      rw [(addProperties_noop h k).1] at hl
      exact ⟨info, hl, hk⟩
    | get k p =>
      replace hl : (w.get decl k p).2.g.domains.lookup n = some info := hl
      rw [(get_step h k p).2.2.2] at hl
      exact ⟨info, hl, hk⟩
    | set k p v =>
      replace hl : (w.set decl k p v).2.g.domains.lookup n = some info := hl
      rw [set_snd, (swap_step h k p v).2.2.1] at hl
      exact ⟨info, hl, hk⟩
    | swap k p v =>
      replace hl : (w.swap decl k p v).2.g.domains.lookup n = some info := hl
      rw [(swap_step h k p v).2.2.1] at hl
      exact ⟨info, hl, hk⟩
    | openTable k m b t =>
      replace hl : (w.openTable k m b t).2.g.domains.lookup n = some info := hl
      rw [(Touch.inv h (openTable_touch w k m b t)).2.2.1] at hl
      exact ⟨info, hl, hk⟩
    | panicWriting k m t =>
      replace hl : (w.panicWriting k m t).2.g.domains.lookup n = some info := hl
      rw [(Touch.inv h (panicWriting_touch w k m t)).2.2.1] at hl
      exact ⟨info, hl, hk⟩
    | registerTracker k r =>
      replace hl : (w.registerTracker k r).2.g.domains.lookup n = some info := hl
      rw [(Touch.inv h (registerTracker_touch w k r)).2.2.1] at hl
      exact ⟨info, hl, hk⟩

theorem run_locked {w : World P V} (h : WInv decl w) (ops : List (ROp decl)) {n : String} (hl : (w.run decl ops).isLocked n) :
    w.isLocked n ∨ ∃ op ∈ ops, Mentions n op := by
  induction ops generalizing w with
  | nil => exact Or.inl hl
  | cons op ops ih =>
    rcases ih (step_inv h op).1 hl with h1 | ⟨o, h1, h2⟩
    · rcases step_locked h op h1 with h2 | h2
      · exact Or.inl h2
      · exact Or.inr ⟨op, by simp, h2⟩
    · exact Or.inr ⟨o, by simp [h1], h2⟩

/-! ## Poisoning -/

/-- Resolving poisons only when it fails. -/
theorem resolve_poison {w : World P V} {p : P} (h : w.poisoned = false) (h' : (w.resolve decl p).2.poisoned = true) :
    ∃ e, (w.resolve decl p).1 = .error e := by
  unfold World.resolve at h' ⊢
  split
  · rename_i i hi; rw [hi] at h'; simp only [] at h'; rw [h] at h'; cases h'
  · rename_i hi
    rw [hi] at h'
    simp only [] at h'
    unfold World.syncAlias at h' ⊢
    split
    · exact ⟨_, rfl⟩
    · split
      · exact ⟨_, rfl⟩
      · split
        · exact ⟨_, rfl⟩
        · split
          · exact ⟨_, rfl⟩
          · rename_i h1 _ info h2 _ gid h3 _ did h4
            rw [if_neg h1, h2] at h'
            simp only [h3, h4] at h'
            rw [h] at h'; cases h'

theorem get_poison {w : World P V} {k : Nat} {p : P} (h : w.poisoned = false) (h' : (w.get decl k p).2.poisoned = true) :
    ∃ e, (w.get decl k p).1 = .error e := by
  unfold World.get at h' ⊢
  cases hu : w.unis[k]? with
  | none => exact ⟨_, rfl⟩
  | some u =>
    simp only [hu] at h' ⊢
    have hr := resolve_poison (decl := decl) (p := p) h
    rcases e : w.resolve decl p with ⟨r, w1⟩
    simp only [e] at h' hr ⊢
    cases r with
    | error x => exact ⟨_, rfl⟩
    | ok i =>
      simp only [] at h' hr ⊢
      have : w1.poisoned = true := by
        split at h' <;> exact h'
      obtain ⟨x, hx⟩ := hr this
      cases hx

theorem swap_poison {w : World P V} {k : Nat} {p : P} {v : V (decl p).ty} (h : w.poisoned = false) (h' : (w.swap decl k p v).2.poisoned = true) :
    ∃ e, (w.swap decl k p v).1 = .error e := by
  unfold World.swap at h' ⊢
  cases hu : w.unis[k]? with
  | none => exact ⟨_, rfl⟩
  | some u =>
    simp only [hu] at h' ⊢
    have hr := resolve_poison (decl := decl) (p := p) h
    rcases e : w.resolve decl p with ⟨r, w1⟩
    simp only [e] at h' hr ⊢
    cases r with
    | error x => exact ⟨_, rfl⟩
    | ok i =>
      simp only [] at h' hr ⊢
      have : w1.poisoned = true := by
        split at h'
        · exact h'
        · split at h' <;> exact h'
      obtain ⟨x, hx⟩ := hr this
      cases hx

/-- Freshly instantiated tables have no trackers and can be locked. -/
theorem getDomains_empty {g : Globals V} (hg : GInv g) (names : List String) {ret : List (MaybeDomain V)}
    (hf : ∀ (k : Nat) (d : Instance V), ret[k]? = some (.domain d) → ∀ p ∈ d.tables, p.2.trackers = [] ∧ p.2.poisoned = false) {u : List (MaybeDomain V)} {g' : Globals V}
    (h : g.getDomains ret names = .ok (u, g')) : ∀ (k : Nat) (d : Instance V), u[k]? = some (.domain d) → ∀ p ∈ d.tables, p.2.trackers = [] ∧ p.2.poisoned = false := by
  induction names generalizing g ret with
  | nil =>
    injection h with h
    injection h with h1 h2
    subst h1
    exact hf
  | cons n names ih =>
    rw [Globals.getDomains] at h
    cases hl : g.domains.lookup n with
    | none => rw [hl] at h; cases h
    | some info =>
      rw [hl] at h
      simp only [] at h
      obtain ⟨inst, a1, a2, a3, a4, a5, a6⟩ := instantiate_ok hg hl
      rw [a1] at h
      replace h : (if info.id < ret.length then (g.update n (fun i => { i with locked := true })).getDomains (ret.set info.id (.domain inst)) names
        else .error .vecOob) = .ok (u, g') := h
      split at h
      · refine ih a2 (ret := ret.set info.id (.domain inst)) ?_ h
        intro k d hk
        rw [List.getElem?_set] at hk
        split at hk
        · injection hk with hk; injection hk with hk; subst hk; exact a6
        · exact hf k d hk
      · cases h

end V11
