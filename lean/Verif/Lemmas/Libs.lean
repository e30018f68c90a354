import Verif.Spec.Libs
import Verif.Lemmas.RegistryStep
import Verif.Lemmas.RegistryLedger

/-!
# Several libraries: what each call does
-/

set_option linter.unusedSimpArgs false
set_option linter.unusedSectionVars false
set_option linter.unusedVariables false

namespace V11
variable {Ty : Type} [DecidableEq Ty] {V : Ty → Type} {P : Type} [DecidableEq P] {decl : P → PropDecl V}

theorem resolve_g (w : World P V) (p : P) : (w.resolve decl p).2.g = w.g := by
  unfold World.resolve World.syncAlias World.die
  split
  · rfl
  · split
    · rfl
    · split
      · rfl
      · split
        · rfl
        · split <;> rfl

theorem get_g (w : World P V) (k : Nat) (p : P) : (w.get decl k p).2.g = w.g := by
  unfold World.get
  split
  · rfl
  · split
    · rename_i e; rw [show _ = (w.resolve decl p).2 from (congrArg Prod.snd e).symm]; exact resolve_g w p
    · rename_i e
      split <;> (rw [show _ = (w.resolve decl p).2 from (congrArg Prod.snd e).symm]; exact resolve_g w p)

theorem swap_g (w : World P V) (k : Nat) (p : P) (v : V (decl p).ty) : (w.swap decl k p v).2.g = w.g := by
  unfold World.swap
  split
  · rfl
  · have hr := resolve_g (decl := decl) w p
    split
    · rename_i e; rw [e] at hr; exact hr
    · rename_i e
      rw [e] at hr
      split
      · exact hr
      · split <;> exact hr

theorem Touch.g_eq {w w' : World P V} (h : Touch w w') : w'.g = w.g := by
  rcases h with rfl | ⟨k, u, did, table, f, hk, hf, rfl⟩ <;> rfl

/-- A call leaves a well-formed registry well-formed and bigger, whatever universes and statics it works on. -/
theorem step_registry {w : World P V} (h : GInv w.g) (op : ROp decl) : GInv (w.step decl op).2.g ∧ Ext w.g (w.step decl op).2.g := by
  cases op with
  | registerDomain n => exact ⟨(registerDomain_inv h n).1, (registerDomain_inv h n).2.1⟩
  | registerProp p =>
    change GInv (w.registerProp decl p).2.g ∧ Ext w.g (w.registerProp decl p).2.g
    by_cases hp : ∃ i, w.idx p = some i
    · obtain ⟨i, hi⟩ := hp
      unfold World.registerProp
      split
      · exact ⟨h, Ext.refl _⟩
      · simp only [hi]; exact ⟨h, Ext.refl _⟩
    · have hn : w.idx p = none := by
        cases e : w.idx p with
        | none => rfl
        | some i => exact absurd ⟨i, e⟩ hp
      have := registerProp_inv (decl := decl) (w := ({ w with idx := fun _ => none } : World P V)) h (by simp) p
      have e : (World.registerProp decl ({ w with idx := fun _ => none } : World P V) p).2.g = (w.registerProp decl p).2.g := by
        unfold World.registerProp
        simp only [hn]
        split
        · rfl
        · split
          · rfl
          · split
            · rfl
            · split <;> rfl
      rw [e] at this
      exact ⟨this.1, this.2.1⟩
  | registerTable t => exact ⟨(registerTable_inv h t).1, (registerTable_inv h t).2.1⟩
  | newUniverse ns =>
    change GInv (w.newUniverse ns).2.g ∧ Ext w.g (w.newUniverse ns).2.g
    unfold World.newUniverse
    split
    · exact ⟨h, Ext.refl _⟩
    · have := getDomains_inv h (unset_ok (g := w.g)) (by simp) ns
      split
      · exact ⟨h, Ext.refl _⟩
      · rename_i u g' e
        rw [e] at this
        simp only []
        split <;> exact ⟨this.1, this.2.1⟩
  | addDomain k n =>
    change GInv (w.addDomain k n).2.g ∧ Ext w.g (w.addDomain k n).2.g
    unfold World.addDomain
    split
    · exact ⟨h, Ext.refl _⟩
    · split
      · exact ⟨h, Ext.refl _⟩
      · simp only []
        split
        · exact ⟨h, Ext.refl _⟩
        · split
          · exact ⟨h, Ext.refl _⟩
          · split
            · exact ⟨h, Ext.refl _⟩
            · cases hl : w.g.domains.lookup n with
              | none =>
                have : w.g.instantiate n = .error .noSuchDomain := by unfold Globals.instantiate; rw [hl]
                rw [this]
                exact ⟨h, Ext.refl _⟩
              | some info =>
                obtain ⟨inst, a1, a2, a3, -⟩ := instantiate_ok h hl
                rw [a1]
                simp only []
                split <;> exact ⟨a2, a3⟩
  | addProperties k =>
    change GInv (w.addProperties k).2.g ∧ Ext w.g (w.addProperties k).2.g
    have : (w.addProperties k).2.g = w.g := by
      unfold World.addProperties
      split
      · rfl
      · split
        · rfl
        · split <;> rfl
    rw [this]; exact ⟨h, Ext.refl _⟩
  | get k p =>
    change GInv (w.get decl k p).2.g ∧ Ext w.g (w.get decl k p).2.g
    rw [get_g]; exact ⟨h, Ext.refl _⟩
  | set k p v =>
    change GInv (w.set decl k p v).2.g ∧ Ext w.g (w.set decl k p v).2.g
    rw [set_snd, swap_g]; exact ⟨h, Ext.refl _⟩
  | swap k p v =>
    change GInv (w.swap decl k p v).2.g ∧ Ext w.g (w.swap decl k p v).2.g
    rw [swap_g]; exact ⟨h, Ext.refl _⟩
  | openTable k m wr tol =>
    change GInv (w.openTable k m wr tol).2.g ∧ Ext w.g (w.openTable k m wr tol).2.g
    rw [(openTable_touch w k m wr tol).g_eq]; exact ⟨h, Ext.refl _⟩
  | panicWriting k m tol =>
    change GInv (w.panicWriting k m tol).2.g ∧ Ext w.g (w.panicWriting k m tol).2.g
    rw [(panicWriting_touch w k m tol).g_eq]; exact ⟨h, Ext.refl _⟩
  | registerTracker k r =>
    change GInv (w.registerTracker k r).2.g ∧ Ext w.g (w.registerTracker k r).2.g
    rw [(registerTracker_touch w k r).g_eq]; exact ⟨h, Ext.refl _⟩

/-- A call that cannot touch the registry does not depend on it. -/
structure Blind (w w' : World P V) (r r' : R Unit × World P V) : Prop where
  out : r'.1 = r.1
  idx : r'.2.idx = r.2.idx
  unis : r'.2.unis = r.2.unis
  g : r.2.g = w.g
  poisoned : r.2.poisoned = true

theorem step_blind (w : World P V) (hp : w.poisoned = true) (g' : Globals V) (op : ROp decl) :
    Blind w { w with g := g' } (w.step decl op) (World.step decl ({ w with g := g' } : World P V) op) := by
  have hid : ∀ n, w.getId n = .error .poisoned := by intro n; simp [World.getId, hp]
  have hid' : ∀ n, World.getId ({ w with g := g' } : World P V) n = .error .poisoned := by intro n; simp [World.getId, hp]
  have hal : ∀ p, w.syncAlias decl p = (.error .poisoned, w) := by intro p; simp [World.syncAlias, hp]
  have hal' : ∀ p, World.syncAlias decl ({ w with g := g' } : World P V) p = (.error .poisoned, { w with g := g' }) := by
    intro p; simp [World.syncAlias, hp]
  have hswap : ∀ k p v, (w.swap decl k p v).1 = (World.swap decl ({ w with g := g' } : World P V) k p v).1 ∧
      (w.swap decl k p v).2.idx = (World.swap decl ({ w with g := g' } : World P V) k p v).2.idx ∧
      (w.swap decl k p v).2.unis = (World.swap decl ({ w with g := g' } : World P V) k p v).2.unis ∧ (w.swap decl k p v).2.poisoned = true := by
    intro k p v
    unfold World.swap World.resolve
    simp only [hal, hal']
    cases w.unis[k]? with
    | none => exact ⟨rfl, rfl, rfl, hp⟩
    | some u =>
      simp only []
      cases w.idx p with
      | none => exact ⟨rfl, rfl, rfl, hp⟩
      | some i =>
        simp only []
        cases cellOf u i with
        | error e => exact ⟨rfl, rfl, rfl, hp⟩
        | ok c =>
          simp only []
          cases downcast (decl p).ty c with
          | error e => exact ⟨rfl, rfl, rfl, hp⟩
          | ok o => exact ⟨rfl, rfl, rfl, hp⟩
  cases op with
  | registerDomain n =>
    simp only [World.step, World.registerDomain, hp]
    cases checkName n.toList <;> exact ⟨rfl, rfl, rfl, rfl, hp⟩
  | registerProp p =>
    simp only [World.step, World.registerProp, hp]
    exact ⟨rfl, rfl, rfl, rfl, hp⟩
  | registerTable t =>
    simp only [World.step, World.registerTable, hp]
    cases t.build <;> exact ⟨rfl, rfl, rfl, rfl, hp⟩
  | newUniverse ns =>
    simp only [World.step, World.newUniverse, hp]
    exact ⟨rfl, rfl, rfl, rfl, hp⟩
  | addDomain k n =>
    simp only [World.step, World.addDomain, World.synced, hp]
    cases w.unis[k]? <;> exact ⟨rfl, rfl, rfl, rfl, hp⟩
  | addProperties k =>
    simp only [World.step, World.addProperties, hp]
    cases w.unis[k]? <;> exact ⟨rfl, rfl, rfl, rfl, hp⟩
  | get k p =>
    simp only [World.step, World.get, World.resolve, hal, hal']
    cases w.unis[k]? with
    | none => exact ⟨rfl, rfl, rfl, rfl, hp⟩
    | some u =>
      simp only []
      cases w.idx p with
      | none => exact ⟨rfl, rfl, rfl, rfl, hp⟩
      | some i =>
        simp only []
        cases cellOf u i <;> exact ⟨rfl, rfl, rfl, rfl, hp⟩
  | set k p v =>
    obtain ⟨h1, h2, h3, h4⟩ := hswap k p v
    simp only [World.step]
    exact ⟨by rw [set_fst, set_fst, h1], by rw [set_snd, set_snd, h2], by rw [set_snd, set_snd, h3], by rw [set_snd, swap_g], by rw [set_snd, h4]⟩
  | swap k p v =>
    obtain ⟨h1, h2, h3, h4⟩ := hswap k p v
    simp only [World.step]
    exact ⟨by rw [h1], h2.symm, h3.symm, swap_g _ _ _ _, h4⟩
  | openTable k m wr tol =>
    simp only [World.step, World.openTable, hid, hid']
    cases w.unis[k]? <;> exact ⟨rfl, rfl, rfl, rfl, hp⟩
  | panicWriting k m tol =>
    simp only [World.step, World.panicWriting, World.openTable, hid, hid']
    cases w.unis[k]? <;> exact ⟨rfl, rfl, rfl, rfl, hp⟩
  | registerTracker k r =>
    simp only [World.step, World.registerTracker, World.register, hid, hid']
    cases w.unis[k]? <;> exact ⟨rfl, rfl, rfl, rfl, hp⟩

/-- Only a call of which the registry's lock is a part can poison it, and it stays poisoned. -/
theorem step_poison_mono (w : World P V) (hp : w.poisoned = true) (op : ROp decl) : (w.step decl op).2.poisoned = true :=
  (step_blind w hp w.g op).poisoned

/-! ## The process -/

theorem view_killed (p : Host P V) (i j : Nat) : (p.killed i).view j = if j = i then { p.view j with poisoned := true } else p.view j := by
  unfold Host.killed Host.view
  by_cases h : j = i
  · subst h; simp
  · simp [h]

theorem empty_ext {g g' : Globals V} (h : GInv g) (he : g.isEmpty = true) : Ext g g' := by
  simp only [Globals.isEmpty, Bool.and_eq_true, List.isEmpty_iff] at he
  have h1 : g.did2name = [] := by rw [← h.names, he.1]; rfl
  have h2 : g.name2gid = [] := by
    have := h.gids
    rw [he.2] at this
    simpa using this
  refine ⟨by rw [he.2]; exact List.nil_prefix, ?_, by rw [h1]; exact List.nil_prefix, ?_⟩
  · intro n i hn; rw [h2] at hn; cases hn
  · intro n i hn; rw [he.1] at hn; cases hn

/-- Every registry is well-formed. -/
def Host.Ok (p : Host P V) : Prop := ∀ r, GInv (p.regs r).g

theorem start_ok : (Host.start : Host P V).Ok := fun _ => GInv.empty (P := P)

theorem pstep_ok {p : Host P V} (h : p.Ok) (op : DlOp decl) : (p.step decl op).2.Ok := by
  cases op with
  | call i op =>
    intro r
    simp only [Host.step, Host.call]
    split
    · exact h r
    · by_cases e : r = (p.libs i).reg
      · subst e
        simp only [Function.update_self]
        exact (step_registry (w := p.view i) (h _) op).1
      · simp only [Function.update_of_ne e]
        exact h r
  | sync i k =>
    simp only [Host.step, Host.sync]
    repeat' split
    all_goals exact h

/-- What any library sees only grows. -/
theorem pstep_view {p : Host P V} (h : p.Ok) (op : DlOp decl) (j : Nat) :
    Ext (p.view j).g ((p.step decl op).2.view j).g ∧ ((p.view j).poisoned = true → ((p.step decl op).2.view j).poisoned = true) := by
  cases op with
  | call i op =>
    simp only [Host.step, Host.call]
    by_cases hd : (p.libs i).dead = true
    · simp only [hd, if_true]
      exact ⟨Ext.refl _, fun h => h⟩
    · simp only [hd]
      by_cases e : (p.libs j).reg = (p.libs i).reg
      · simp only [Host.view, e, Bool.false_eq_true, if_false, Function.update_self]
        refine ⟨by have := (step_registry (w := p.view i) (h _) op).2; simpa [Host.view, hd] using this, ?_⟩
        intro hp
        simp only [Bool.or_eq_true] at hp ⊢
        rcases hp with hp | hp
        · exact Or.inl hp
        · exact Or.inr (step_poison_mono _ (by simp [hp, Host.view]) op)
      · simp only [Host.view, Bool.false_eq_true, if_false, Function.update_of_ne e]
        exact ⟨Ext.refl _, fun h => h⟩
  | sync i k =>
    have hk : Ext (p.view j).g ((p.killed i).view j).g ∧ ((p.view j).poisoned = true → ((p.killed i).view j).poisoned = true) := by
      rw [view_killed]
      split
      · exact ⟨Ext.refl _, fun _ => rfl⟩
      · exact ⟨Ext.refl _, fun h => h⟩
    simp only [Host.step, Host.sync]
    split
    · exact ⟨Ext.refl _, fun h => h⟩
    · split
      · exact hk
      · split
        · exact hk
        · split
          · exact ⟨Ext.refl _, fun h => h⟩
          · split
            · exact hk
            · rename_i hd hp1 hp2 hne he
              by_cases e : j = i
              · subst e
                refine ⟨empty_ext (h _) (by simpa [Host.view] using he), ?_⟩
                simp only [Host.view, Bool.or_eq_true]
                rintro (h | h)
                · exact absurd h hd
                · exact absurd h hp1
              · simp only [Host.view, Function.update_of_ne e]
                exact ⟨Ext.refl _, fun h => h⟩

theorem prun_append (p : Host P V) (a b : List (DlOp decl)) : p.run decl (a ++ b) = (p.run decl a).run decl b := by
  induction a generalizing p with
  | nil => rfl
  | cons x a ih => exact ih _

theorem prun_ok {p : Host P V} (h : p.Ok) (ops : List (DlOp decl)) : (p.run decl ops).Ok := by
  induction ops generalizing p with
  | nil => exact h
  | cons op ops ih => exact ih (pstep_ok h op)

theorem prun_view {p : Host P V} (h : p.Ok) (ops : List (DlOp decl)) (j : Nat) :
    Ext (p.view j).g ((p.run decl ops).view j).g ∧ ((p.view j).poisoned = true → ((p.run decl ops).view j).poisoned = true) := by
  induction ops generalizing p with
  | nil => exact ⟨Ext.refl _, fun h => h⟩
  | cons op ops ih =>
    obtain ⟨a1, a2⟩ := pstep_view h op j
    obtain ⟨b1, b2⟩ := ih (pstep_ok h op)
    exact ⟨a1.trans b1, fun h => b2 (a2 h)⟩

/-! ## Polite processes -/

/-- The process looks to every library that has joined as if it were the only one. -/
structure AsOne (p : Host P V) (w : World P V) (joined : List Nat) : Prop where
  idx : p.idx = w.idx
  unis : p.unis = w.unis
  g : (p.regs 0).g = w.g
  poisoned : (p.regs 0).poisoned = w.poisoned
  dead : ∀ i, (p.libs i).dead = true → w.poisoned = true
  reg : ∀ i, (i = 0 ∨ i ∈ joined) → (p.libs i).reg = 0 ∨ (p.libs i).dead = true
  own : ∀ i, (p.libs i).reg = 0 ∨ ((p.regs (p.libs i).reg).poisoned = false ∧ (p.regs (p.libs i).reg).g.isEmpty = true)

theorem AsOne.start : AsOne (Host.start : Host P V) World.empty [] where
  idx := rfl
  unis := rfl
  g := rfl
  poisoned := rfl
  dead := by intro i h; cases h
  reg := by
    rintro i (rfl | h)
    · exact Or.inl rfl
    · cases h
  own := fun i => Or.inr ⟨rfl, rfl⟩

theorem AsOne.view_eq {p : Host P V} {w : World P V} {joined : List Nat} (h : AsOne p w joined) {i : Nat} (hi : i = 0 ∨ i ∈ joined) :
    p.view i = w ∨ (w.poisoned = true ∧ (p.libs i).dead = true ∧ p.view i = { w with g := (p.view i).g }) := by
  by_cases hd : (p.libs i).dead = true
  · have hw := h.dead i hd
    refine Or.inr ⟨hw, hd, ?_⟩
    simp only [Host.view, hd, Bool.true_or, h.idx, h.unis]
    rw [← hw]
  · have hr : (p.libs i).reg = 0 := by
      rcases h.reg i hi with hr | hr
      · exact hr
      · exact absurd hr hd
    refine Or.inl ?_
    simp only [Bool.not_eq_true] at hd
    simp only [Host.view, hr, hd, Bool.false_or, h.g, h.poisoned, h.idx, h.unis]

theorem AsOne.call {p : Host P V} {w : World P V} {joined : List Nat} (h : AsOne p w joined) {i : Nat} (hi : i = 0 ∨ i ∈ joined) (op : ROp decl) :
    (p.call decl i op).1 = (w.step decl op).1 ∧ AsOne (p.call decl i op).2 (w.step decl op).2 joined := by
  rcases h.view_eq hi with hv | ⟨hw, hd, hv⟩
  · by_cases hd : (p.libs i).dead = true
    · have hw := h.dead i hd
      have B := step_blind w hw w.g op
      refine ⟨by simp only [Host.call, hv], ?_⟩
      simp only [Host.call, hv, hd, if_true]
      exact ⟨rfl, rfl, by rw [B.g]; exact h.g, by rw [B.poisoned, h.poisoned, hw], fun _ _ => B.poisoned, h.reg, h.own⟩
    · have hr : (p.libs i).reg = 0 := by
        rcases h.reg i hi with hr | hr
        · exact hr
        · exact absurd hr hd
      refine ⟨by simp only [Host.call, hv], ?_⟩
      simp only [Bool.not_eq_true] at hd
      simp only [Host.call, hv, hd, hr]
      refine ⟨rfl, rfl, by simp, by simp, ?_, h.reg, ?_⟩
      · intro j hj
        exact step_poison_mono _ (h.dead j hj) op
      · intro j
        rcases h.own j with hj | hj
        · exact Or.inl hj
        · by_cases e : (p.libs j).reg = 0
          · exact Or.inl e
          · refine Or.inr ?_
            simp only [Bool.false_eq_true, if_false, Function.update_of_ne e]
            exact hj
  · have B := step_blind w hw (p.view i).g op
    rw [← hv] at B
    refine ⟨B.out, ?_⟩
    simp only [Host.call, hd, if_true]
    exact ⟨B.idx, B.unis, by rw [B.g]; exact h.g, by rw [B.poisoned, h.poisoned, hw], fun _ _ => B.poisoned, h.reg, h.own⟩

theorem AsOne.killed {p : Host P V} {w : World P V} {joined : List Nat} (h : AsOne p w joined) (i : Nat) (hw : w.poisoned = true) :
    AsOne (p.killed i) w (i :: joined) := by
  refine ⟨h.idx, h.unis, h.g, h.poisoned, fun _ _ => hw, ?_, ?_⟩
  · intro j hj
    by_cases e : j = i
    · subst e; exact Or.inr (by simp [Host.killed])
    · have := h.reg j (by simpa [e] using hj)
      simpa [Host.killed, Function.update_of_ne e] using this
  · intro j
    have := h.own j
    by_cases e : j = i
    · subst e; simpa [Host.killed] using this
    · simpa [Host.killed, Function.update_of_ne e] using this

theorem AsOne.sync {p : Host P V} {w : World P V} {joined : List Nat} (h : AsOne p w joined) (i : Nat) :
    ((p.sync i 0).1 = .ok () ↔ w.poisoned = false) ∧ AsOne (p.sync i 0).2 w (i :: joined) := by
  unfold Host.sync
  split
  · rename_i hd
    have hw := h.dead i hd
    refine ⟨by simp [hw], h.idx, h.unis, h.g, h.poisoned, h.dead, ?_, h.own⟩
    intro j hj
    by_cases e : j = i
    · subst e; exact Or.inr hd
    · exact h.reg j (by simpa [e] using hj)
  · rename_i hd
    split
    · rename_i hp
      have hw : w.poisoned = true := by
        rcases h.own i with hr | ⟨hr, -⟩
        · rw [hr, h.poisoned] at hp; exact hp
        · rw [hr] at hp; cases hp
      exact ⟨by simp [hw], h.killed i hw⟩
    · split
      · rename_i hp0
        rw [h.poisoned] at hp0
        exact ⟨by simp [hp0], h.killed i hp0⟩
      · rename_i hp0
        rw [h.poisoned] at hp0
        have hw : w.poisoned = false := by simpa using hp0
        split
        · rename_i hr
          refine ⟨by simp [hw], h.idx, h.unis, h.g, h.poisoned, h.dead, ?_, h.own⟩
          intro j hj
          by_cases e : j = i
          · subst e; exact Or.inl hr
          · exact h.reg j (by simpa [e] using hj)
        · rename_i hr
          have he : (p.regs (p.libs i).reg).g.isEmpty = true := by
            rcases h.own i with hr' | ⟨-, he⟩
            · exact absurd hr' hr
            · exact he
          simp only [he, Bool.not_true, Bool.false_eq_true, if_false]
          refine ⟨by simp [hw], h.idx, h.unis, h.g, h.poisoned, ?_, ?_, ?_⟩
          · intro j
            by_cases e : j = i
            · subst e; simpa using fun hj => absurd hj hd
            · simpa [Function.update_of_ne e] using h.dead j
          · intro j hj
            by_cases e : j = i
            · subst e; exact Or.inl (by simp)
            · have := h.reg j (by simpa [e] using hj)
              simpa [Function.update_of_ne e] using this
          · intro j
            by_cases e : j = i
            · subst e; exact Or.inl (by simp)
            · simpa [Function.update_of_ne e] using h.own j

theorem AsOne.run {p : Host P V} {w : World P V} {joined : List Nat} (h : AsOne p w joined) (ops : List (DlOp decl)) (hp : Polite joined ops) :
    p.outcomes decl ops = w.outcomes decl (callsOf ops) ∧ AsOne (p.run decl ops) (w.run decl (callsOf ops)) ((joinedOf ops).reverse ++ joined) := by
  induction ops generalizing p w joined with
  | nil => exact ⟨rfl, h⟩
  | cons op ops ih =>
    cases op with
    | call i op =>
      obtain ⟨a1, a2⟩ := h.call hp.1 op
      obtain ⟨b1, b2⟩ := ih a2 hp.2
      refine ⟨?_, b2⟩
      simp only [Host.outcomes, callsOf, World.outcomes]
      rw [a1, b1]
    | sync i k =>
      obtain ⟨hk, hp⟩ := hp
      subst hk
      obtain ⟨-, a2⟩ := h.sync i
      obtain ⟨b1, b2⟩ := ih a2 hp
      refine ⟨b1, ?_⟩
      simp only [joinedOf, List.reverse_cons, List.append_assoc, List.singleton_append]
      exact b2

/-! ## Properties come after domains -/

/-- A registry without domains has no properties. -/
def Host.Bare (p : Host P V) : Prop := ∀ r, (p.regs r).g.domains = [] → (p.regs r).g.producers = []

theorem step_bare {w : World P V} (h : GInv w.g) (hb : w.g.domains = [] → w.g.producers = []) (op : ROp decl) (hd : (w.step decl op).2.g.domains = []) :
    (w.step decl op).2.g.producers = [] := by
  have hx := (step_registry h op).2
  have hd0 : w.g.domains = [] := by
    by_contra hne
    obtain ⟨x, l, hxl⟩ := List.exists_cons_of_ne_nil hne
    obtain ⟨info', a, -⟩ := hx.dom x.1 x.2 (by rw [hxl, List.lookup_cons, beq_self_eq_true])
    rw [hd] at a
    cases a
  have hp0 := hb hd0
  have hl : ∀ n, w.g.domains.lookup n = none := by intro n; rw [hd0]; rfl
  have key : (w.step decl op).2.g.producers = w.g.producers := by
    cases op with
    | registerDomain n =>
      simp only [World.step, World.registerDomain]
      split
      · rfl
      · split
        · rfl
        · split <;> rfl
    | registerProp q =>
      simp only [World.step, World.registerProp, World.die, hl]
      split
      · rfl
      · split
        · rfl
        · split <;> rfl
    | registerTable t =>
      simp only [World.step, World.registerTable, World.die, hl]
      split
      · rfl
      · split <;> rfl
    | newUniverse ns =>
      simp only [World.step, World.newUniverse]
      split
      · rfl
      · have := getDomains_inv h (unset_ok (g := w.g)) (by simp) ns
        split
        · rfl
        · rename_i u g' e
          rw [e] at this
          obtain ⟨-, -, -, -, -, -, b7, -⟩ := this
          split <;> exact b7
    | addDomain k n =>
      simp only [World.step, World.addDomain, World.getId, hl]
      split
      · rfl
      · split
        · rfl
        · split
          · rfl
          · rename_i e
            split at e <;> cases e
    | addProperties k =>
      simp only [World.step, World.addProperties]
      split
      · rfl
      · split
        · rfl
        · split <;> rfl
    | get k q => simp only [World.step]; rw [get_g]
    | set k q v => simp only [World.step]; rw [set_snd, swap_g]
    | swap k q v => simp only [World.step]; rw [swap_g]
    | openTable k m wr tol => simp only [World.step]; rw [(openTable_touch w k m wr tol).g_eq]
    | panicWriting k m tol => simp only [World.step]; rw [(panicWriting_touch w k m tol).g_eq]
    | registerTracker k r => simp only [World.step]; rw [(registerTracker_touch w k r).g_eq]
  rw [key, hp0]

theorem pstep_bare {p : Host P V} (h : p.Ok) (hb : p.Bare) (op : DlOp decl) : (p.step decl op).2.Bare := by
  cases op with
  | call i op =>
    intro r
    simp only [Host.step, Host.call]
    split
    · exact hb r
    · by_cases e : r = (p.libs i).reg
      · subst e
        simp only [Function.update_self]
        exact step_bare (w := p.view i) (h _) (hb _) op
      · simp only [Function.update_of_ne e]
        exact hb r
  | sync i k =>
    simp only [Host.step, Host.sync]
    repeat' split
    all_goals exact hb

theorem prun_empty (ops : List (DlOp decl)) (r : Nat) (hd : (((Host.start : Host P V).run decl ops).regs r).g.domains = []) :
    (((Host.start : Host P V).run decl ops).regs r).g.producers = [] := by
  have : ∀ (ops : List (DlOp decl)) (p : Host P V), p.Ok → p.Bare → (p.run decl ops).Bare := by
    intro ops
    induction ops with
    | nil => intro p _ hb; exact hb
    | cons op ops ih => intro p ho hb; exact ih _ (pstep_ok ho op) (pstep_bare ho hb op)
  exact this ops _ start_ok (fun _ _ => rfl) r hd

end V11
