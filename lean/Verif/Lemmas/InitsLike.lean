import Verif.Lemmas.InitsShadow
import Verif.Lemmas.Names

/-!
# Histories with initialisers against histories with constants
-/

set_option linter.unusedSimpArgs false
set_option linter.unusedSectionVars false
set_option linter.unusedVariables false

namespace V11
variable {Ty : Type} [DecidableEq Ty] {V : Ty → Type} {P : Type} [DecidableEq P] {decl : P → PropDecl V}
variable {inits : (p : P) → Recipe decl (decl p).ty}

/-! ## Which domains there are -/

theorem lookup_lockAll (ns : List String) (g : Globals V) (m : String) : ((g.lockAll ns).domains.lookup m).isSome = (g.domains.lookup m).isSome := by
  induction ns generalizing g with
  | nil => rfl
  | cons n ns ih =>
    show (((g.lock n).lockAll ns).domains.lookup m).isSome = _
    rw [ih, lookup_lock_isSome]

theorem enew_g {e : EWorld decl} {rs : List P} (he : EInv e rs) (names : List String) : ∃ b, (EWorld.newUniverse inits e names).2.w.g = e.w.g.lockAll b := by
  unfold EWorld.newUniverse
  by_cases hp : e.w.poisoned = true
  · rw [if_pos hp]; exact ⟨[], rfl⟩
  · rw [if_neg hp]
    obtain ⟨b, r, hb, h1, -⟩ := getDomains_eq (inits := inits) names he (ret := e.w.g.did2name.map .unset) (ret0 := e.w.g.did2name.map .unset) unset_ok (by simp) rfl
    rw [h1]
    refine ⟨b, ?_⟩
    cases r with
    | error q => simp only []; rw [(die_facts _ q).2.2.2.2.1]; rfl
    | ok u =>
      simp only []
      rcases ((evalEach inits none (((names.takeWhile (fun n => (e.w.g.domains.lookup n).isSome))).flatMap (lineup (decl := decl) rs)) e.w).2.withG (e.w.g.lockAll b)).initDomains u names with ⟨q, u1⟩
      cases q <;> rfl

theorem eadd_g {e : EWorld decl} {rs : List P} (he : EInv e rs) (k : Nat) (n : String) : ∃ b, (EWorld.addDomain inits e k n).2.w.g = e.w.g.lockAll b := by
  by_cases hd : e.w.poisoned = false ∧ ∃ u info, e.w.unis[k]? = some u ∧ e.w.g.domains.lookup n = some info ∧ ∀ d, u[info.id]? ≠ some (.domain d)
  · obtain ⟨hp, u, info, hk, hl, hd⟩ := hd
    have hpU : UOk e.w.g (e.w.padded u) := (he.w.unis u (List.mem_of_getElem? hk)).append_unset
    have he0 : EInv ({ e with w := { e.w with unis := e.w.unis.set k (e.w.padded u) } } : EWorld decl) rs :=
      ⟨he.w.setUni k hpU, he.makers, he.roster⟩
    have hin := instantiate_eq (inits := inits) (busy := some k) he0 hl
    have hlt : info.id < (e.w.padded u).length := by
      rw [padded_length (he.w.unis u (List.mem_of_getElem? hk))]; exact get_lt (he.w.g.ids _ _ hl)
    have hns : (e.w.padded u)[info.id].isSet = false := by
      cases hx : (e.w.padded u)[info.id] with
      | unset m => rfl
      | domain d => exact absurd (padded_domain.1 (by rw [List.getElem?_eq_getElem hlt, hx])) (hd d)
    refine ⟨[n], ?_⟩
    unfold EWorld.addDomain
    rw [hk]
    simp only []
    rw [synced_eq he.w hp hk]
    simp only []
    have : ({ e.w with unis := e.w.unis.set k (e.w.padded u) } : World P V).getId n = .ok info.id := getId_eq hp hl
    rw [this]
    simp only []
    rw [List.getElem?_eq_getElem hlt]
    simp only []
    rw [if_neg (by simp [hns]), hin]
    generalize evalEach inits (some k) (lineup (decl := decl) rs n) { e.w with unis := e.w.unis.set k (e.w.padded u) } = x
    cases (gains x.1).map (info.made n) with
    | error q => simp only []; rw [(die_facts _ q).2.2.2.2.1]; rfl
    | ok inst =>
      simp only []
      rcases (x.2.withG (e.w.g.lock n)).initDomain ((e.w.padded u).set info.id (.domain inst)) n with ⟨q, u'⟩
      cases q <;> rfl
  · obtain ⟨h1, h2⟩ := eaddDomain_idle (inits := inits) he.w k n hd
    rw [h1]; exact ⟨[], h2⟩

/-- One call makes a domain known just if it is its registration. -/
theorem estep_known {e : EWorld decl} {rs : List P} (he : EInv e rs) (op : ROp decl) (n : String) :
    ((e.step inits op).2.w.g.domains.lookup n).isSome = true ↔ (e.w.g.domains.lookup n).isSome = true ∨ (op = .registerDomain n ∧ (e.step inits op).1.isOk = true) := by
  have same : ∀ op', (∀ m, op' ≠ .registerDomain m) → (((e.step inits op').2.w.g.domains.lookup n).isSome = (e.w.g.domains.lookup n).isSome) →
      (((e.step inits op').2.w.g.domains.lookup n).isSome = true ↔ (e.w.g.domains.lookup n).isSome = true ∨ (op' = .registerDomain n ∧ (e.step inits op').1.isOk = true)) := by
    intro op' h1 h2
    rw [h2]
    constructor
    · exact Or.inl
    · rintro (h | ⟨h, -⟩)
      · exact h
      · exact absurd h (h1 n)
  cases op with
  | registerDomain m =>
    show (((e.w.registerDomain m).2).g.domains.lookup n).isSome = true ↔ _ ∨ (_ ∧ (e.w.registerDomain m).1.isOk = true)
    unfold World.registerDomain
    cases checkName m.toList with
    | error q => simp [Except.isOk, Except.toBool]
    | ok x =>
      simp only []
      by_cases hp : e.w.poisoned = true
      · rw [if_pos hp]; simp [Except.isOk, Except.toBool]
      · rw [if_neg hp]
        cases hl : e.w.g.domains.lookup m with
        | some i =>
          simp only []
          constructor
          · exact Or.inl
          · rintro (h | ⟨h, -⟩)
            · exact h
            · injection h with h; subst h; rw [hl]; rfl
        | none =>
          simp only [lookup_append]
          by_cases hn : n = m
          · subst hn
            rw [hl, Option.none_or]
            simp [List.lookup_cons, Except.isOk, Except.toBool]
          · have hne : (n == m) = false := by simp [hn]
            rw [List.lookup_cons, hne]
            simp only [List.lookup_nil, Option.or_none]
            constructor
            · exact Or.inl
            · rintro (h | ⟨h, -⟩)
              · exact h
              · injection h with h; exact absurd h.symm hn
  | registerProp p =>
    refine same _ (by simp) ?_
    show ((e.w.registerProp decl p).2.g.domains.lookup n).isSome = _
    by_cases h : (e.w.registerProp decl p).1.isOk = true ∧ (e.w.idx p).isNone = true
    · obtain ⟨info, -, -, hg⟩ := registerProp_shape h.1 (by simpa using h.2)
      rw [hg, update_lookup]
      cases e.w.g.domains.lookup n <;> rfl
    · rw [registerProp_idle h]
  | registerTable t =>
    refine same _ (by simp) ?_
    show ((e.w.registerTable t).2.g.domains.lookup n).isSome = _
    unfold World.registerTable
    split
    · rfl
    · split
      · rfl
      · split
        · rfl
        · split
          · rfl
          · split
            · simp only [update_lookup]; cases e.w.g.domains.lookup n <;> rfl
            · split <;> rfl
  | newUniverse ns =>
    refine same _ (by simp) ?_
    obtain ⟨b, hb⟩ := enew_g (inits := inits) he ns
    show ((EWorld.newUniverse inits e ns).2.w.g.domains.lookup n).isSome = _
    rw [hb, lookup_lockAll]
  | addDomain k m =>
    refine same _ (by simp) ?_
    obtain ⟨b, hb⟩ := eadd_g (inits := inits) he k m
    show ((EWorld.addDomain inits e k m).2.w.g.domains.lookup n).isSome = _
    rw [hb, lookup_lockAll]
  | addProperties k =>
    refine same _ (by simp) ?_
    show ((EWorld.addProperties inits e k).2.w.g.domains.lookup n).isSome = _
    rw [eaddProperties_noop he.w]
  | get k p => refine same _ (by simp) ?_; show ((e.w.get decl k p).2.g.domains.lookup n).isSome = _; rw [(get_step he.w k p).2.2.2]
  | set k p v => refine same _ (by simp) ?_; show ((e.w.set decl k p v).2.g.domains.lookup n).isSome = _; rw [set_g he.w]
  | swap k p v => refine same _ (by simp) ?_; show ((e.w.swap decl k p v).2.g.domains.lookup n).isSome = _; rw [(swap_step he.w k p v).2.2.1]
  | openTable k m b t =>
    refine same _ (by simp) ?_; show ((e.w.openTable k m b t).2.g.domains.lookup n).isSome = _; rw [(Touch.inv he.w (openTable_touch e.w k m b t)).2.2.1]
  | panicWriting k m t =>
    refine same _ (by simp) ?_; show ((e.w.panicWriting k m t).2.g.domains.lookup n).isSome = _; rw [(Touch.inv he.w (panicWriting_touch e.w k m t)).2.2.1]
  | registerTracker k r =>
    refine same _ (by simp) ?_; show ((e.w.registerTracker k r).2.g.domains.lookup n).isSome = _; rw [(Touch.inv he.w (registerTracker_touch e.w k r)).2.2.1]

theorem erun_known {e e' : EWorld decl} {rs : List P} (he : EInv e rs) {ops : List (ROp decl)} (h : e.run inits ops = some e') (n : String) :
    (e'.w.g.domains.lookup n).isSome = true ↔ (e.w.g.domains.lookup n).isSome = true ∨ (.registerDomain n, true) ∈ EWorld.trace inits e ops := by
  induction ops generalizing e rs with
  | nil => injection h with h; subst h; simp [EWorld.trace]
  | cons op ops ih =>
    obtain ⟨-, h1⟩ := erun_cons h
    rw [ih (estep_inv he op) h1, estep_known he op n, EWorld.trace, List.mem_cons, Prod.mk.injEq]
    constructor
    · rintro ((h | ⟨h, h'⟩) | h)
      · exact Or.inl h
      · exact Or.inr (Or.inl ⟨h.symm, h'.symm⟩)
      · exact Or.inr (Or.inr h)
    · rintro (h | ⟨h, h'⟩ | h)
      · exact Or.inl (Or.inl h)
      · exact Or.inl (Or.inr ⟨h.symm, h'.symm⟩)
      · exact Or.inr h

theorem reached_known {e : EWorld decl} {ops : List (ROp decl)} (h : EWorld.empty.run inits ops = some e) (n : String) :
    (∃ info, e.w.g.domains.lookup n = some info) ↔ (.registerDomain n, true) ∈ EWorld.trace inits EWorld.empty ops := by
  rw [← Option.isSome_iff_exists, erun_known EInv.empty h n]
  simp [EWorld.empty, World.empty]

/-! ## Registered properties have their index -/

theorem estep_idx {e : EWorld decl} {rs : List P} (he : EInv e rs) (op : ROp decl) {p : P} (h : (e.w.idx p).isSome = true) : ((e.step inits op).2.w.idx p).isSome = true := by
  have mono : ∀ w : World P V, Grows e.w w → (w.idx p).isSome = true := by
    intro w hg
    obtain ⟨i, hi⟩ := Option.isSome_iff_exists.1 h
    rw [hg.idx p i hi]; rfl
  have hs := (step_inv he.w op).2
  cases op with
  | newUniverse ns =>
    show ((EWorld.newUniverse inits e ns).2.w.idx p).isSome = true
    by_cases hp : e.w.poisoned = true
    · rw [(enewUniverse_idle hp ns).1]; exact h
    · rw [(enewUniverse_eq (inits := inits) ns he (by simpa using hp)).2.2.2.1]; exact h
  | addDomain k n =>
    show ((EWorld.addDomain inits e k n).2.w.idx p).isSome = true
    by_cases hd : e.w.poisoned = false ∧ ∃ u info, e.w.unis[k]? = some u ∧ e.w.g.domains.lookup n = some info ∧ ∀ d, u[info.id]? ≠ some (.domain d)
    · obtain ⟨hp, u, info, h1, h2, h3⟩ := hd
      rw [(eaddDomain_eq (inits := inits) he hp h1 h2 h3).2.2.2.1]; exact h
    · rw [(eaddDomain_idle (inits := inits) he.w k n hd).1]; exact mono _ hs
  | addProperties k =>
    show ((EWorld.addProperties inits e k).2.w.idx p).isSome = true
    rw [eaddProperties_noop he.w]; exact h
  | registerProp q => exact mono _ hs
  | registerDomain n => exact mono _ hs
  | registerTable t => exact mono _ hs
  | get k p => exact mono _ hs
  | set k p v => exact mono _ hs
  | swap k p v => exact mono _ hs
  | openTable k m b t => exact mono _ hs
  | panicWriting k m t => exact mono _ hs
  | registerTracker k r => exact mono _ hs

theorem estep_join {e : EWorld decl} (op : ROp decl) {p : P} (h : p ∈ EWorld.joins inits e [op]) : ((e.step inits op).2.w.idx p).isSome = true := by
  cases op with
  | registerProp q =>
    change p ∈ (if ((e.w.registerProp decl q).1.isOk = true ∧ (e.w.idx q).isNone = true) then [q] else []) ++ [] at h
    rw [List.append_nil] at h
    split at h
    · rename_i hc
      simp only [List.mem_singleton] at h
      subst h
      obtain ⟨h1, h2⟩ := hc
      show ((e.w.registerProp decl p).2.idx p).isSome = true
      have h2' : e.w.idx p = none := by simpa using h2
      unfold World.registerProp at h1 ⊢
      split at h1
      · cases h1
      · rename_i hp
        simp only [if_neg hp, h2'] at h1 ⊢
        split at h1
        · cases h1
        · rename_i eb
          split at h1
          · cases h1
          · rename_i info hl
            split at h1
            · cases h1
            · rename_i hlk
              simp only [eb, hl, if_neg hlk]
              simp
    · cases h
  | _ => cases h

theorem erun_ready {e e' : EWorld decl} {rs : List P} (he : EInv e rs) (hr : ∀ p ∈ rs, (e.w.idx p).isSome = true) {ops : List (ROp decl)} (h : e.run inits ops = some e') :
    ∀ p ∈ rs ++ EWorld.joins inits e ops, (e'.w.idx p).isSome = true := by
  induction ops generalizing e rs with
  | nil => injection h with h; subst h; simpa [EWorld.joins] using hr
  | cons op ops ih =>
    obtain ⟨-, h1⟩ := erun_cons h
    rw [joins_cons, ← List.append_assoc]
    refine ih (estep_inv he op) ?_ h1
    intro p hp
    rcases List.mem_append.1 hp with hp | hp
    · exact estep_idx he op (hr p hp)
    · exact estep_join op hp

theorem reached_ready {e : EWorld decl} {ops : List (ROp decl)} (h : EWorld.empty.run inits ops = some e) :
    ∀ p ∈ EWorld.joins inits EWorld.empty ops, (e.w.idx p).isSome = true := by
  have := erun_ready (inits := inits) EInv.empty (by simp) h
  simpa using this

/-! ## Scripts that wait and scripts that do not -/

theorem returned_iff {α : Type} (r : R α) : r.isOk = true ↔ ∃ x, r = .ok x := by cases r <;> simp [Except.isOk, Except.toBool]

theorem locks_blocks {op : ROp decl} (h : op.locksRegistry) (w : World P V) (busy : Option Nat) : w.blocks busy op = true := by
  cases op with
  | registerDomain n => rw [World.blocks, returned_iff]; exact ⟨(), (checkName_ok _).2 h⟩
  | registerTable t => rw [World.blocks, returned_iff]; exact ⟨(), h⟩
  | get k p => exact absurd h id
  | set k p v => exact absurd h id
  | swap k p v => exact absurd h id
  | _ => rfl

theorem locks_waits {t : Ty} {s : Recipe decl t} (h : s.Locks) (busy : Option Nat) (w : World P V) : (s.run busy w).1 = .error .deadlock := by
  induction h generalizing w with
  | now op k hop => rw [Recipe.run, if_pos (locks_blocks hop w busy)]
  | later op k hk ih =>
    rw [Recipe.run]
    cases hb : w.blocks busy op with
    | true => rfl
    | false => exact ih _ _

theorem mild_returns {t : Ty} {ready : P → Prop} {busy : Option Nat} {s : Recipe decl t} (h : s.Mild ready busy) (w : World P V) (hr : ∀ p, ready p → (w.idx p).isSome = true) :
    ∃ v, (s.run busy w).1 = .ok v := by
  induction h generalizing w with
  | ret v => exact ⟨v, rfl⟩
  | call op k hop hk ih =>
    have hb : w.blocks busy op = false := by
      cases op with
      | get k' p => obtain ⟨h1, h2⟩ := hop; have := hr p h2; simp [World.blocks, h1, Option.isNone_eq_false_iff, this]
      | set k' p v => obtain ⟨h1, h2⟩ := hop; have := hr p h2; simp [World.blocks, h1, Option.isNone_eq_false_iff, this]
      | swap k' p v => obtain ⟨h1, h2⟩ := hop; have := hr p h2; simp [World.blocks, h1, Option.isNone_eq_false_iff, this]
      | _ => exact absurd hop id
    rw [Recipe.run, hb]
    refine ih _ _ ?_
    intro p hp
    rw [(step_beside hb).idx]; exact hr p hp

theorem panics_panics {t : Ty} {ready : P → Prop} {busy : Option Nat} {s : Recipe decl t} (h : s.Panics ready busy) (w : World P V) (hr : ∀ p, ready p → (w.idx p).isSome = true) :
    (s.run busy w).1 = .error .userPanic := by
  induction h generalizing w with
  | now => rfl
  | call op k hop hk ih =>
    have hb : w.blocks busy op = false := by
      cases op with
      | get k' p => obtain ⟨h1, h2⟩ := hop; have := hr p h2; simp [World.blocks, h1, Option.isNone_eq_false_iff, this]
      | set k' p v => obtain ⟨h1, h2⟩ := hop; have := hr p h2; simp [World.blocks, h1, Option.isNone_eq_false_iff, this]
      | swap k' p v => obtain ⟨h1, h2⟩ := hop; have := hr p h2; simp [World.blocks, h1, Option.isNone_eq_false_iff, this]
      | _ => exact absurd hop id
    rw [Recipe.run, hb]
    refine ih _ _ ?_
    intro p hp
    rw [(step_beside hb).idx]; exact hr p hp

theorem evalEach_mild {ready : P → Prop} {busy : Option Nat} (ps : List P) (w : World P V) (hm : ∀ p ∈ ps, (inits p).Mild ready busy)
    (hr : ∀ p, ready p → (w.idx p).isSome = true) : ∀ y ∈ (evalEach inits busy ps w).1, y.2.isOk = true := by
  induction ps generalizing w with
  | nil => intro y hy; cases hy
  | cons p ps ih =>
    obtain ⟨v, hv⟩ := mild_returns (hm p (by simp)) w hr
    simp only [evalEach]
    have hb := script_beside (busy := busy) (inits p) w
    rcases hs : (inits p).run busy w with ⟨r, w1⟩
    rw [hs] at hv hb
    simp only at hv
    subst hv
    simp only []
    intro y hy
    rcases List.mem_cons.1 hy with rfl | hy
    · rfl
    · exact ih w1 (fun q hq => hm q (by simp [hq])) (fun q hq => by rw [hb.idx]; exact hr q hq) y hy

/-! ## What all returned means -/

theorem gains_all {L : List (P × R (Σ t, V t))} : (∃ vs, gains L = .ok vs) ↔ ∀ y ∈ L, y.2.isOk = true := by
  induction L with
  | nil => exact ⟨(fun _ y hy => by cases hy), fun _ => ⟨[], gains_nil⟩⟩
  | cons x L ih =>
    obtain ⟨p, r⟩ := x
    cases r with
    | error q =>
      constructor
      · rintro ⟨vs, h⟩
        have := gains_ok.1 h
        cases vs with
        | nil => simp at this
        | cons v vs => simp at this
      · intro h
        have := h (p, .error q) (by simp)
        cases this
    | ok v =>
      rw [gains_cons]
      constructor
      · rintro ⟨vs, h⟩ y hy
        rcases List.mem_cons.1 hy with rfl | hy
        · rfl
        · refine ih.1 ?_ y hy
          cases hg : gains L with
          | error q => rw [hg] at h; cases h
          | ok ws => exact ⟨ws, rfl⟩
      · intro h
        obtain ⟨ws, hw⟩ := ih.2 (fun y hy => h y (by simp [hy]))
        exact ⟨v :: ws, by rw [hw]; rfl⟩

theorem gains_error {busy : Option Nat} {ps : List P} {w : World P V} {p : P} {q : Panic} (h : (p, .error q) ∈ (evalEach inits busy ps w).1) :
    gains (evalEach inits busy ps w).1 = .error q := by
  cases hg : gains (evalEach inits busy ps w).1 with
  | ok vs => have := gains_all.1 ⟨vs, hg⟩ _ h; cases this
  | error q' =>
    obtain ⟨a, p', b, w0, -, ⟨vs, ha⟩, -, h4, h5⟩ := evalEach_fails ps w hg
    rw [h5] at h
    rcases List.mem_append.1 h with h | h
    · have := gains_all.1 ⟨vs, ha⟩ _ h; cases this
    · simp at h; rw [h.2]

/-! ## The shadow -/

theorem estep_made {e : EWorld decl} {rs : List P} (he : EInv e rs) (op : ROp decl) : e.made <+: (e.step inits op).2.made := by
  cases op with
  | newUniverse ns =>
    show e.made <+: (EWorld.newUniverse inits e ns).2.made
    by_cases hp : e.w.poisoned = true
    · rw [(enewUniverse_idle hp ns).1]; all_goals exact List.prefix_rfl
    · rw [(enewUniverse_eq (inits := inits) ns he (by simpa using hp)).2.1]; all_goals exact ⟨_, rfl⟩
  | addDomain k n =>
    show e.made <+: (EWorld.addDomain inits e k n).2.made
    by_cases hd : e.w.poisoned = false ∧ ∃ u info, e.w.unis[k]? = some u ∧ e.w.g.domains.lookup n = some info ∧ ∀ d, u[info.id]? ≠ some (.domain d)
    · obtain ⟨hp, u, info, h1, h2, h3⟩ := hd
      rw [(eaddDomain_eq (inits := inits) he hp h1 h2 h3).2.1]; all_goals exact ⟨_, rfl⟩
    · rw [(eaddDomain_idle (inits := inits) he.w k n hd).1]; all_goals exact List.prefix_rfl
  | addProperties k =>
    show e.made <+: (EWorld.addProperties inits e k).2.made
    rw [eaddProperties_noop he.w]; all_goals exact List.prefix_rfl
  | _ => exact List.prefix_rfl

theorem newUniverse_unknown {w : World P V} (h : WInv decl w) (hp : w.poisoned = false) {names : List String} (hn : ∃ n ∈ names, w.g.domains.lookup n = none) :
    (w.newUniverse names).1 = .error .noSuchDomain := by
  unfold World.newUniverse
  rw [if_neg (by simp [hp])]
  have := getDomains_inv h.g (unset_ok (g := w.g)) (by simp) names
  rcases e : w.g.getDomains (w.g.did2name.map .unset) names with q | ⟨u, g'⟩
  · rw [e] at this; rw [this.1]; rfl
  · rw [e] at this
    obtain ⟨n, h1, h2⟩ := hn
    have := this.2.2.2.2.2.1 n h1
    rw [← h.g.names] at this
    exact absurd this (lookup_none_iff.1 h2)

theorem estep_shadow {e : EWorld decl} {rs : List P} (he : EInv e rs) {w : World P V} (hw : WInv decl w) (hb : e.w.bare = w.bare) (op : ROp decl)
    (hm : ∀ y ∈ (e.step inits op).2.made, y.2.isOk = true) :
    (e.step inits op).1 = (w.step decl op).1 ∧ ((e.step inits op).2.w.poisoned = false → (e.step inits op).2.w.bare = (w.step decl op).2.bare) := by
  have hs := step_same hw he.w hb op
  cases op with
  | newUniverse ns =>
    change ∀ y ∈ (EWorld.newUniverse inits e ns).2.made, _ at hm
    show (EWorld.newUniverse inits e ns).1.map _ = (w.newUniverse ns).1.map _ ∧ ((EWorld.newUniverse inits e ns).2.w.poisoned = false → (EWorld.newUniverse inits e ns).2.w.bare = _)
    change (e.w.newUniverse ns).1.map _ = (w.newUniverse ns).1.map _ ∧ (e.w.newUniverse ns).2.bare = (w.newUniverse ns).2.bare at hs
    by_cases hp : e.w.poisoned = true
    · obtain ⟨h1, h2⟩ := enewUniverse_idle (inits := inits) hp ns
      rw [h2] at hs
      rw [h1]; exact ⟨hs.1, fun _ => hs.2⟩
    · have hp : e.w.poisoned = false := by simpa using hp
      obtain ⟨-, h2, -, -, -, -, h7, h8⟩ := enewUniverse_eq (inits := inits) ns he hp
      rw [h2] at hm
      obtain ⟨vs, hv⟩ := gains_all.2 (fun y hy => hm y (by simp [hy]) : ∀ y ∈ (EWorld.newLog inits e rs ns).1, y.2.isOk = true)
      by_cases hall : ∀ n ∈ ns, ∃ i, e.w.g.domains.lookup n = some i
      · obtain ⟨a1, a2, -⟩ := h8 vs hv hall
        rw [a1, a2]; exact ⟨hs.1, fun _ => hs.2⟩
      · push Not at hall
        obtain ⟨n, hn1, hn2⟩ := hall
        have hx : ∃ n ∈ ns, e.w.g.domains.lookup n = none := ⟨n, hn1, Option.eq_none_iff_forall_ne_some.2 hn2⟩
        obtain ⟨a1, a2, a3⟩ := h7 vs hv hx
        have hu := newUniverse_unknown he.w hp hx
        refine ⟨?_, fun h => by rw [a3] at h; cases h⟩
        rw [← hs.1, hu, a1]
  | addDomain k n =>
    change ∀ y ∈ (EWorld.addDomain inits e k n).2.made, _ at hm
    show (EWorld.addDomain inits e k n).1 = (w.addDomain k n).1 ∧ ((EWorld.addDomain inits e k n).2.w.poisoned = false → (EWorld.addDomain inits e k n).2.w.bare = _)
    change (e.w.addDomain k n).1 = (w.addDomain k n).1 ∧ (e.w.addDomain k n).2.bare = (w.addDomain k n).2.bare at hs
    by_cases hd : e.w.poisoned = false ∧ ∃ u info, e.w.unis[k]? = some u ∧ e.w.g.domains.lookup n = some info ∧ ∀ d, u[info.id]? ≠ some (.domain d)
    · obtain ⟨hp, u, info, h1, h2, h3⟩ := hd
      obtain ⟨-, b2, -, -, -, -, b7⟩ := eaddDomain_eq (inits := inits) he hp h1 h2 h3
      rw [b2] at hm
      obtain ⟨vs, hv⟩ := gains_all.2 (fun y hy => hm y (by simp [hy]) :
        ∀ y ∈ (evalEach inits (some k) (lineup (decl := decl) rs n) { e.w with unis := e.w.unis.set k (e.w.padded u) }).1, y.2.isOk = true)
      obtain ⟨a1, a2, -⟩ := b7 vs hv
      rw [a1, a2]; exact ⟨hs.1, fun _ => hs.2⟩
    · rw [(eaddDomain_idle (inits := inits) he.w k n hd).1]; exact ⟨hs.1, fun _ => hs.2⟩
  | addProperties k =>
    show (EWorld.addProperties inits e k).1 = (w.addProperties k).1 ∧ ((EWorld.addProperties inits e k).2.w.poisoned = false → (EWorld.addProperties inits e k).2.w.bare = _)
    change (e.w.addProperties k).1 = (w.addProperties k).1 ∧ (e.w.addProperties k).2.bare = (w.addProperties k).2.bare at hs
    rw [eaddProperties_noop he.w]
    rw [(addProperties_noop he.w k).1] at hs
    exact ⟨hs.1, fun _ => hs.2⟩
  | registerProp q => exact ⟨hs.1, fun _ => hs.2⟩
  | registerDomain n => exact ⟨hs.1, fun _ => hs.2⟩
  | registerTable t => exact ⟨hs.1, fun _ => hs.2⟩
  | get k p => exact ⟨hs.1, fun _ => hs.2⟩
  | set k p v => exact ⟨hs.1, fun _ => hs.2⟩
  | swap k p v => exact ⟨hs.1, fun _ => hs.2⟩
  | openTable k m b t => exact ⟨hs.1, fun _ => hs.2⟩
  | panicWriting k m t => exact ⟨hs.1, fun _ => hs.2⟩
  | registerTracker k r => exact ⟨hs.1, fun _ => hs.2⟩

theorem estep_poisoned {e : EWorld decl} {rs : List P} (he : EInv e rs) (op : ROp decl) (h : e.w.poisoned = true) : (e.step inits op).2.w.poisoned = true := by
  have hs := (step_inv he.w op).2.poisoned h
  cases op with
  | newUniverse ns => show (EWorld.newUniverse inits e ns).2.w.poisoned = true; rw [(enewUniverse_idle h ns).1]; exact h
  | addDomain k n =>
    show (EWorld.addDomain inits e k n).2.w.poisoned = true
    rw [(eaddDomain_idle (inits := inits) he.w k n (fun hc => by rw [h] at hc; cases hc.1)).1]; exact hs
  | addProperties k => show (EWorld.addProperties inits e k).2.w.poisoned = true; rw [eaddProperties_noop he.w]; exact h
  | registerProp q => exact hs
  | registerDomain n => exact hs
  | registerTable t => exact hs
  | get k p => exact hs
  | set k p v => exact hs
  | swap k p v => exact hs
  | openTable k m b t => exact hs
  | panicWriting k m t => exact hs
  | registerTracker k r => exact hs

theorem erun_made {e e' : EWorld decl} {rs : List P} (he : EInv e rs) {ops : List (ROp decl)} (h : e.run inits ops = some e') :
    e.made <+: e'.made ∧ (e'.w.poisoned = false → e.w.poisoned = false) := by
  induction ops generalizing e rs with
  | nil => injection h with h; subst h; exact ⟨List.prefix_rfl, id⟩
  | cons op ops ih =>
    obtain ⟨-, h1⟩ := erun_cons h
    obtain ⟨a1, a2⟩ := ih (estep_inv he op) h1
    refine ⟨(estep_made he op).trans a1, fun hp => ?_⟩
    have := a2 hp
    cases hc : e.w.poisoned with
    | false => rfl
    | true => rw [estep_poisoned he op hc] at this; cases this

theorem erun_shadow {e e' : EWorld decl} {rs : List P} (he : EInv e rs) {w : World P V} (hw : WInv decl w) (hb : e.w.bare = w.bare) {ops : List (ROp decl)}
    (h : e.run inits ops = some e') (hm : ∀ y ∈ e'.made, y.2.isOk = true) (hp : e'.w.poisoned = false) :
    e'.w.bare = (w.run decl ops).bare ∧ EWorld.trace inits e ops = w.trace decl ops := by
  induction ops generalizing e rs w with
  | nil => injection h with h; subst h; exact ⟨hb, rfl⟩
  | cons op ops ih =>
    obtain ⟨-, h1⟩ := erun_cons h
    have he1 := estep_inv (inits := inits) he op
    obtain ⟨a1, a2⟩ := erun_made he1 h1
    obtain ⟨b1, b2⟩ := estep_shadow he hw hb op (fun y hy => hm y (a1.subset hy))
    obtain ⟨c1, c2⟩ := ih he1 (step_inv hw op).1 (b2 (a2 hp)) h1
    refine ⟨c1, ?_⟩
    rw [EWorld.trace, World.trace, b1, c2]

/-! ## Nor does the universe that is busy -/

/-- The same with another universe `k`. -/
def World.setU (w : World P V) (k : Nat) (u : List (MaybeDomain V)) : World P V := { w with unis := w.unis.set k u }

theorem setU_get (w : World P V) {k j : Nat} (h : j ≠ k) (u : List (MaybeDomain V)) : (w.setU k u).unis[j]? = w.unis[j]? := by
  show (w.unis.set k u)[j]? = _
  rw [List.getElem?_set_ne (Ne.symm h)]

theorem swap_setU {w : World P V} {k j : Nat} (hj : j ≠ k) {p : P} (hp : (w.idx p).isNone = false) (u : List (MaybeDomain V)) (v : V (decl p).ty) :
    (w.setU k u).swap decl j p v = ((w.swap decl j p v).1, (w.swap decl j p v).2.setU k u) := by
  obtain ⟨i, hi, hr⟩ := resolve_set (decl := decl) hp
  obtain ⟨i', hi', hr'⟩ := resolve_set (decl := decl) (w := w.setU k u) (p := p) hp
  have : i' = i := by
    have h : (w.setU k u).idx p = w.idx p := rfl
    rw [h, hi] at hi'; injection hi' with hi'; exact hi'.symm
  subst this
  unfold World.swap
  rw [setU_get w hj u]
  cases hk : w.unis[j]? with
  | none => rfl
  | some u0 =>
    simp only []
    rw [hr, hr']
    simp only []
    cases hc : cellOf u0 i' with
    | error e => rfl
    | ok c =>
      simp only []
      cases hd : downcast (decl p).ty c with
      | error e => rfl
      | ok old =>
        simp only [World.setU]
        rw [List.set_comm _ _ (Ne.symm hj)]

theorem get_setU {w : World P V} {k j : Nat} (hj : j ≠ k) {p : P} (hp : (w.idx p).isNone = false) (u : List (MaybeDomain V)) :
    ((w.setU k u).get decl j p).1 = (w.get decl j p).1 := by
  obtain ⟨i, hi, hr⟩ := resolve_set (decl := decl) hp
  obtain ⟨i', hi', hr'⟩ := resolve_set (decl := decl) (w := w.setU k u) (p := p) hp
  have : i' = i := by
    have h : (w.setU k u).idx p = w.idx p := rfl
    rw [h, hi] at hi'; injection hi' with hi'; exact hi'.symm
  subst this
  unfold World.get
  rw [setU_get w hj u]
  cases hk : w.unis[j]? with
  | none => rfl
  | some u0 =>
    simp only []
    rw [hr, hr']
    simp only []
    cases hc : cellOf u0 i' with
    | error e => rfl
    | ok c => rfl

theorem step_setU {k : Nat} {w : World P V} {u : List (MaybeDomain V)} {op : ROp decl} (h : w.blocks (some k) op = false) :
    (w.setU k u).given decl op = w.given decl op ∧ ((w.setU k u).step decl op).2 = (w.step decl op).2.setU k u := by
  rcases unblocked h with ⟨n, q, rfl, hc⟩ | ⟨t, q, rfl, hc⟩ | ⟨j, p, rfl, hb, hp⟩ | ⟨j, p, v, rfl, hb, hp⟩ | ⟨j, p, v, rfl, hb, hp⟩
  · have : ∀ w : World P V, w.registerDomain n = (.error q, w) := by
      intro w
      unfold World.registerDomain
      rw [hc]
    simp only [World.given, World.step, this, and_self]
  · have : ∀ w : World P V, w.registerTable t = (.error q, w) := by
      intro w
      unfold World.registerTable
      rw [hc]
    simp only [World.given, World.step, this, and_self]
  · have hj : j ≠ k := fun e => hb (by rw [e])
    simp only [World.given, World.step]
    rw [get_setU hj hp, get_beside hp, get_beside (w := w.setU k u) hp]
    exact ⟨rfl, rfl⟩
  · have hj : j ≠ k := fun e => hb (by rw [e])
    simp only [World.given, World.step, set_snd, set_fst]
    rw [swap_setU hj hp]
    exact ⟨rfl, rfl⟩
  · have hj : j ≠ k := fun e => hb (by rw [e])
    simp only [World.given, World.step]
    rw [swap_setU hj hp]
    exact ⟨rfl, rfl⟩

theorem run_setU {k : Nat} {t : Ty} (s : Recipe decl t) (w : World P V) (u : List (MaybeDomain V)) :
    s.run (some k) (w.setU k u) = ((s.run (some k) w).1, (s.run (some k) w).2.setU k u) := by
  induction s generalizing w with
  | ret v => rfl
  | panic => rfl
  | call op c ih =>
    rw [Recipe.run, Recipe.run]
    have hbb : (w.setU k u).blocks (some k) op = w.blocks (some k) op := by cases op <;> rfl
    rw [hbb]
    cases hb : w.blocks (some k) op with
    | true => rfl
    | false =>
      rw [if_neg (by simp), if_neg (by simp)]
      obtain ⟨h1, h2⟩ := step_setU (u := u) hb
      rw [h1, h2]
      exact ih _ _

theorem evalEach_setU {k : Nat} (ps : List P) (w : World P V) (u : List (MaybeDomain V)) :
    evalEach inits (some k) ps (w.setU k u) = ((evalEach inits (some k) ps w).1, (evalEach inits (some k) ps w).2.setU k u) := by
  induction ps generalizing w with
  | nil => rfl
  | cons p ps ih =>
    simp only [evalEach]
    rw [run_setU]
    rcases hr : (inits p).run (some k) w with ⟨r, w1⟩
    cases r with
    | error q => rfl
    | ok v =>
      simp only []
      rw [ih]

end V11
