import Verif.Lemmas.RegThreadsInv

/-!
# Calls of several threads: what one step of a call does
-/

set_option linter.unusedSimpArgs false
set_option linter.unusedSectionVars false
set_option linter.unusedVariables false

namespace V11

variable {Ty : Type} [DecidableEq Ty] {V : Ty → Type} {P : Type} [DecidableEq P] {decl : P → PropDecl V} {ι : Type} [DecidableEq ι]

/-- A call that has its effect in one step. -/
def ROp.atOnce {decl : P → PropDecl V} : ROp decl → Bool
  | .registerDomain _ => true
  | .registerTable _ => true
  | .registerProp _ => true
  | .addProperties _ => true
  | .get _ _ => true
  | .set _ _ _ => true
  | .swap _ _ _ => true
  | _ => false

theorem toOption_map {α β : Type} (x : R α) (f : α → β) : (x.map f).toOption = x.toOption.map f := by cases x <;> rfl

/-- A step that is a whole call, on both sides. -/
theorem whole_sim {L : String → Bool} {v w : World P V} (hb : Behind L v w) (hv : WInv decl v) (hw : WInv decl w)
    (hL : ∀ m, L m = true → (w.g.domains.lookup m).isSome = true) {op : ROp decl} (ho : op.atOnce = true)
    (hi : ∀ p, op.uses = some p → (v.idx p).isSome = true) (hp : (v.step decl op).2.poisoned = false) :
    (v.given decl op).toOption = (w.given decl op).toOption ∧ Behind L (v.step decl op).2 (w.step decl op).2 := by
  cases op with
  | registerDomain n =>
    obtain ⟨h1, h2⟩ := hb.registerDomain n hL
    exact ⟨by show ((v.registerDomain n).1.map _).toOption = ((w.registerDomain n).1.map _).toOption; rw [h1], h2⟩
  | registerTable t =>
    obtain ⟨h1, h2⟩ := hb.registerTable t hp
    exact ⟨by show ((v.registerTable t).1.map _).toOption = ((w.registerTable t).1.map _).toOption; rw [h1], h2⟩
  | registerProp p =>
    obtain ⟨h1, h2⟩ := hb.registerProp p hp
    exact ⟨by show ((v.registerProp decl p).1.map _).toOption = ((w.registerProp decl p).1.map _).toOption; rw [h1], h2⟩
  | addProperties k =>
    obtain ⟨h1, h2⟩ := hb.addProperties hv hw k
    refine ⟨?_, h2⟩
    show ((v.addProperties k).1.map _).toOption = ((w.addProperties k).1.map _).toOption
    rw [toOption_map, toOption_map, h1]
  | get k p =>
    obtain ⟨h1, h2⟩ := hb.get (decl := decl) k p (hi p rfl)
    exact ⟨by show ((v.get decl k p).1.map _).toOption = ((w.get decl k p).1.map _).toOption; rw [h1], h2⟩
  | swap k p x =>
    obtain ⟨h1, h2⟩ := hb.swap (decl := decl) k p x (hi p rfl)
    exact ⟨by show ((v.swap decl k p x).1.map _).toOption = ((w.swap decl k p x).1.map _).toOption; rw [h1], h2⟩
  | set k p x =>
    obtain ⟨h1, h2⟩ := hb.swap (decl := decl) k p x (hi p rfl)
    refine ⟨?_, ?_⟩
    · show ((v.set decl k p x).1.map _).toOption = ((w.set decl k p x).1.map _).toOption
      rw [set_fst, set_fst, h1]
    · show Behind L (v.set decl k p x).2 (w.set decl k p x).2
      rw [set_snd, set_snd]
      exact h2
  | newUniverse ns => cases ho
  | addDomain k n => cases ho
  | openTable k m b t => cases ho
  | panicWriting k m t => cases ho
  | registerTracker k r => cases ho

theorem whole_moves {v : World P V} (hv : WInv decl v) {op : ROp decl} (ho : op.atOnce = true) (hp : v.poisoned = false)
    (hp' : (v.step decl op).2.poisoned = false) : Moves decl op.on v (v.step decl op).2 := by
  obtain ⟨h1, h2⟩ := step_inv hv op
  refine ⟨h1, hp, hp', h2.ext, ?_, h2.unis, ?_⟩
  · intro p hs
    obtain ⟨i, hi⟩ := Option.isSome_iff_exists.1 hs
    rw [h2.idx p i hi]; rfl
  · intro k hk hne
    cases op with
    | registerDomain n => show (v.registerDomain n).2.unis[k]? = _; rw [(registerDomain_step hv n).2.2]
    | registerTable t => show (v.registerTable t).2.unis[k]? = _; rw [(registerTable_step hv t).2.2]
    | registerProp p => show (v.registerProp decl p).2.unis[k]? = _; rw [(registerProp_step hv p).2.2]
    | addProperties j => show (v.addProperties j).2.unis[k]? = _; rw [(addProperties_noop hv j).1]
    | get j p => show (v.get decl j p).2.unis[k]? = _; rw [(get_step hv j p).2.2.1]
    | swap j p x =>
      show (v.swap decl j p x).2.unis[k]? = _
      obtain ⟨-, -, -, h | h⟩ := swap_step hv j p x
      · obtain ⟨e, -, h⟩ := h; rw [h]
      · obtain ⟨u, i, old, -, -, -, -, -, -, h⟩ := h
        rw [h, List.getElem?_set_ne (by rintro rfl; exact hne rfl)]
    | set j p x =>
      show (v.set decl j p x).2.unis[k]? = _
      rw [set_snd]
      obtain ⟨-, -, -, h | h⟩ := swap_step hv j p x
      · obtain ⟨e, -, h⟩ := h; rw [h]
      · obtain ⟨u, i, old, -, -, -, -, -, -, h⟩ := h
        rw [h, List.getElem?_set_ne (by rintro rfl; exact hne rfl)]
    | newUniverse ns => cases ho
    | addDomain k n => cases ho
    | openTable k m b t => cases ho
    | panicWriting k m t => cases ho
    | registerTracker k r => cases ho

/-! ## Poisoning stays -/

theorem syncAlias_poison {w : World P V} {p : P} (h : w.poisoned = true) : (w.syncAlias decl p).2.poisoned = true := by
  unfold World.syncAlias
  rw [if_pos h]; exact h

theorem resolve_stays {w : World P V} {p : P} (h : w.poisoned = true) : (w.resolve decl p).2.poisoned = true := by
  unfold World.resolve
  split
  · exact h
  · exact syncAlias_poison h

theorem whole_poison {v : World P V} {op : ROp decl} (ho : op.atOnce = true) (h : v.poisoned = true) : (v.step decl op).2.poisoned = true := by
  have hsw : ∀ k p x, (v.swap decl k p x).2.poisoned = true := by
    intro k p x
    unfold World.swap
    cases v.unis[k]? with
    | none => exact h
    | some u =>
      simp only []
      have := resolve_stays (decl := decl) (p := p) h
      rcases er : v.resolve decl p with ⟨r, w⟩
      rw [er] at this
      cases r with
      | error e => exact this
      | ok i =>
        simp only []
        cases cellOf u i with
        | error e => exact this
        | ok y =>
          simp only []
          cases downcast (decl p).ty y <;> exact this
  cases op with
  | registerDomain n =>
    show (v.registerDomain n).2.poisoned = true
    unfold World.registerDomain
    split
    · exact h
    · rw [if_pos h]; exact h
  | registerTable t =>
    show (v.registerTable t).2.poisoned = true
    unfold World.registerTable
    split
    · exact h
    · rw [if_pos h]; exact h
  | registerProp p =>
    show (v.registerProp decl p).2.poisoned = true
    unfold World.registerProp
    rw [if_pos h]; exact h
  | addProperties k =>
    show (v.addProperties k).2.poisoned = true
    unfold World.addProperties
    split
    · exact h
    · rw [if_pos h]; exact h
  | get k p =>
    show (v.get decl k p).2.poisoned = true
    unfold World.get
    cases v.unis[k]? with
    | none => exact h
    | some u =>
      simp only []
      have := resolve_stays (decl := decl) (p := p) h
      rcases er : v.resolve decl p with ⟨r, w⟩
      rw [er] at this
      cases r with
      | error e => exact this
      | ok i =>
        simp only []
        cases cellOf u i <;> exact this
  | swap k p x => exact hsw k p x
  | set k p x =>
    show (v.set decl k p x).2.poisoned = true
    rw [set_snd]
    exact hsw k p x
  | newUniverse ns => cases ho
  | addDomain k n => cases ho
  | openTable k m b t => cases ho
  | panicWriting k m t => cases ho
  | registerTracker k r => cases ho

/-! ## The static -/

/-- Setting the static is what a `get` does on its way. -/
theorem alias_sim {L : String → Bool} {v w : World P V} (hb : Behind L v w) (hv : WInv decl v) (hw : WInv decl w) {k : Nat} (hk : k < v.unis.length) {p : P}
    {ix : PIndex} {v' : World P V} (h : v.syncAlias decl p = (.ok ix, v')) (on : Option Nat) :
    Behind L v' (w.step decl (.get k p)).2 ∧ Moves decl on v v' ∧ (v'.idx p).isSome = true := by
  have hvp' : v'.poisoned = false := by
    unfold World.syncAlias at h
    rw [if_neg (by simp [hb.vp])] at h
    split at h
    · cases h
    · split at h
      · cases h
      · split at h
        · cases h
        · injection h with h1 h2; rw [← h2]; exact hb.vp
  have hs : (w.get decl k p).2 = (w.resolve decl p).2 := by
    unfold World.get
    have : k < w.unis.length := by rw [← hb.len]; exact hk
    rw [List.getElem?_eq_getElem this]
    simp only []
    rcases w.resolve decl p with ⟨r, w1⟩
    cases r with
    | error e => rfl
    | ok i =>
      simp only []
      cases cellOf w.unis[k] i <;> rfl
  have hv' : v'.idx p = some ix ∧ v'.g = v.g ∧ v'.unis = v.unis ∧ (∀ q, q ≠ p → v'.idx q = v.idx q) ∧ IdxOk v.g (decl p) ix := by
    unfold World.syncAlias at h
    rw [if_neg (by simp [hb.vp])] at h
    split at h
    · cases h
    · rename_i info hinfo
      split at h
      · cases h
      · rename_i gid hgid
        split at h
        · cases h
        · rename_i did hdid
          injection h with h1 h2
          injection h1 with h1
          subst h1; subst h2
          exact ⟨by simp, rfl, rfl, fun q hq => by simp [hq], ⟨info, hinfo, rfl, hdid, hgid⟩⟩
  obtain ⟨a1, a2, a3, a4, a5⟩ := hv'
  have hsame : (v.idx p).isSome = true → v' = v := by
    intro hsm
    obtain ⟨j, hj⟩ := Option.isSome_iff_exists.1 hsm
    have : j = ix := (hv.idx p j hj).unique a5
    subst this
    have hidx : v'.idx = v.idx := by
      funext q
      by_cases hq : q = p
      · subst hq; rw [a1, hj]
      · exact a4 q hq
    have hpo : v'.poisoned = v.poisoned := by rw [hvp', hb.vp]
    cases v; cases v'
    simp only [] at a2 a3 hidx hpo
    rw [a2, a3, hidx, hpo]
  refine ⟨?_, ?_, by rw [a1]; rfl⟩
  · show Behind L v' (w.get decl k p).2
    rw [hs]
    cases e : v.idx p with
    | some j =>
      rw [hsame (by rw [e]; rfl)]
      have : w.resolve decl p = (.ok j, w) := by unfold World.resolve; rw [← hb.idx, e]
      rw [this]
      exact hb
    | none =>
      have : w.resolve decl p = w.syncAlias decl p := by unfold World.resolve; rw [← hb.idx, e]
      rw [this]
      have := (hb.syncAlias (decl := decl) p (by rw [h]; exact hvp')).2
      rw [h] at this
      exact this
  · refine ⟨⟨by rw [a2]; exact hv.g, ?_, ?_⟩, hb.vp, hvp', by rw [a2]; exact Ext.refl _, ?_, by rw [a3], fun _ _ _ => by rw [a3]⟩
    · intro q i hq
      rw [a2]
      by_cases hqp : q = p
      · subst hqp
        rw [a1] at hq
        injection hq with hq
        subst hq
        exact a5
      · rw [a4 q hqp] at hq
        exact hv.idx q i hq
    · rw [a2, a3]; exact hv.unis
    · intro q hq
      by_cases hqp : q = p
      · subst hqp; rw [a1]; rfl
      · rw [a4 q hqp]; exact hq

theorem alias_error {v : World P V} (hp : v.poisoned = false) {p : P} {e : Panic} {v' : World P V} (h : v.syncAlias decl p = (.error e, v')) : v'.poisoned = true := by
  unfold World.syncAlias at h
  rw [if_neg (by simp [hp])] at h
  split at h
  · injection h with h1 h2; rw [← h2]
  · split at h
    · injection h with h1 h2; rw [← h2]
    · split at h
      · injection h with h1 h2; rw [← h2]
      · cases h

/-! ## `Universe::new` and `add_domain` begin -/

theorem NewOk.start {L : String → Bool} {v w : World P V} (hb : Behind L v w) (hv : WInv decl v) {ns : List String} {u : List (MaybeDomain V)} {g : Globals V}
    (h : v.g.getDomains (v.g.did2name.map .unset) ns = .ok (u, g)) (on : Option Nat) :
    NewOk ({ v with g := g } : World P V) ns u (ns.map .inl) ∧ Moves decl on v ({ v with g := g } : World P V) ∧
      Behind (fun n => L n || decide (n ∈ ns)) ({ v with g := g } : World P V) w := by
  have hinv := getDomains_inv hv.g (unset_ok (g := v.g)) (by simp) ns
  rw [h] at hinv
  simp only [] at hinv
  obtain ⟨a1, a2, a3, a4, a5, a6, a7, a8⟩ := hinv
  have hg := getDomains_g h
  have hgd : (g.getDomains (g.did2name.map .unset) ns).map Prod.fst = .ok u := by
    rw [a5, hg, lockOn_getDomains, h]
    rfl
  refine ⟨⟨a3, ?_, u, hgd, a3, SameEnd.refl _⟩, ?_, ?_⟩
  · intro n hn
    show ∃ info, g.domains.lookup n = some info ∧ info.locked = true
    have hd := a6 n hn
    rw [← hv.g.names] at hd
    obtain ⟨info, hi⟩ := Option.isSome_iff_exists.1 (lookup_isSome_iff.2 hd)
    refine ⟨{ info with locked := true }, ?_, rfl⟩
    rw [hg, lockOn_lookup, hi]
    simp [hn]
  · refine ⟨⟨a1, fun p i hp => (hv.idx p i hp).ext a2, fun x hx => (hv.unis x hx).ext hv.g a2⟩, hb.vp, hb.vp, a2, fun _ h => h, le_refl _, fun _ _ _ => rfl⟩
  · refine ⟨?_, hb.vp, hb.wp, hb.idx, hb.unis⟩
    show g = _
    rw [hg, hb.g, lockOn_lockOn]
    congr 1
    funext n
    exact Bool.or_comm _ _

theorem AddOk.start {L : String → Bool} {v w : World P V} (hb : Behind L v w) (hv : WInv decl v) {k : Nat} {n : String} {info : DomainInfo}
    {u : List (MaybeDomain V)} (hl : v.g.domains.lookup n = some info) (hk : v.unis[k]? = some u) (hlt : info.id < u.length) (hd : domAt u info.id = none)
    {inst : Instance V} {g : Globals V} (h : v.g.instantiate n = .ok (inst, g)) (on : Option Nat) :
    AddOk ({ v with g := g } : World P V) k n (u.set info.id (.domain inst)) [.inl n] ∧ Moves decl on v ({ v with g := g } : World P V) ∧
      Behind (fun m => L m || decide (m ∈ [n])) ({ v with g := g } : World P V) w := by
  obtain ⟨inst', a1, a2, a3, a4, a5, a6⟩ := instantiate_ok hv.g hl
  rw [h] at a1
  injection a1 with a1
  injection a1 with a1 hg
  subst a1
  rw [← hg] at a2 a3 a4
  have hg2 := instantiate_g h
  have hU := (hv.unis u (List.mem_of_getElem? hk)).ext hv.g a3
  have hUs := hU.set info.id a4
  refine ⟨⟨hUs, { info with locked := true }, u, inst, ?_, rfl, hk, hlt, hd, ?_, hUs, SameEnd.refl _⟩, ?_, ?_⟩
  · show g.domains.lookup n = _
    rw [hg2, lockOn_lookup, hl]
    simp
  · show g.instantiate n = .ok (inst, g)
    rw [hg2, lockOn_instantiate, h, hg2]
    simp only [Except.map]
    rw [lockOn_idem]
  · exact ⟨⟨a2, fun p i hp => (hv.idx p i hp).ext a3, fun x hx => (hv.unis x hx).ext hv.g a3⟩, hb.vp, hb.vp, a3, fun _ h => h, le_refl _, fun _ _ _ => rfl⟩
  · refine ⟨?_, hb.vp, hb.wp, hb.idx, hb.unis⟩
    show g = _
    rw [hg2, hb.g, lockOn_lockOn]
    congr 1
    funext m
    by_cases hm : m = n <;> simp [hm]

theorem NewOk.next {v : World P V} {ns : List String} {u u' : List (MaybeDomain V)} {x : String ⊕ Reg} {t t' : List (String ⊕ Reg)} (h : NewOk v ns u (x :: t))
    (hx : v.buildOne u t x = (none, u', t')) : NewOk v ns u' t' := by
  obtain ⟨u0, h1, h2, h3⟩ := h.made
  exact ⟨buildOne_inv h.uok hx, h.locked, u0, h1, h2, by rw [← buildOne_none hx]; exact h3⟩

theorem AddOk.next {v : World P V} {k : Nat} {n : String} {u u' : List (MaybeDomain V)} {x : String ⊕ Reg} {t t' : List (String ⊕ Reg)} (h : AddOk v k n u (x :: t))
    (hx : v.buildOne u t x = (none, u', t')) : AddOk v k n u' t' := by
  obtain ⟨info, uk, inst, h1, h2, h3, h4, h5, h6, h7, h8⟩ := h.made
  exact ⟨buildOne_inv h.uok hx, info, uk, inst, h1, h2, h3, h4, h5, h6, h7, by rw [← buildOne_none hx]; exact h8⟩

/-- `add_domain` of an unknown domain. -/
theorem addDomain_unknown {w : World P V} (h : WInv decl w) (hp : w.poisoned = false) {k : Nat} {u : List (MaybeDomain V)} (hk : w.unis[k]? = some u)
    {n : String} {e : Panic} (hl : w.getId n = .error e) : w.addDomain k n = (.error e, { w with unis := w.unis.set k (w.padded u) }) := by
  unfold World.addDomain
  rw [hk]
  simp only []
  rw [synced_eq h hp hk]
  simp only []
  have : ({ w with unis := w.unis.set k (w.padded u) } : World P V).getId n = .error e := hl
  rw [this]

/-! ## One step inside a call -/

/-- What one step inside a call is: `L` and `w` are as in `Behind`. -/
inductive Went (L : String → Bool) (s : RtSys ι decl) (w : World P V) (i : ι) (op : ROp decl) (ph : RtPhase V) : RtSys ι decl → Prop where
  /-- The call goes on. -/
  | on (v' : World P V) (ph' : RtPhase V) (L' : String → Bool) (hm : Moves decl op.on s.w v') (hb : Behind L' v' w)
      (hL : ∀ n, L' n = true → L n = true ∨ (n ∈ op.names ∧ ∃ u t, ph' = .building u t)) (hk : ∀ u t, ph = .building u t → ∃ u t, ph' = .building u t)
      (hph : PhOk v' op ph') (hn : ph' ≠ .idle) (hd : ∀ o, ph' ≠ .done o) : Went L s w i op ph (({ s with w := v' }).goto i ph')
  /-- The call sets the static. -/
  | bound (v' : World P V) (st : Option (ι × P)) (k : Nat) (p : P) (hon : op.on = some k) (hu : op.uses = some p) (hm : Moves decl op.on s.w v')
      (hb : Behind L v' (w.step decl (.get k p)).2) (hk : ph = .syncing) (hi : (v'.idx p).isSome = true) :
      Went L s w i op ph ((({ s with w := v', storing := st }).note (.bound i k p)).goto i .resolved)
  /-- The call has its effect. -/
  | settled (v' : World P V) (st : Option (ι × P)) (out : R (Given V)) (L' : String → Bool) (hm : Moves decl op.on s.w v') (hb : Behind L' v' (w.step decl op).2)
      (hL : ∀ n, L' n = true → L n = true ∧ ((∃ u t, ph = .building u t) → n ∉ op.names)) (ho : out.toOption = (w.given decl op).toOption) :
      Went L s w i op ph ({ (s.settle i op out v') with storing := st })
  /-- The call met another thread at work. -/
  | lapsed (e : Panic) (hk : ∀ u t, ph ≠ .building u t) : Went L s w i op ph ((s.note (.lapse i op)).goto i (.done (.error e)))

section
variable {L : String → Bool} {s s' : RtSys ι decl} {w : World P V} {i : ι} {op : ROp decl} {ph : RtPhase V} {see : Seen}

theorem went_whole (hb : Behind L s.w w) (hv : WInv decl s.w) (hw : WInv decl w) (hL : ∀ m, L m = true → (w.g.domains.lookup m).isSome = true)
    (ho : op.atOnce = true) (hi : ∀ p, op.uses = some p → (s.w.idx p).isSome = true)  (st : Option (ι × P))
    (hp : (s.w.step decl op).2.poisoned = false) : Went L s w i op ph ({ (s.whole i op) with storing := st }) := by
  obtain ⟨h1, h2⟩ := whole_sim hb hv hw hL ho hi hp
  exact Went.settled _ st _ L (whole_moves hv ho hb.vp hp) h2 (fun n hn => ⟨hn, fun _ => by cases op <;> first | exact List.not_mem_nil | cases ho⟩) h1

theorem went_goto (hb : Behind L s.w w) (hv : WInv decl s.w) (ph' : RtPhase V) (hn : ph' ≠ .idle) (hd : ∀ o, ph' ≠ .done o) (hph : PhOk s.w op ph')
    (hk : ∀ u t, ph = .building u t → ∃ u t, ph' = .building u t) : Went L s w i op ph (s.goto i ph') :=
  Went.on s.w ph' L (Moves.refl hv hb.vp _) hb (fun n h => Or.inl h) hk hph hn hd

theorem useProp_went (hb : Behind L s.w w) (hv : WInv decl s.w) (hw : WInv decl w) (hL : ∀ m, L m = true → (w.g.domains.lookup m).isSome = true)
    (ho : op.atOnce = true) {k : Nat} {p : P} (hon : op.on = some k) (hu : op.uses = some p) (hk : k < s.w.unis.length) (hph : PhOk s.w op ph)
    (h : s.useProp i see op k p ph = some s') (hp : s'.w.poisoned = false) : Went L s w i op ph s' := by
  have hres : (s.w.idx p).isSome = true → PhOk s.w op .resolved := by
    intro h q hq
    rw [hu] at hq
    injection hq with hq
    subst hq
    exact h
  cases ph with
  | begun =>
    simp only [RtSys.useProp] at h
    cases e : s.w.idx p with
    | none =>
      rw [e] at h
      simp only [] at h
      injection h with h
      subst h
      exact went_goto hb hv _ (by simp) (by simp) trivial (by simp)
    | some ix =>
      rw [e] at h
      simp only [] at h
      have hr : Went L s w i op .begun (s.goto i .resolved) := went_goto hb hv _ (by simp) (by simp) (hres (by rw [e]; rfl)) (by simp)
      by_cases hst : s.storing.any (fun x => decide (x.2 = p)) = true
      · rw [if_pos hst] at h
        cases see with
        | whole =>
          simp only [] at h
          injection h with h
          subst h
          exact hr
        | unset =>
          simp only [] at h
          injection h with h
          subst h
          exact went_goto hb hv _ (by simp) (by simp) trivial (by simp)
        | torn =>
          simp only [] at h
          cases ed : (s.w.unis[k]?).bind (fun u => domAt u ix.domain) with
          | none =>
            rw [ed] at h
            simp only [] at h
            injection h with h
            subst h
            exact hr
          | some d =>
            rw [ed] at h
            simp only [] at h
            injection h with h
            subst h
            exact Went.lapsed _ (by simp)
      · rw [if_neg hst] at h
        injection h with h
        subst h
        exact hr
  | syncing =>
    simp only [RtSys.useProp] at h
    by_cases hst : s.storing.isSome = true
    · rw [if_pos hst] at h; cases h
    · rw [if_neg hst] at h
      rcases e : s.w.syncAlias decl p with ⟨r, v'⟩
      rw [e] at h
      cases r with
      | ok ix =>
        simp only [] at h
        injection h with h
        subst h
        obtain ⟨a1, a2, a3⟩ := alias_sim hb hv hw hk e op.on
        exact Went.bound v' _ k p hon hu a2 a1 rfl a3
      | error er =>
        simp only [] at h
        injection h with h
        subst h
        have : v'.poisoned = false := hp
        rw [alias_error hb.vp e] at this
        cases this
  | resolved =>
    simp only [RtSys.useProp] at h
    injection h with h
    subst h
    exact went_whole hb hv hw hL ho hph s.storing hp
  | idle => cases h
  | synced => cases h
  | located d => cases h
  | building u t => cases h
  | done o => cases h

theorem useReg_went (hb : Behind L s.w w) (hv : WInv decl s.w) (hw : WInv decl w) (hL : ∀ m, L m = true → (w.g.domains.lookup m).isSome = true)
    {p : P} (h : s.useReg i p = some s') (hp : s'.w.poisoned = false) : Went L s w i (.registerProp p) ph s' := by
  simp only [RtSys.useReg] at h
  by_cases hst : s.storing.isSome = true
  · rw [if_pos hst] at h; cases h
  · rw [if_neg hst] at h
    injection h with h
    subst h
    exact went_whole hb hv hw hL rfl (by simp [ROp.uses]) _ hp

/-- Calls on tables. -/
theorem useTable_went (hb : Behind L s.w w) (hv : WInv decl s.w) (hw : WInv decl w) {k : Nat} {dom : String}
    {call : List (MaybeDomain V) → Nat → R Unit × List (MaybeDomain V)} (hon : op.on = some k) (htd : op.tableDomain = some dom)
    (hadd : ∀ k n, op ≠ .addDomain k n)
    (hcall : ∀ x : World P V, ∀ u did, x.unis[k]? = some u → x.getId dom = .ok did →
      x.given decl op = (call u did).1.map (fun _ => .unit) ∧ (x.step decl op).2 = { x with unis := x.unis.set k (call u did).2 })
    (herr : ∀ x : World P V, ∀ u e, x.unis[k]? = some u → x.getId dom = .error e → (x.given decl op).toOption = none ∧ (x.step decl op).2 = x)
    (halike : ∀ u u' did, domAt u = domAt u' → (call u did).1 = (call u' did).1 ∧ domAt (call u did).2 = domAt (call u' did).2)
    (hinv : ∀ g u did, UOk g u → UOk g (call u did).2)
    (hk : k < s.w.unis.length) (hph : PhOk s.w op ph)
    (h : s.useTable i op k dom call ph = some s') (hp : s'.w.poisoned = false) : Went L s w i op ph s' := by
  cases ph with
  | begun =>
    simp only [RtSys.useTable] at h
    by_cases hst : s.storing.isSome = true
    · rw [if_pos hst] at h; cases h
    · rw [if_neg hst] at h
      cases e : s.w.getId dom with
      | error er =>
        rw [e] at h
        simp only [] at h
        injection h with h
        subst h
        have hwk : k < w.unis.length := by rw [← hb.len]; exact hk
        have he : w.getId dom = .error er := by rw [← hb.getId]; exact e
        obtain ⟨hn, hs⟩ := herr w _ er (List.getElem?_eq_getElem hwk) he
        exact Went.settled s.w s.storing _ L (Moves.refl hv hb.vp _) (by rw [hs]; exact hb) (fun n hn => ⟨hn, by simp⟩) (by rw [hn]; rfl)
      | ok did =>
        rw [e] at h
        simp only [] at h
        injection h with h
        subst h
        refine went_goto hb hv _ (by simp) (by simp) ⟨?_, ?_⟩ (by simp)
        · intro n hn
          rw [htd] at hn
          injection hn with hn
          subst hn
          exact e
        · intro k n hop
          exact absurd hop (hadd k n)
  | located did =>
    simp only [RtSys.useTable] at h
    obtain ⟨u, hu⟩ : ∃ u, s.w.unis[k]? = some u := ⟨_, List.getElem?_eq_getElem hk⟩
    rw [hu] at h
    simp only [] at h
    injection h with h
    subst h
    obtain ⟨u', hu', ha⟩ := hb.at hu
    have hid := hph.1 dom htd
    have hid' : w.getId dom = .ok did := by rw [← hb.getId]; exact hid
    obtain ⟨b1, b2⟩ := hcall w u' did hu' hid'
    obtain ⟨c1, c2⟩ := halike u u' did ha
    refine Went.settled _ s.storing _ L ?_ (by rw [b2]; exact hb.set k c2) (fun n hn => ⟨hn, by simp⟩) (by rw [b1, c1])
    refine ⟨hv.setUni k (hinv _ _ _ (hv.unis u (List.mem_of_getElem? hu))), hb.vp, hb.vp, Ext.refl _, fun _ h => h, by simp, ?_⟩
    intro j hj hne
    show (s.w.unis.set k _)[j]? = _
    rw [List.getElem?_set_ne (by rintro rfl; exact hne hon)]
  | idle => cases h
  | syncing => cases h
  | resolved => cases h
  | synced => cases h
  | building u t => cases h
  | done o => cases h

theorem build_went {fin : Option Panic → List (MaybeDomain V) → R (Given V) × World P V} {u : List (MaybeDomain V)} {t : List (String ⊕ Reg)}
    (hb : Behind L s.w w) (hv : WInv decl s.w)
    (hend : ∀ e ue, s.w.buildRun u t = (e, ue) → (fin e ue).1.toOption = (w.given decl op).toOption ∧ Behind (less L op.names) (fin e ue).2 (w.step decl op).2 ∧
      Moves decl op.on s.w (fin e ue).2)
    (hnext : ∀ x t' u' t'', t = x :: t' → s.w.buildOne u t' x = (none, u', t'') → PhOk s.w op (.building u' t''))
    (h : s.build i op fin u t = some s') : Went L s w i op (.building u t) s' := by
  have hless : ∀ n, less L op.names n = true → L n = true ∧ ((∃ u' t', (RtPhase.building u t : RtPhase V) = .building u' t') → n ∉ op.names) := by
    intro n hn
    unfold less at hn
    simp only [Bool.and_eq_true, Bool.not_eq_true', decide_eq_false_iff_not] at hn
    exact ⟨hn.1, fun _ => hn.2⟩
  cases t with
  | nil =>
    simp only [RtSys.build] at h
    injection h with h
    subst h
    obtain ⟨a1, a2, a3⟩ := hend none u rfl
    exact Went.settled _ s.storing _ _ a3 a2 hless a1
  | cons x t =>
    simp only [RtSys.build] at h
    by_cases hst : s.storing.isSome = true
    · rw [if_pos hst] at h; cases h
    · rw [if_neg hst] at h
      rcases e : s.w.buildOne u t x with ⟨q, u', t'⟩
      rw [e] at h
      cases q with
      | none =>
        simp only [] at h
        injection h with h
        subst h
        exact went_goto hb hv _ (by simp) (by simp) (hnext x t u' t' rfl e) (fun _ _ _ => ⟨_, _, rfl⟩)
      | some p =>
        simp only [] at h
        injection h with h
        subst h
        obtain ⟨a1, a2, a3⟩ := hend (some p) u' (buildOne_some e)
        exact Went.settled _ s.storing _ _ a3 a2 hless a1

theorem useNew_went (hb : Behind L s.w w) (hv : WInv decl s.w) {ns : List String} (hph : PhOk s.w (.newUniverse ns : ROp decl) ph)
    (h : s.useNew i ns ph = some s') (hp : s'.w.poisoned = false) : Went L s w i (.newUniverse ns) ph s' := by
  cases ph with
  | begun =>
    simp only [RtSys.useNew] at h
    by_cases hst : s.storing.isSome = true
    · rw [if_pos hst] at h; cases h
    · rw [if_neg hst, if_neg (by simp [hb.vp])] at h
      cases e : s.w.g.getDomains (s.w.g.did2name.map .unset) ns with
      | error er =>
        rw [e] at h
        simp only [] at h
        injection h with h
        subst h
        cases hp
      | ok x =>
        obtain ⟨u, g⟩ := x
        rw [e] at h
        simp only [] at h
        injection h with h
        subst h
        obtain ⟨a1, a2, a3⟩ := NewOk.start hb hv e none
        refine Went.on _ _ _ a2 a3 ?_ (by simp) ⟨?_, by simp⟩ (by simp) (by simp)
        · intro n hn
          simp only [Bool.or_eq_true, decide_eq_true_eq] at hn
          rcases hn with hn | hn
          · exact Or.inl hn
          · exact Or.inr ⟨hn, _, _, rfl⟩
        · intro ns' hns
          injection hns with hns
          subst hns
          exact a1
  | building u t =>
    simp only [RtSys.useNew] at h
    have ho := hph.1 ns rfl
    refine build_went hb hv ?_ ?_ h
    · intro e ue he
      obtain ⟨b1, b2⟩ := ho.sim hb hv he
      exact ⟨b1, b2, ho.moves hv hb.vp he none⟩
    · intro x t' u' t'' ht hx
      subst ht
      refine ⟨?_, by simp⟩
      intro ns' hns
      injection hns with hns
      subst hns
      exact ho.next hx
  | idle => cases h
  | syncing => cases h
  | resolved => cases h
  | synced => cases h
  | located d => cases h
  | done o => cases h

theorem useAdd_went (hb : Behind L s.w w) (hv : WInv decl s.w) (hw : WInv decl w) {k : Nat} {n : String} (hk : k < s.w.unis.length)
    (hph : PhOk s.w (.addDomain k n : ROp decl) ph) (h : s.useAdd i k n ph = some s') (hp : s'.w.poisoned = false) : Went L s w i (.addDomain k n) ph s' := by
  obtain ⟨u, hu⟩ : ∃ u, s.w.unis[k]? = some u := ⟨_, List.getElem?_eq_getElem hk⟩
  obtain ⟨u', hu', ha⟩ := hb.at hu
  have hset : ∀ (x : List (MaybeDomain V)), UOk s.w.g x → Moves decl (some k) s.w ({ s.w with unis := s.w.unis.set k x } : World P V) := by
    intro x hx
    refine ⟨hv.setUni k hx, hb.vp, hb.vp, Ext.refl _, fun _ h => h, by simp, ?_⟩
    intro j hj hne
    show (s.w.unis.set k _)[j]? = _
    rw [List.getElem?_set_ne (by rintro rfl; exact hne rfl)]
  have hU := hv.unis u (List.mem_of_getElem? hu)
  cases ph with
  | begun =>
    simp only [RtSys.useAdd] at h
    by_cases hst : s.storing.isSome = true
    · rw [if_pos hst] at h; cases h
    · rw [if_neg hst, hu] at h
      simp only [] at h
      rw [synced_eq hv hb.vp hu] at h
      simp only [] at h
      injection h with h
      subst h
      refine Went.on _ _ L (hset _ hU.append_unset) (hb.setLeft k hu ?_) (fun n h => Or.inl h) (by simp) trivial (by simp) (by simp)
      unfold World.padded
      exact append_unset_domAt _ _
  | synced =>
    simp only [RtSys.useAdd] at h
    by_cases hst : s.storing.isSome = true
    · rw [if_pos hst] at h; cases h
    · rw [if_neg hst, hu] at h
      simp only [] at h
      have hpad : domAt (w.padded u') = domAt u' := by unfold World.padded; exact append_unset_domAt _ _
      cases e : s.w.getId n with
      | error er =>
        rw [e] at h
        simp only [] at h
        injection h with h
        subst h
        have he : w.getId n = .error er := by rw [← hb.getId]; exact e
        have := addDomain_unknown hw hb.wp hu' he
        refine Went.settled _ s.storing _ L (Moves.refl hv hb.vp _) ?_ (fun n hn => ⟨hn, by simp⟩) ?_
        · show Behind L s.w (w.addDomain k n).2
          rw [this]
          exact hb.setRight k hu' hpad
        · show _ = ((w.addDomain k n).1.map _).toOption
          rw [this]; rfl
      | ok did =>
        rw [e] at h
        simp only [] at h
        cases el : s.w.g.domains.lookup n with
        | none => unfold World.getId at e; rw [if_neg (by simp [hb.vp]), el] at e; cases e
        | some info =>
          have hid : info.id = did := by rw [getId_eq hb.vp el] at e; injection e
          subst hid
          cases em : u[info.id]? with
          | none =>
            rw [em] at h
            simp only [] at h
            injection h with h
            subst h
            exact Went.lapsed _ (by simp)
          | some m =>
            rw [em] at h
            simp only [] at h
            cases m with
            | domain d =>
              rw [if_pos (by rfl)] at h
              injection h with h
              subst h
              have hl := hb.lookup n
              rw [el] at hl
              cases e1 : w.g.domains.lookup n with
              | none => rw [e1] at hl; cases hl
              | some info' =>
                rw [e1] at hl
                simp only [Option.map_some] at hl
                injection hl with hl
                have hid : info'.id = info.id := by rw [hl]; split <;> rfl
                have hd : u'[info'.id]? = some (.domain d) := by
                  rw [← domAt_iff, ← ha, hid, domAt_iff]; exact em
                have := addDomain_there hw hb.wp hu' e1 hd
                refine Went.settled _ s.storing _ L (Moves.refl hv hb.vp _) ?_ (fun n hn => ⟨hn, by simp⟩) ?_
                · show Behind L s.w (w.addDomain k n).2
                  rw [this]
                  exact hb.setRight k hu' hpad
                · show _ = ((w.addDomain k n).1.map _).toOption
                  rw [this]; rfl
            | unset m =>
              rw [if_neg (by simp [MaybeDomain.isSet])] at h
              injection h with h
              subst h
              refine went_goto hb hv _ (by simp) (by simp) ⟨by simp [ROp.tableDomain], ?_⟩ (by simp)
              intro k' n' hop
              injection hop with hop1 hop2
              subst hop1; subst hop2
              exact ⟨info, u, el, rfl, hu, get_lt em, by unfold domAt; rw [em]⟩
  | located did =>
    simp only [RtSys.useAdd] at h
    by_cases hst : s.storing.isSome = true
    · rw [if_pos hst] at h; cases h
    · rw [if_neg hst, hu] at h
      simp only [] at h
      rw [if_neg (by simp [hb.vp])] at h
      obtain ⟨info, u1, h1, h2, h3, h4, h5⟩ := hph.2 k n rfl
      rw [hu] at h3
      injection h3 with h3
      subst h3
      subst h2
      cases e : s.w.g.instantiate n with
      | error er =>
        rw [e] at h
        simp only [] at h
        injection h with h
        subst h
        cases hp
      | ok x =>
        obtain ⟨inst, g⟩ := x
        rw [e] at h
        simp only [] at h
        injection h with h
        subst h
        obtain ⟨a1, a2, a3⟩ := AddOk.start hb hv h1 hu h4 h5 e (some k)
        refine Went.on _ _ _ a2 a3 ?_ (by simp) ⟨by simp, ?_⟩ (by simp) (by simp)
        · intro m hm
          simp only [Bool.or_eq_true, decide_eq_true_eq] at hm
          rcases hm with hm | hm
          · exact Or.inl hm
          · exact Or.inr ⟨hm, _, _, rfl⟩
        · intro k' n' hop
          injection hop with hop1 hop2
          subst hop1; subst hop2
          exact a1
  | building u1 t =>
    simp only [RtSys.useAdd] at h
    have ho := hph.2 k n rfl
    refine build_went hb hv ?_ ?_ h
    · intro e ue he
      obtain ⟨b1, b2⟩ := ho.sim hb hv hw he
      exact ⟨b1, b2, ho.moves hv hb.vp he⟩
    · intro x t' u' t'' ht hx
      subst ht
      refine ⟨by simp, ?_⟩
      intro k' n' hop
      injection hop with hop1 hop2
      subst hop1; subst hop2
      exact ho.next hx
  | idle => cases h
  | syncing => cases h
  | resolved => cases h
  | done o => cases h

theorem registerAt_inv {g : Globals V} {u : List (MaybeDomain V)} (hu : UOk g u) (did : Nat) (r : Reg) : UOk g (registerAt u did r).2 := by
  unfold registerAt
  split
  · exact hu
  · split
    · exact hu
    · split
      · exact modTable_inv hu _ _ (fun x => rfl)
      · split <;> exact modTable_inv hu _ _ (fun x => rfl)

theorem openAt_inv {g : Globals V} {u : List (MaybeDomain V)} (hu : UOk g u) (did : Nat) (m : GTable) (b t : Bool) : UOk g (openAt u did m b t).2 := by
  unfold openAt
  split
  · exact hu
  · split
    · cases b
      · exact hu
      · exact modTable_inv hu _ _ (fun x => rfl)
    · split <;> exact hu

theorem panicAt_inv {g : Globals V} {u : List (MaybeDomain V)} (hu : UOk g u) (did : Nat) (m : GTable) (t : Bool) : UOk g (panicAt u did m t).2 := by
  unfold panicAt
  have := openAt_inv hu did m true t
  rcases e : openAt u did m true t with ⟨r, x⟩
  rw [e] at this
  cases r with
  | error p => exact this
  | ok y => exact modTable_inv this _ _ (fun x => rfl)

/-- Every step inside a call. -/
theorem call_went (hb : Behind L s.w w) (hv : WInv decl s.w) (hw : WInv decl w) (hL : ∀ m, L m = true → (w.g.domains.lookup m).isSome = true)
    (hk : ∀ k, op.on = some k → k < s.w.unis.length) (hph : PhOk s.w op ph)
    (h : s.call i see ph op = some s') (hp : s'.w.poisoned = false) : Went L s w i op ph s' := by
  cases op with
  | registerDomain n =>
    simp only [RtSys.call] at h
    by_cases hst : s.storing.isSome = true
    · rw [if_pos hst] at h; cases h
    · rw [if_neg hst] at h
      injection h with h
      subst h
      exact went_whole hb hv hw hL rfl (by simp [ROp.uses]) s.storing hp
  | registerTable n =>
    simp only [RtSys.call] at h
    by_cases hst : s.storing.isSome = true
    · rw [if_pos hst] at h; cases h
    · rw [if_neg hst] at h
      injection h with h
      subst h
      exact went_whole hb hv hw hL rfl (by simp [ROp.uses]) s.storing hp
  | addProperties n =>
    simp only [RtSys.call] at h
    by_cases hst : s.storing.isSome = true
    · rw [if_pos hst] at h; cases h
    · rw [if_neg hst] at h
      injection h with h
      subst h
      exact went_whole hb hv hw hL rfl (by simp [ROp.uses]) s.storing hp
  | registerProp p => exact useReg_went hb hv hw hL h hp
  | newUniverse ns => exact useNew_went hb hv hph h hp
  | addDomain k n => exact useAdd_went hb hv hw (hk k rfl) hph h hp
  | get k p => exact useProp_went hb hv hw hL rfl rfl rfl (hk k rfl) hph h hp
  | set k p x => exact useProp_went hb hv hw hL rfl rfl rfl (hk k rfl) hph h hp
  | swap k p x => exact useProp_went hb hv hw hL rfl rfl rfl (hk k rfl) hph h hp
  | openTable k m b t =>
    refine useTable_went (op := .openTable k m b t) hb hv hw rfl rfl (by simp) ?_ ?_ (fun u u' did ha => openAt_alike ha did m b t) (fun g u did hu => openAt_inv hu did m b t) (hk k rfl) hph h hp
    · intro x u did hu hd
      have := openTable_at hu hd b t
      refine ⟨?_, ?_⟩
      · show (x.openTable k m b t).1.map _ = _
        rw [this]
      · show (x.openTable k m b t).2 = _
        rw [this]
    · intro x u e hu hd
      have : x.openTable k m b t = (.error e, x) := by unfold World.openTable; rw [hu]; simp only []; rw [hd]
      refine ⟨?_, ?_⟩
      · show ((x.openTable k m b t).1.map _).toOption = _
        rw [this]; rfl
      · show (x.openTable k m b t).2 = _
        rw [this]
  | panicWriting k m t =>
    refine useTable_went (op := .panicWriting k m t) hb hv hw rfl rfl (by simp) ?_ ?_ (fun u u' did ha => panicAt_alike ha did m t) (fun g u did hu => panicAt_inv hu did m t) (hk k rfl) hph h hp
    · intro x u did hu hd
      have := panicWriting_at hu hd t
      refine ⟨?_, ?_⟩
      · show (x.panicWriting k m t).1.map _ = _
        rw [this]
      · show (x.panicWriting k m t).2 = _
        rw [this]
    · intro x u e hu hd
      have h0 : x.openTable k m true t = (.error e, x) := by unfold World.openTable; rw [hu]; simp only []; rw [hd]
      have : x.panicWriting k m t = (.error e, x) := by unfold World.panicWriting; rw [h0]
      refine ⟨?_, ?_⟩
      · show ((x.panicWriting k m t).1.map _).toOption = _
        rw [this]; rfl
      · show (x.panicWriting k m t).2 = _
        rw [this]
  | registerTracker k r =>
    refine useTable_went (op := .registerTracker k r) hb hv hw rfl rfl (by simp) ?_ ?_ ?_ (fun g u did hu => registerAt_inv hu did r) (hk k rfl) hph h hp
    · intro x u did hu hd
      have := registerTracker_at hu hd
      refine ⟨?_, ?_⟩
      · show (x.registerTracker k r).1.map _ = _
        rw [this]
        simp only []
        cases (registerAt u did r).1 <;> rfl
      · show (x.registerTracker k r).2 = _
        rw [this]
    · intro x u e hu hd
      have h0 : x.register u r = (some e, u) := by rw [register_eq, hd]
      have : x.registerTracker k r = (.error e, x) := by
        unfold World.registerTracker; rw [hu]; simp only []; rw [h0]; simp only []; rw [set_self hu]
      refine ⟨?_, ?_⟩
      · show ((x.registerTracker k r).1.map _).toOption = _
        rw [this]; rfl
      · show (x.registerTracker k r).2 = _
        rw [this]
    · intro u u' did ha
      obtain ⟨a1, a2⟩ := registerAt_alike ha did r
      refine ⟨?_, a2⟩
      simp only []
      rw [a1]

end

end V11
