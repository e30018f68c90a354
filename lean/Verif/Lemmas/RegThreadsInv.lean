import Verif.Lemmas.RegThreads

/-!
# Calls of several threads: what is true of each thread in its call
-/

set_option linter.unusedSimpArgs false
set_option linter.unusedSectionVars false
set_option linter.unusedVariables false

namespace V11

variable {Ty : Type} [DecidableEq Ty] {V : Ty → Type} {P : Type} [DecidableEq P] {decl : P → PropDecl V}

/-- The domains a call makes. -/
def ROp.names {decl : P → PropDecl V} : ROp decl → List String
  | .newUniverse ns => ns
  | .addDomain _ n => [n]
  | _ => []

theorem same_of_locked {g : Globals V} (hg : GInv g) {L : String → Bool}
    (h : ∀ n info, L n = true → g.domains.lookup n = some info → info.locked = true) : lockOn L g = g := by
  have hnd : (g.domains.map Prod.fst).Nodup := by rw [hg.names]; exact hg.nodup
  have : g.domains.map (fun p => (p.1, if L p.1 then { p.2 with locked := true } else p.2)) = g.domains := by
    conv_rhs => rw [← List.map_id g.domains]
    apply List.map_congr_left
    rintro ⟨n, info⟩ hp
    simp only [id]
    cases hl : L n with
    | false => simp
    | true =>
      have := h n info hl (lookup_of_mem hnd hp)
      cases info
      simp only [] at this
      subst this
      rfl
  unfold lockOn
  rw [this]

/-- `Universe::new` in the middle. -/
structure NewOk (v : World P V) (ns : List String) (u : List (MaybeDomain V)) (todo : List (String ⊕ Reg)) : Prop where
  uok : UOk v.g u
  locked : ∀ n ∈ ns, ∃ info, v.g.domains.lookup n = some info ∧ info.locked = true
  made : ∃ u0, (v.g.getDomains (v.g.did2name.map .unset) ns).map Prod.fst = .ok u0 ∧ UOk v.g u0 ∧ SameEnd (v.buildRun u0 (ns.map .inl)) (v.buildRun u todo)

/-- `add_domain` in the middle. -/
structure AddOk (v : World P V) (k : Nat) (n : String) (u : List (MaybeDomain V)) (todo : List (String ⊕ Reg)) : Prop where
  uok : UOk v.g u
  made : ∃ info uk inst, v.g.domains.lookup n = some info ∧ info.locked = true ∧ v.unis[k]? = some uk ∧ info.id < uk.length ∧ domAt uk info.id = none ∧
    v.g.instantiate n = .ok (inst, v.g) ∧ UOk v.g (uk.set info.id (.domain inst)) ∧
    SameEnd (v.buildRun (uk.set info.id (.domain inst)) [.inl n]) (v.buildRun u todo)

theorem locks_same {v : World P V} (hg : GInv v.g) {ns : List String} (h : ∀ n ∈ ns, ∃ info, v.g.domains.lookup n = some info ∧ info.locked = true) :
    lockOn (fun m => decide (m ∈ ns)) v.g = v.g := by
  apply same_of_locked hg
  intro n info hn hl
  obtain ⟨i, h1, h2⟩ := h n (by simpa using hn)
  rw [hl] at h1
  injection h1 with h1
  rw [h1]; exact h2

/-- What a step does to what is in memory. -/
structure Moves (decl : P → PropDecl V) (on : Option Nat) (v v' : World P V) : Prop where
  inv : WInv decl v'
  vp : v.poisoned = false
  vp' : v'.poisoned = false
  ext : Ext v.g v'.g
  idx : ∀ p, (v.idx p).isSome = true → (v'.idx p).isSome = true
  len : v.unis.length ≤ v'.unis.length
  other : ∀ k : Nat, k < v.unis.length → on ≠ some k → v'.unis[k]? = v.unis[k]?

theorem Moves.refl {v : World P V} (h : WInv decl v) (hp : v.poisoned = false) (on : Option Nat) : Moves decl on v v :=
  ⟨h, hp, hp, Ext.refl _, fun _ h => h, le_refl _, fun _ _ _ => rfl⟩

theorem NewOk.later {v v' : World P V} (hv : WInv decl v) {on : Option Nat} (m : Moves decl on v v') {ns : List String} {u : List (MaybeDomain V)} {todo : List (String ⊕ Reg)}
    (h : NewOk v ns u todo) : NewOk v' ns u todo := by
  have hl : ∀ n ∈ ns, ∃ info, v'.g.domains.lookup n = some info ∧ info.locked = true := by
    intro n hn
    obtain ⟨info, h1, h2⟩ := h.locked n hn
    obtain ⟨info', a1, -, -, a4⟩ := m.ext.dom n info h1
    have := a4 h2
    subst this
    exact ⟨info', a1, h2⟩
  refine ⟨h.uok.ext hv.g m.ext, hl, ?_⟩
  obtain ⟨u0, h1, h2, h3⟩ := h.made
  obtain ⟨u1, u1', a1, a2, a3⟩ := getDomains_later hv.g m.inv.g m.ext ns h.locked (ret := v.g.did2name.map .unset) (ret' := v'.g.did2name.map .unset)
    (by simp) (by simp) (by rw [unset_domAt, unset_domAt])
  rw [h1] at a1
  injection a1 with a1
  subst a1
  have hu' : UOk v'.g u1' := by
    have := getDomains_inv m.inv.g (unset_ok (g := v'.g)) (by simp) ns
    cases e : v'.g.getDomains (v'.g.did2name.map .unset) ns with
    | error p => rw [e] at a2; cases a2
    | ok x =>
      obtain ⟨x1, x2⟩ := x
      rw [e] at a2 this
      injection a2 with a2
      simp only [] at a2 this
      subst a2
      have hg := getDomains_g e
      rw [locks_same m.inv.g hl] at hg
      subst hg
      exact this.2.2.1
  refine ⟨u1', a2, hu', ?_⟩
  have b1 := buildRun_later hv.g m.inv.g m.ext m.vp m.vp' (ns.map .inl) h2 a3
  have b2 := buildRun_later hv.g m.inv.g m.ext m.vp m.vp' todo h.uok (rfl : domAt u = domAt u)
  exact b1.symm.trans (h3.trans b2)

theorem AddOk.later {v v' : World P V} (hv : WInv decl v) {on : Option Nat} (m : Moves decl on v v') {k : Nat} {n : String} {u : List (MaybeDomain V)} {todo : List (String ⊕ Reg)}
    (h : AddOk v k n u todo) (hk : v'.unis[k]? = v.unis[k]?) : AddOk v' k n u todo := by
  refine ⟨h.uok.ext hv.g m.ext, ?_⟩
  obtain ⟨info, uk, inst, h1, h2, h3, h4, h5, h6, h7, h8⟩ := h.made
  obtain ⟨inst', a1, a2⟩ := instantiate_later hv.g m.ext h1 h2
  rw [h6] at a1
  injection a1 with a1
  injection a1 with a1 a1'
  subst a1
  obtain ⟨info', b1, -, -, b4⟩ := m.ext.dom n info h1
  have := b4 h2
  subst this
  have hs : lockOn (fun m => decide (m = n)) v'.g = v'.g := by
    apply same_of_locked m.inv.g
    intro x i hx hi
    have hx : x = n := by simpa using hx
    subst hx
    rw [b1] at hi
    injection hi with hi
    subst hi
    exact h2
  rw [hs] at a2
  refine ⟨info', uk, inst, b1, h2, by rw [hk]; exact h3, h4, h5, a2, h7.ext hv.g m.ext, ?_⟩
  have c1 := buildRun_later hv.g m.inv.g m.ext m.vp m.vp' [.inl n] h7 (rfl : domAt (uk.set info'.id (.domain inst)) = _)
  have c2 := buildRun_later hv.g m.inv.g m.ext m.vp m.vp' todo h.uok (rfl : domAt u = domAt u)
  exact c1.symm.trans (h8.trans c2)

/-- What is true of a thread in its call. -/
def PhOk (v : World P V) (op : ROp decl) : RtPhase V → Prop
  | .resolved => ∀ p, op.uses = some p → (v.idx p).isSome = true
  | .located did => (∀ n, op.tableDomain = some n → v.getId n = .ok did) ∧
      (∀ k n, op = .addDomain k n → ∃ info u, v.g.domains.lookup n = some info ∧ info.id = did ∧ v.unis[k]? = some u ∧ did < u.length ∧ domAt u did = none)
  | .building u todo => (∀ ns, op = .newUniverse ns → NewOk v ns u todo) ∧ (∀ k n, op = .addDomain k n → AddOk v k n u todo)
  | _ => True

/-- It stays true whatever others do. -/
theorem PhOk.later {v v' : World P V} (hv : WInv decl v) {on : Option Nat} (m : Moves decl on v v') {op : ROp decl} {ph : RtPhase V} (h : PhOk v op ph)
    (hk : ∀ k, op.on = some k → op.alone = true → v'.unis[k]? = v.unis[k]?) : PhOk v' op ph := by
  cases ph with
  | resolved => exact fun p hp => m.idx p (h p hp)
  | located did =>
    refine ⟨?_, ?_⟩
    · intro n hn
      have := h.1 n hn
      unfold World.getId at this
      rw [if_neg (by simp [m.vp])] at this
      cases e : v.g.domains.lookup n with
      | none => rw [e] at this; cases this
      | some info =>
        rw [e] at this
        injection this with this
        obtain ⟨info', a1, a2, -⟩ := m.ext.dom n info e
        rw [getId_eq m.vp' a1, a2, this]
    · intro k n hop
      obtain ⟨info, u, h1, h2, h3, h4, h5⟩ := h.2 k n hop
      obtain ⟨info', a1, a2, -⟩ := m.ext.dom n info h1
      exact ⟨info', u, a1, a2.trans h2, by rw [hk k (by rw [hop]; rfl) (by rw [hop]; rfl)]; exact h3, h4, h5⟩
  | building u todo =>
    refine ⟨fun ns hop => (h.1 ns hop).later hv m, ?_⟩
    intro k n hop
    exact (h.2 k n hop).later hv m (hk k (by rw [hop]; rfl) (by rw [hop]; rfl))
  | idle => trivial
  | begun => trivial
  | syncing => trivial
  | synced => trivial
  | done out => trivial

/-! ## The end of `Universe::new` and of `add_domain` -/

/-- These are no longer locked only here. -/
def less (L : String → Bool) (ns : List String) : String → Bool := fun n => L n && !decide (n ∈ ns)

theorem Behind.less {L : String → Bool} {v w : World P V} (h : Behind L v w) {ns : List String} (hs : lockOn (fun m => decide (m ∈ ns)) v.g = v.g) :
    v.g = lockOn (less L ns) (lockOn (fun m => decide (m ∈ ns)) w.g) := by
  rw [lockOn_lockOn]
  rw [← hs, h.g, lockOn_lockOn]
  congr 1
  funext n
  unfold V11.less
  cases L n <;> by_cases h : n ∈ ns <;> simp [h]

theorem newUniverse_eq {w : World P V} (hp : w.poisoned = false) {ns : List String} {u0 : List (MaybeDomain V)}
    (h : (w.g.getDomains (w.g.did2name.map .unset) ns).map Prod.fst = .ok u0) :
    w.newUniverse ns = match w.initDomains u0 ns with
      | (none, u) => (.ok w.unis.length, { w with g := lockOn (fun m => decide (m ∈ ns)) w.g, unis := w.unis ++ [u] })
      | (some p, _) => (.error p, { w with g := lockOn (fun m => decide (m ∈ ns)) w.g }) := by
  unfold World.newUniverse
  rw [if_neg (by simp [hp])]
  cases e : w.g.getDomains (w.g.did2name.map .unset) ns with
  | error p => rw [e] at h; cases h
  | ok x =>
    obtain ⟨u, g⟩ := x
    rw [e] at h
    injection h with h
    simp only [] at h
    subst h
    have hg := getDomains_g e
    subst hg
    simp only []
    have : ({ w with g := lockOn (fun m => decide (m ∈ ns)) w.g } : World P V).initDomains u ns = w.initDomains u ns := by
      apply initDomains_congr
      intro n
      unfold World.getId
      simp only []
      rw [lockOn_lookup]
      cases w.g.domains.lookup n with
      | none => rfl
      | some i => cases decide (n ∈ ns) <;> rfl
    rw [this]
    all_goals
      rcases w.initDomains u ns with ⟨q, u'⟩
      cases q <;> rfl

/-- `Universe::new` ends as it would have for a single thread. -/
theorem NewOk.sim {L : String → Bool} {v w : World P V} (hb : Behind L v w) (hv : WInv decl v) {ns : List String} {u : List (MaybeDomain V)}
    {todo : List (String ⊕ Reg)} (h : NewOk v ns u todo) {e : Option Panic} {ue : List (MaybeDomain V)} (he : v.buildRun u todo = (e, ue)) :
    (v.finNew e ue).1.toOption = ((w.newUniverse ns).1.map Given.number).toOption ∧ Behind (less L ns) (v.finNew e ue).2 (w.newUniverse ns).2 := by
  obtain ⟨u0, h1, h2, h3⟩ := h.made
  have hw : (w.g.getDomains (w.g.did2name.map .unset) ns).map Prod.fst = .ok u0 := by
    rw [hb.g, lockOn_getDomains] at h1
    have : (lockOn L w.g).did2name = w.g.did2name := rfl
    rw [this] at h1
    cases e : w.g.getDomains (w.g.did2name.map .unset) ns with
    | error p => rw [e] at h1; cases h1
    | ok x => rw [e] at h1; exact h1
  have hi : w.initDomains u0 ns = v.buildRun u0 (ns.map .inl) := by
    rw [buildRun_inl]
    exact initDomains_congr (fun n => (hb.getId n).symm) ns u0
  rw [newUniverse_eq hb.wp hw, hi]
  have hl := hb.less (locks_same hv.g h.locked)
  rw [he] at h3
  rcases e' : v.buildRun u0 (ns.map .inl) with ⟨q, u'⟩
  rw [e'] at h3
  obtain ⟨c1, c2⟩ := h3
  simp only [] at c1 c2
  cases q with
  | none =>
    have := c1.1 rfl
    subst this
    refine ⟨?_, hl, hb.vp, hb.wp, hb.idx, ?_⟩
    · show some (Given.number v.unis.length) = some (Given.number w.unis.length)
      rw [hb.len]
    · show (v.unis ++ [ue]).map domAt = (w.unis ++ [u']).map domAt
      rw [List.map_append, List.map_append, hb.unis]
      simp [c2]
  | some q =>
    cases e with
    | none => cases c1.2 rfl
    | some e => exact ⟨rfl, hl, hb.vp, hb.wp, hb.idx, hb.unis⟩

theorem NewOk.moves {v : World P V} (hv : WInv decl v) (hp : v.poisoned = false) {ns : List String} {u : List (MaybeDomain V)}
    {todo : List (String ⊕ Reg)} (h : NewOk v ns u todo) {e : Option Panic} {ue : List (MaybeDomain V)} (he : v.buildRun u todo = (e, ue)) (on : Option Nat) :
    Moves decl on v (v.finNew e ue).2 := by
  have hu : UOk v.g ue := by
    have := buildRun_inv (w := v) rfl hv.g todo h.uok
    rw [he] at this; exact this
  cases e with
  | some p => exact Moves.refl hv hp on
  | none =>
    refine ⟨⟨hv.g, hv.idx, ?_⟩, hp, hp, Ext.refl _, fun _ h => h, by simp [World.finNew], ?_⟩
    · intro x hx
      have hx : x ∈ v.unis ++ [ue] := hx
      simp only [List.mem_append, List.mem_singleton] at hx
      rcases hx with hx | rfl
      · exact hv.unis x hx
      · exact hu
    · intro k hk _
      show (v.unis ++ [ue])[k]? = v.unis[k]?
      rw [List.getElem?_append_left hk]

theorem addDomain_eq {w : World P V} (h : WInv decl w) (hp : w.poisoned = false) {k : Nat} {u : List (MaybeDomain V)} (hk : w.unis[k]? = some u)
    {n : String} {info : DomainInfo} (hl : w.g.domains.lookup n = some info) (hd : domAt u info.id = none) {inst : Instance V} {g : Globals V}
    (hi : w.g.instantiate n = .ok (inst, g)) :
    w.addDomain k n = match w.initDomain ((w.padded u).set info.id (.domain inst)) n with
      | (none, u) => (.ok (), { w with g := lockOn (fun m => decide (m = n)) w.g, unis := w.unis.set k u })
      | (some p, u) => (.error p, { w with g := lockOn (fun m => decide (m = n)) w.g, unis := w.unis.set k u }) := by
  have hU := h.unis u (List.mem_of_getElem? hk)
  have hlt : info.id < (w.padded u).length := by rw [padded_length hU]; exact get_lt (h.g.ids _ _ hl)
  have hns : (w.padded u)[info.id].isSet = false := by
    cases e : (w.padded u)[info.id] with
    | unset m => rfl
    | domain d =>
      have := domAt_iff.2 (padded_domain.1 (by rw [List.getElem?_eq_getElem hlt, e] : (w.padded u)[info.id]? = some (.domain d)))
      rw [hd] at this
      cases this
  have hg := instantiate_g hi
  subst hg
  unfold World.addDomain
  rw [hk]
  simp only []
  rw [synced_eq h hp hk]
  simp only []
  have : ({ w with unis := w.unis.set k (w.padded u) } : World P V).getId n = .ok info.id := getId_eq hp hl
  rw [this]
  simp only []
  rw [List.getElem?_eq_getElem hlt]
  simp only []
  rw [if_neg (by simp [hns]), hi]
  simp only []
  have hc : ({ g := lockOn (fun m => decide (m = n)) w.g, poisoned := w.poisoned, idx := w.idx, unis := w.unis.set k (w.padded u) } : World P V).initDomain
      ((w.padded u).set info.id (.domain inst)) n = w.initDomain ((w.padded u).set info.id (.domain inst)) n := by
    apply initDomain_congr
    intro m
    unfold World.getId
    simp only []
    rw [lockOn_lookup]
    cases w.g.domains.lookup m with
    | none => rfl
    | some i => cases decide (m = n) <;> rfl
  rw [hc]
  rcases w.initDomain ((w.padded u).set info.id (.domain inst)) n with ⟨q, u'⟩
  cases q <;> simp

/-- `add_domain` of a domain the universe does not have ends as it would have for a single thread. -/
theorem AddOk.sim {L : String → Bool} {v w : World P V} (hb : Behind L v w) (hv : WInv decl v) (hw : WInv decl w) {k : Nat} {n : String} {u : List (MaybeDomain V)}
    {todo : List (String ⊕ Reg)} (h : AddOk v k n u todo) {e : Option Panic} {ue : List (MaybeDomain V)} (he : v.buildRun u todo = (e, ue)) :
    (v.finAdd k e ue).1.toOption = ((w.addDomain k n).1.map (fun _ => Given.unit)).toOption ∧ Behind (less L [n]) (v.finAdd k e ue).2 (w.addDomain k n).2 := by
  obtain ⟨info, uk, inst, h1, h2, h3, h4, h5, h6, h7, h8⟩ := h.made
  obtain ⟨uk', a1, a2⟩ := hb.at h3
  have hl := hb.lookup n
  rw [h1] at hl
  cases e1 : w.g.domains.lookup n with
  | none => rw [e1] at hl; cases hl
  | some info' =>
    rw [e1] at hl
    simp only [Option.map_some] at hl
    injection hl with hl
    have hid : info'.id = info.id := by rw [hl]; split <;> rfl
    obtain ⟨inst', c1, -⟩ := instantiate_ok hw.g e1
    have hinst : inst' = inst := by
      have c2 := lockOn_instantiate L w.g n
      rw [← hb.g, h6, c1] at c2
      simp only [Except.map] at c2
      injection c2 with c2
      injection c2 with c2 _
      exact c2.symm
    subst hinst
    have hU := hw.unis uk' (List.mem_of_getElem? a1)
    have hlt : info.id < (w.padded uk').length := by rw [← hid, padded_length hU]; exact get_lt (hw.g.ids _ _ e1)
    rw [addDomain_eq hw hb.wp a1 e1 (by rw [hid, ← a2]; exact h5) c1, hid]
    have hsame : SameEnd (w.initDomain ((w.padded uk').set info.id (.domain inst')) n) (v.buildRun u todo) := by
      have d1 : w.initDomain ((w.padded uk').set info.id (.domain inst')) n = v.initDomain ((w.padded uk').set info.id (.domain inst')) n :=
        initDomain_congr (fun m => (hb.getId m).symm) _ _
      have d2 := initDomain_later hv.g hv.g (Ext.refl _) hb.vp hb.vp h7 (u' := (w.padded uk').set info.id (.domain inst'))
        (by rw [set_domAt h4, set_domAt hlt]; unfold World.padded; rw [append_unset_domAt, a2]) n
      rw [d1]
      rw [buildRun_one] at h8
      exact d2.symm.trans h8
    rw [he] at hsame
    have hls : lockOn (fun m => decide (m ∈ [n])) v.g = v.g := by
      apply locks_same hv.g
      intro m hm
      rw [List.mem_singleton] at hm
      subst hm
      exact ⟨info, h1, h2⟩
    have hless := hb.less hls
    have hn : (fun m => decide (m ∈ [n])) = (fun m => decide (m = n)) := by funext m; simp
    rw [hn] at hless
    rcases e' : w.initDomain ((w.padded uk').set info.id (.domain inst')) n with ⟨q, u'⟩
    rw [e'] at hsame
    obtain ⟨f1, f2⟩ := hsame
    simp only [] at f1 f2
    have hun : (v.unis.set k ue).map domAt = (w.unis.set k u').map domAt := by
      rw [List.map_set, List.map_set, hb.unis, f2]
    cases q with
    | none =>
      have := f1.1 rfl
      subst this
      exact ⟨rfl, hless, hb.vp, hb.wp, hb.idx, hun⟩
    | some q =>
      cases e with
      | none => cases f1.2 rfl
      | some e => exact ⟨rfl, hless, hb.vp, hb.wp, hb.idx, hun⟩

theorem AddOk.moves {v : World P V} (hv : WInv decl v) (hp : v.poisoned = false) {k : Nat} {n : String} {u : List (MaybeDomain V)}
    {todo : List (String ⊕ Reg)} (h : AddOk v k n u todo) {e : Option Panic} {ue : List (MaybeDomain V)} (he : v.buildRun u todo = (e, ue)) :
    Moves decl (some k) v (v.finAdd k e ue).2 := by
  have hu : UOk v.g ue := by
    have := buildRun_inv (w := v) rfl hv.g todo h.uok
    rw [he] at this; exact this
  refine ⟨hv.setUni k hu, hp, hp, Ext.refl _, fun _ h => h, by simp [World.finAdd], ?_⟩
  intro j hj hne
  show (v.unis.set k ue)[j]? = _
  rw [List.getElem?_set_ne (by rintro rfl; exact hne rfl)]

end V11
