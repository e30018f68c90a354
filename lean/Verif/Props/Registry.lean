import Verif.Lemmas.RegistryMore

/-!
# The registry, properties and universes: C39–C45, C62

`World.after decl ops` is the process after an arbitrary history of calls, caught panics included, and
`World.history decl ops` is what the program saw: each call and whether it returned.
-/

set_option linter.unusedSimpArgs false
set_option linter.unusedSectionVars false
set_option linter.unusedVariables false

namespace V11

variable {Ty : Type} [DecidableEq Ty] {V : Ty → Type} {P : Type} [DecidableEq P] {decl : P → PropDecl V}

/-! ## C39 -/

/-- C39: after any history, a domain's id is its position among the successfully registered names, in order
of their first registration. -/
theorem C39_ids (ops : List (ROp decl)) (hp : (World.after decl ops).poisoned = false) (n : String) (k : Nat) :
    (World.after decl ops).getId n = .ok k ↔ (domainsOf (World.history decl ops))[k]? = some n := by
  have L := ledger (decl := decl) (P := P) (V := V) ops
  rw [← L.doms]
  constructor
  · intro h
    obtain ⟨-, info, h1, h2⟩ := getId_ok h
    rw [← h2]
    exact L.inv.g.ids _ _ h1
  · intro h
    have hm : n ∈ (World.after decl ops).g.did2name := List.mem_of_getElem? h
    have hm' := hm
    rw [← L.inv.g.names] at hm
    cases hl : (World.after decl ops).g.domains.lookup n with
    | none => exact absurd hm (lookup_none_iff.1 hl)
    | some info =>
      unfold World.getId
      rw [if_neg (by simp [hp]), hl]
      have := L.inv.g.ids _ _ hl
      have hlt : ∀ {j : Nat} {x : String}, (World.after decl ops).g.did2name[j]? = some x → j < (World.after decl ops).g.did2name.length := by
        intro j x hx
        by_contra hc
        rw [List.getElem?_eq_none (by omega)] at hx; cases hx
      have := (List.getElem?_inj (hlt this) L.inv.g.nodup).1 (this.trans h.symm)
      simp only []
      rw [this]

/-- C39: no two names share an id. -/
theorem C39_distinct (ops : List (ROp decl)) {n m : String} {k : Nat} (h1 : (World.after decl ops).getId n = .ok k)
    (h2 : (World.after decl ops).getId m = .ok k) : n = m := by
  have hp := (getId_ok h1).1
  rw [C39_ids ops hp] at h1 h2
  rw [h1] at h2
  injection h2

/-- C39: an id never changes (unless the registry dies, see C62). -/
theorem C39_permanent (ops more : List (ROp decl)) {n : String} {k : Nat} (h : (World.after decl ops).getId n = .ok k) :
    (World.after decl (ops ++ more)).getId n = .ok k ∨ (World.after decl (ops ++ more)).getId n = .error .poisoned := by
  have L := ledger (decl := decl) (P := P) (V := V) ops
  have hg := (run_inv L.inv more).2.ext
  obtain ⟨-, info, h1, h2⟩ := getId_ok h
  obtain ⟨info', a1, a2, -⟩ := hg.dom _ _ h1
  unfold World.after
  rw [run_append]
  unfold World.getId
  by_cases hp : (((World.empty : World P V).run decl ops).run decl more).poisoned = true
  · right; rw [if_pos hp]
  · left; rw [if_neg hp, a1]; simp only []; rw [a2, h2]

/-- C39: registering a registered domain again returns and changes nothing at all. -/
theorem C39_again (ops : List (ROp decl)) {n : String} {k : Nat} (h : (World.after decl ops).getId n = .ok k) :
    (World.after decl ops).registerDomain n = (.ok (), World.after decl ops) := by
  obtain ⟨hp, info, h1, h2⟩ := getId_ok h
  have hk := (C39_ids ops hp n k).1 h
  have hn := mem_domains (List.mem_of_getElem? hk)
  unfold World.registerDomain
  rw [(checkName_ok _).2 hn]
  simp only []
  rw [if_neg (by simp [hp]), h1]

/-- C39: registration returns exactly for valid names (while the registry lives); a new name gets the next id
and every other name keeps its own. -/
theorem C39_register (ops : List (ROp decl)) (n : String) :
    (((World.after decl ops).registerDomain n).1 = .ok () ↔ IsName n.toList ∧ (World.after decl ops).poisoned = false) ∧
    (((World.after decl ops).registerDomain n).1 = .ok () → n ∉ domainsOf (World.history decl ops) →
      ((World.after decl ops).registerDomain n).2.getId n = .ok (domainsOf (World.history decl ops)).length) := by
  refine ⟨registerDomain_ok_iff _ _, ?_⟩
  intro hok hn
  have hstep : World.after decl (ops ++ [.registerDomain n]) = ((World.after decl ops).registerDomain n).2 := by
    unfold World.after; rw [run_append]; rfl
  have htr : domainsOf (World.history decl (ops ++ [.registerDomain n])) = domainsOf (World.history decl ops) ++ [n] := by
    unfold World.history
    rw [trace_append]
    show domainsOf (_ ++ [((ROp.registerDomain n : ROp decl), ((World.after decl ops).registerDomain n).1.isOk)]) = _
    rw [hok, domainsOf_snoc]
    show (if n ∈ _ then _ else _) = _
    rw [if_neg hn]
  rw [← hstep, C39_ids, htr]
  · simp
  · rw [hstep]
    have hp := ((registerDomain_ok_iff _ _).1 hok).2
    unfold World.registerDomain
    split
    · exact hp
    · rw [if_neg (by simp [hp])]
      split <;> exact hp

/-! ## C40, C41 -/

/-- C40, C41: whatever a property reads as, it is the value last written in this universe through any
property of that name, or else the initial value given by the first registrant of that name. -/
theorem C41_value (ops : List (ROp decl)) (k : Nat) (p : P) (v : V (decl p).ty) (h : ((World.after decl ops).get decl k p).1 = .ok v) :
    (lastWrite (World.history decl ops) k (decl p).name).or (firstInit (World.history decl ops) (decl p).name) = some ⟨_, v⟩ := by
  have L := ledger (decl := decl) (P := P) (V := V) ops
  obtain ⟨u, i, h1, h2, h3, h4⟩ := get_ok L.inv h
  cases e : lastWrite (World.history decl ops) k (decl p).name with
  | none => rw [Option.none_or]; exact L.fresh k _ i u _ e h1 h3 h4
  | some x =>
    obtain ⟨u', j, d, a1, a2, a3, a4⟩ := L.wrote k _ x e
    rw [h1] at a1; injection a1 with a1; subst a1
    obtain ⟨-, rfl⟩ := place_of_name L.front h3 a3 a2.symm
    rw [h4] at a4
    injection a4 with a4
    rw [a4]; rfl

/-- C41: a registered property of a domain the universe has can be read, provided it has the type it was
first registered with; with another type it panics. -/
theorem C41_readable (ops : List (ROp decl)) (k : Nat) (p : P) (hd : (World.after decl ops).hasDomain k (decl p).domain)
    (hn : IsPropName (decl p).domain.toList (decl p).name.toList) {t : Ty} {x : V t}
    (hr : firstInit (World.history decl ops) (decl p).name = some ⟨t, x⟩) (hp : (World.after decl ops).poisoned = false) :
    (t = (decl p).ty → ∃ v, ((World.after decl ops).get decl k p).1 = .ok v) ∧
    (t ≠ (decl p).ty → ((World.after decl ops).get decl k p).1 = .error .badDowncast) := by
  have L := ledger (decl := decl) (P := P) (V := V) ops
  obtain ⟨i, hi, hprod⟩ := registered_place hr hn
  have hres := resolve_of_idx (decl := decl) L.inv hi (Or.inl hp)
  obtain ⟨u, d, hu, hdu, hdn⟩ := hd
  have hU := L.inv.unis u (List.mem_of_getElem? hu)
  obtain ⟨j, hj, e⟩ := List.mem_iff_getElem.1 hdu
  obtain ⟨info, hio⟩ := hU.inst j d (by rw [List.getElem?_eq_getElem hj, e])
  have hji : j = i.domain := by
    obtain ⟨info', b1, b2, -⟩ := hi
    have := hio.look
    rw [hdn, b1] at this
    injection this with this
    rw [← hio.id, ← this, b2]
  subst hji
  rcases cellOf_inv L.inv.g hU hi with hc | ⟨inst, v, c1, c2, c3, c4⟩
  · unfold cellOf at hc
    rw [List.getElem?_eq_getElem hj, e] at hc
    simp only [] at hc
    split at hc <;> cases hc
  · have ht : v.1 = t := by
      rw [hprod] at c4
      simpa using c4.symm
    have hget : ((World.after decl ops).get decl k p).1 = downcast (decl p).ty v := by
      unfold World.get
      rw [hu]
      simp only []
      rcases er : (World.after decl ops).resolve decl p with ⟨r, w1⟩
      have hr' : r = .ok i := by
        have := hres
        rw [show ((World.empty : World P V).run decl ops).resolve decl p = _ from er] at this
        exact this
      subst hr'
      simp only []
      rw [c3]
    constructor
    · intro hte
      rw [hget]
      unfold downcast
      rw [dif_pos (ht.trans hte)]
      exact ⟨_, rfl⟩
    · intro hte
      rw [hget]
      unfold downcast
      rw [dif_neg (fun h => hte (ht.symm.trans h))]

/-- C41: `swap` returns what `get` would have returned, and `set` and `swap` return exactly when `get` does. -/
theorem C41_swap_returns (w : World P V) (k : Nat) (p : P) (v : V (decl p).ty) :
    (w.swap decl k p v).1 = (w.get decl k p).1 ∧ (w.set decl k p v).1 = (w.get decl k p).1.map (fun _ => ()) ∧
      (w.set decl k p v).2 = (w.swap decl k p v).2 := by
  have h : (w.swap decl k p v).1 = (w.get decl k p).1 := by
    unfold World.swap World.get
    cases w.unis[k]? with
    | none => rfl
    | some u =>
      simp only []
      rcases w.resolve decl p with ⟨r, w1⟩
      cases r with
      | error x => rfl
      | ok i =>
        simp only []
        cases cellOf u i with
        | error x => rfl
        | ok c =>
          simp only []
          cases downcast (decl p).ty c <;> rfl
  exact ⟨h, by rw [set_fst, h], set_snd k p v⟩

/-- C40, C41: after `set` returned, every property that could be read before can still be read: in the same
universe the twins (same name) read the new value, everything else reads as before. -/
theorem C40_set (ops : List (ROp decl)) (k : Nat) (p : P) (v : V (decl p).ty) (h : ((World.after decl ops).set decl k p v).1 = .ok ())
    (k' : Nat) (q : P) (old : V (decl q).ty) (hq : ((World.after decl ops).get decl k' q).1 = .ok old) :
    (((World.after decl ops).set decl k p v).2.get decl k' q).1.map (fun x => (⟨_, x⟩ : Σ t, V t)) =
      .ok (if k' = k ∧ (decl q).name = (decl p).name then ⟨_, v⟩ else ⟨_, old⟩) := by
  have L := ledger (decl := decl) (P := P) (V := V) ops
  have hs := swap_step L.inv k p v
  rw [set_fst] at h
  rw [set_snd]
  obtain ⟨a1, a2, a3, a4⟩ := hs
  rcases a4 with ⟨x, b1, -⟩ | ⟨u, i, o, b1, b2, b3, b3', b4, b5, b6⟩
  · rw [show ((World.after decl ops).swap decl k p v).1 = _ from b1] at h; cases h
  · obtain ⟨u', j, c1, c2, c3, c4⟩ := get_ok L.inv hq
    have c3' : IdxOk ((World.after decl ops).swap decl k p v).2.g (decl q) j := by rw [a3]; exact c3
    have hres : ((((World.after decl ops).swap decl k p v).2).resolve decl q).1 = .ok j := by
      refine resolve_of_idx a1 c3' ?_
      by_cases hqi : ((World.after decl ops).idx q).isSome = true
      · right
        obtain ⟨x, hx⟩ := Option.isSome_iff_exists.1 hqi
        rw [a2.idx q x hx]; rfl
      · left
        cases hp : ((World.after decl ops).swap decl k p v).2.poisoned with
        | false => rfl
        | true =>
          have hpw : (World.after decl ops).poisoned = false := by
            cases hpw : (World.after decl ops).poisoned with
            | false => rfl
            | true =>
              unfold World.resolve at c2
              cases hx : (World.after decl ops).idx q with
              | some x => rw [hx] at hqi; simp at hqi
              | none =>
                rw [hx] at c2
                unfold World.syncAlias at c2
                rw [if_pos hpw] at c2
                cases c2
          obtain ⟨x, hx⟩ := swap_poison hpw hp
          rw [show ((World.after decl ops).swap decl k p v).1 = _ from b5] at hx
          cases hx
    have hlt : k < (World.after decl ops).unis.length := by
      by_contra hc
      rw [List.getElem?_eq_none (Nat.le_of_not_lt hc)] at b1; cases b1
    -- the contents of the cell afterwards
    obtain ⟨u2, hu2, hc2⟩ : ∃ u2, ((World.after decl ops).swap decl k p v).2.unis[k']? = some u2 ∧
        cellOf u2 j = .ok (if k' = k ∧ (decl q).name = (decl p).name then ⟨_, v⟩ else ⟨_, old⟩) := by
      rw [show ((World.after decl ops).swap decl k p v).2.unis = _ from b6]
      by_cases hk : k' = k
      · subst hk
        rw [b1] at c1; injection c1 with c1; subst c1
        refine ⟨putCell u i ⟨_, v⟩, ?_, ?_⟩
        · rw [List.getElem?_set, if_pos rfl, if_pos hlt]
        · rw [cellOf_putCell b4]
          by_cases hn : (decl q).name = (decl p).name
          · obtain ⟨-, rfl⟩ := place_of_name L.front c3 b3 hn
            simp [hn]
          · rw [if_neg (fun hpl => hn (IdxOk.place L.inv.g c3 b3 hpl)), if_neg (fun hc => hn hc.2)]
            exact c4
      · refine ⟨u', ?_, ?_⟩
        · rw [List.getElem?_set_ne (Ne.symm hk)]; exact c1
        · rw [if_neg (fun hc => hk hc.1)]; exact c4
    -- its type is the one that was read before
    have hty : ∃ x : V (decl q).ty, (if k' = k ∧ (decl q).name = (decl p).name then (⟨_, v⟩ : Σ t, V t) else ⟨_, old⟩) = ⟨_, x⟩ := by
      split
      · rename_i hc
        obtain ⟨rfl, hn⟩ := hc
        rw [b1] at c1; injection c1 with c1; subst c1
        obtain ⟨-, rfl⟩ := place_of_name L.front c3 b3 hn
        rw [b4] at c4
        injection c4 with c4
        have ht : (decl p).ty = (decl q).ty := congrArg Sigma.fst c4
        refine ⟨ht ▸ v, ?_⟩
        rw [Sigma.mk.injEq]
        exact ⟨ht, by rw [heq_comm]; exact eqRec_heq ht v⟩
      · exact ⟨old, rfl⟩
    obtain ⟨x, hx⟩ := hty
    rw [hx] at hc2 ⊢
    rw [get_of hu2 hres hc2]
    rfl

/-- C41: once read, a property reads the same in every later state until a property of that name is written in
that universe: whatever else is registered, created, read or written, and even if the registry dies. -/
theorem C41_persists (ops more : List (ROp decl)) (k : Nat) (p : P) (v : V (decl p).ty) (h : ((World.after decl ops).get decl k p).1 = .ok v)
    (hm : NoWrite k (decl p).name more) : ((World.after decl (ops ++ .get k p :: more)).get decl k p).1 = .ok v := by
  have L := ledger (decl := decl) (P := P) (V := V) ops
  have hW : World.after decl (ops ++ .get k p :: more) = (((World.after decl ops).get decl k p).2).run decl more := by
    unfold World.after; rw [run_append]; rfl
  rw [hW]
  obtain ⟨u, i, h1, h2, h3, h4⟩ := get_ok L.inv h
  obtain ⟨a1, a2, a3, a4⟩ := get_step L.inv k p
  have hidx : (((World.after decl ops).get decl k p).2).idx p = some i := by
    obtain ⟨-, -, -, -, r5⟩ := resolve_step (decl := decl) L.inv p
    have hg : ((World.after decl ops).get decl k p).2 = ((World.after decl ops).resolve decl p).2 := by
      unfold World.get
      rw [h1]
      simp only []
      rcases er : (World.after decl ops).resolve decl p with ⟨r, w1⟩
      cases r with
      | error x => rfl
      | ok i' =>
        simp only []
        split <;> rfl
    rw [hg]
    exact (r5 i h2).2
  clear hW h
  -- along `more`: the index and the cell stay
  have key : ∀ (more : List (ROp decl)) (w : World P V), WInv decl w → w.idx p = some i → (∃ u, w.unis[k]? = some u ∧ cellOf u i = .ok ⟨_, v⟩) →
      NoWrite k (decl p).name more → (∃ u, (w.run decl more).unis[k]? = some u ∧ cellOf u i = .ok ⟨_, v⟩) ∧ (w.run decl more).idx p = some i := by
    intro more
    induction more with
    | nil => intro w _ hi hu _; exact ⟨hu, hi⟩
    | cons op more ih =>
      intro w hw hi ⟨u, hu, hc⟩ hnw
      obtain ⟨b1, b2⟩ := step_inv hw op
      refine ih _ b1 (b2.idx p i hi) ?_ (fun o ho => hnw o (by simp [ho]))
      have hop := hnw op (by simp)
      have hswap : ∀ k' q (x : V (decl q).ty), ¬ (k' = k ∧ (decl q).name = (decl p).name) → Keeps w (w.swap decl k' q x).2 k i := by
        intro k' q x hne u0 v0 hu0 hc0
        obtain ⟨c1, c2, c3, c4⟩ := swap_step hw k' q x
        rcases c4 with ⟨e, d1, d2⟩ | ⟨u1, j, o, d1, d2, d3, d3', d4, d5, d6⟩
        · exact ⟨u0, by rw [d2]; exact hu0, hc0⟩
        · rw [d6]
          by_cases hk : k' = k
          · subst hk
            rw [d1] at hu0; injection hu0 with hu0; subst hu0
            have hlt : k' < w.unis.length := by
              by_contra hc
              rw [List.getElem?_eq_none (by omega)] at d1; cases d1
            refine ⟨_, by rw [List.getElem?_set, if_pos rfl, if_pos hlt], ?_⟩
            rw [cellOf_putCell d4, if_neg ?_]
            · exact hc0
            · intro hpl
              exact hne ⟨rfl, (IdxOk.place hw.g (hw.idx p i hi) d3 hpl).symm⟩
          · exact ⟨u0, by rw [List.getElem?_set_ne hk]; exact hu0, hc0⟩
      have : Keeps w (w.step decl op).2 k i := by
        cases op with
        | registerDomain n => exact Keeps.ofEq (registerDomain_step hw n).2.2 k i
        | registerProp q => exact Keeps.ofEq (registerProp_step hw q).2.2 k i
        | registerTable t => exact Keeps.ofEq (registerTable_step hw t).2.2 k i
        | newUniverse ns =>
          rcases (newUniverse_step hw ns).2.2 with e | ⟨x, e⟩
          · exact Keeps.ofEq e k i
          · exact keeps_append e k i
        | addDomain k' n => exact (addDomain_step hw k' n).2.2 k i
        | addProperties k' =>
          show Keeps w (w.addProperties k').2 k i
          rw [(addProperties_noop hw k').1]; exact Keeps.refl _ _ _
        | get k' q => exact Keeps.ofEq (get_step hw k' q).2.2.1 k i
        | set k' q x =>
          show Keeps w (w.set decl k' q x).2 k i
          rw [set_snd]
          refine hswap k' q x ?_
          intro hc
          have : written k (decl p).name ((ROp.set k' q x : ROp decl), true) = some ⟨_, x⟩ := if_pos hc
          rw [hop] at this; cases this
        | swap k' q x =>
          refine hswap k' q x ?_
          intro hc
          have : written k (decl p).name ((ROp.swap k' q x : ROp decl), true) = some ⟨_, x⟩ := if_pos hc
          rw [hop] at this; cases this
        | openTable k' m b t => exact (Touch.inv hw (openTable_touch w k' m b t)).2.2.2.2 k i
        | panicWriting k' m t => exact (Touch.inv hw (panicWriting_touch w k' m t)).2.2.2.2 k i
        | registerTracker k' r => exact (Touch.inv hw (registerTracker_touch w k' r)).2.2.2.2 k i
      exact this u _ hu hc
  obtain ⟨⟨u', e1, e2⟩, e3⟩ := key more _ a1 hidx ⟨u, by rw [a3]; exact h1, h4⟩ hm
  refine get_of e1 ?_ e2
  unfold World.resolve
  rw [e3]

end V11
