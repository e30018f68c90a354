import Verif.Lemmas.InitsRun

/-!
# The processes that histories with initialisers lead to
-/

set_option linter.unusedSimpArgs false
set_option linter.unusedSectionVars false
set_option linter.unusedVariables false

namespace V11
variable {Ty : Type} [DecidableEq Ty] {V : Ty → Type} {P : Type} [DecidableEq P] {decl : P → PropDecl V}
variable {inits : (p : P) → Recipe decl (decl p).ty}

/-- The properties that a registry has stay as they are. -/
theorem Roster.grow {g g' : Globals V} {makers rs : List P} (h : Roster decl g makers rs) (h1 : g'.name2gid = g.name2gid)
    (h2 : ∀ n i', g'.domains.lookup n = some i' → (∃ i, g.domains.lookup n = some i ∧ i'.members = i.members ∧ i'.name2did = i.name2did) ∨
      (g.domains.lookup n = none ∧ i'.members = [] ∧ i'.name2did = []))
    (h3 : ∀ n, g'.domains.lookup n = none → g.domains.lookup n = none) : Roster decl g' makers rs := by
  refine ⟨h.known, by rw [h1]; exact h.gids, ?_, fun n hn => h.absent n (h3 n hn), ?_, ?_⟩
  · intro n i' hi'
    rcases h2 n i' hi' with ⟨i, a1, a2, a3⟩ | ⟨a1, a2, a3⟩
    · rw [a2]; exact h.members n i a1
    · rw [a2]
      have : lineup (decl := decl) rs n = [] := by
        unfold lineup
        rw [List.map_eq_nil_iff, List.filter_eq_nil_iff]
        intro p hp
        simp [h.absent n a1 p hp]
      rw [this]; rfl
  · intro n i' m d hi' hd j hj
    rcases h2 n i' hi' with ⟨i, a1, a2, a3⟩ | ⟨a1, a2, a3⟩
    · rw [a2]; rw [a3] at hd; exact h.first n i m d a1 hd j hj
    · rw [a3] at hd; cases hd
  · intro n i' gid m hi' hg hm
    rcases h2 n i' hi' with ⟨i, a1, a2, a3⟩ | ⟨a1, a2, a3⟩
    · rw [a2] at hg; rw [a3]; rw [h1] at hm; exact h.placed n i gid m a1 hg hm
    · rw [a2] at hg; cases hg

theorem registerDomain_roster {w : World P V} {makers rs : List P} (h : Roster decl w.g makers rs) (n : String) :
    Roster decl (w.registerDomain n).2.g makers rs ∧ (w.registerDomain n).2.g.producers = w.g.producers := by
  unfold World.registerDomain
  split
  · exact ⟨h, rfl⟩
  · split
    · exact ⟨h, rfl⟩
    · split
      · exact ⟨h, rfl⟩
      · rename_i hn
        refine ⟨h.grow rfl ?_ ?_, rfl⟩
        · intro m i' hi'
          simp only [lookup_append] at hi'
          cases hm : w.g.domains.lookup m with
          | some i => rw [hm] at hi'; injection hi' with hi'; subst hi'; exact Or.inl ⟨_, rfl, rfl, rfl⟩
          | none =>
            rw [hm, Option.none_or, List.lookup_cons] at hi'
            split at hi'
            · injection hi' with hi'; subst hi'; exact Or.inr ⟨rfl, rfl, rfl⟩
            · cases hi'
        · intro m hm
          simp only [lookup_append] at hm
          cases hx : w.g.domains.lookup m with
          | none => rfl
          | some i => rw [hx] at hm; cases hm

theorem registerTable_roster {w : World P V} {makers rs : List P} (h : Roster decl w.g makers rs) (t : GTable) :
    Roster decl (w.registerTable t).2.g makers rs ∧ (w.registerTable t).2.g.producers = w.g.producers := by
  unfold World.registerTable
  split
  · exact ⟨h, rfl⟩
  · split
    · exact ⟨h, rfl⟩
    · split
      · exact ⟨h, rfl⟩
      · split
        · exact ⟨h, rfl⟩
        · split
          · refine ⟨h.grow rfl ?_ ?_, rfl⟩
            · intro m i' hi'
              simp only [update_lookup] at hi'
              cases hm : w.g.domains.lookup m with
              | none => rw [hm] at hi'; cases hi'
              | some i =>
                rw [hm] at hi'
                simp only [Option.map_some, Option.some.injEq] at hi'
                refine Or.inl ⟨i, rfl, ?_⟩
                rw [← hi']
                by_cases e : m = t.domain <;> simp [e]
            · intro m hm
              simp only [update_lookup, Option.map_eq_none_iff] at hm
              exact hm
          · split
            · exact ⟨h, rfl⟩
            · exact ⟨h, rfl⟩

/-- `add_domain` if no domain is made. -/
theorem eaddDomain_idle {e : EWorld decl} (h : WInv decl e.w) (k : Nat) (n : String)
    (hno : ¬ (e.w.poisoned = false ∧ ∃ u info, e.w.unis[k]? = some u ∧ e.w.g.domains.lookup n = some info ∧ ∀ d, u[info.id]? ≠ some (.domain d))) :
    EWorld.addDomain inits e k n = ((e.w.addDomain k n).1, { e with w := (e.w.addDomain k n).2 }) ∧ (e.w.addDomain k n).2.g = e.w.g := by
  unfold EWorld.addDomain World.addDomain
  cases hk : e.w.unis[k]? with
  | none => exact ⟨rfl, rfl⟩
  | some u =>
    simp only []
    by_cases hp' : e.w.poisoned = true
    · have : e.w.synced u = .error .poisoned := by unfold World.synced; rw [if_pos hp']
      rw [this]; exact ⟨rfl, rfl⟩
    · have hp : e.w.poisoned = false := by simpa using hp'
      rw [synced_eq h hp hk]
      simp only []
      cases hl : e.w.g.domains.lookup n with
      | none =>
        have : ({ e.w with unis := e.w.unis.set k (e.w.padded u) } : World P V).getId n = .error .noSuchDomain := by
          unfold World.getId
          simp only [hp, hl]
          rfl
        rw [this]; exact ⟨rfl, rfl⟩
      | some info =>
        have : ({ e.w with unis := e.w.unis.set k (e.w.padded u) } : World P V).getId n = .ok info.id := getId_eq hp hl
        rw [this]
        simp only []
        by_cases hd : ∀ d, u[info.id]? ≠ some (.domain d)
        · exact absurd ⟨hp, u, info, hk, hl, hd⟩ hno
        · push Not at hd
          obtain ⟨d, hd⟩ := hd
          rw [padded_domain.2 hd]
          simp only [MaybeDomain.isSet, if_true]
          trivial

theorem EInv.plain {e : EWorld decl} {rs : List P} (h : EInv e rs) {w : World P V} (hw : WInv decl w) (hg : w.g = e.w.g) : EInv ({ e with w := w } : EWorld decl) rs :=
  ⟨hw, by show w.g.producers = _; rw [hg]; exact h.makers, by show Roster decl w.g _ _; rw [hg]; exact h.roster⟩

theorem enewUniverse_idle {e : EWorld decl} (hp : e.w.poisoned = true) (ns : List String) :
    EWorld.newUniverse inits e ns = (.error .poisoned, e) ∧ e.w.newUniverse ns = (.error .poisoned, e.w) := by
  unfold EWorld.newUniverse World.newUniverse
  simp [hp]

theorem set_g {w : World P V} (h : WInv decl w) (k : Nat) (p : P) (v : V (decl p).ty) : (w.set decl k p v).2.g = w.g := by
  rw [set_snd]; exact (swap_step h k p v).2.2.1

theorem estep_inv {e : EWorld decl} {rs : List P} (he : EInv e rs) (op : ROp decl) : EInv (e.step inits op).2 (rs ++ EWorld.joins inits e [op]) := by
  have hnil : ∀ op', (∀ p, op' ≠ .registerProp p) → EWorld.joins inits e [op'] = [] := by
    intro op' h
    cases op' with
    | registerProp p => exact absurd rfl (h p)
    | _ => rfl
  have hs := step_inv he.w op
  cases op with
  | registerProp p =>
    have := eregisterProp_inv he p
    have hj : EWorld.joins inits e [.registerProp p] = if (e.registerProp p).1.isOk = true ∧ (e.w.idx p).isNone = true then [p] else [] := by
      show (if _ then _ else _) ++ [] = _
      rw [List.append_nil]; rfl
    rw [hj]; exact this
  | registerDomain n =>
    rw [hnil _ (by simp), List.append_nil]
    obtain ⟨h1, h2⟩ := registerDomain_roster he.roster n
    exact ⟨hs.1, by show (e.w.registerDomain n).2.g.producers = _; rw [h2]; exact he.makers, h1⟩
  | registerTable t =>
    rw [hnil _ (by simp), List.append_nil]
    obtain ⟨h1, h2⟩ := registerTable_roster he.roster t
    exact ⟨hs.1, by show (e.w.registerTable t).2.g.producers = _; rw [h2]; exact he.makers, h1⟩
  | newUniverse ns =>
    rw [hnil _ (by simp), List.append_nil]
    show EInv (EWorld.newUniverse inits e ns).2 rs
    cases hp : e.w.poisoned with
    | true => rw [(enewUniverse_idle hp ns).1]; exact he
    | false => exact (enewUniverse_eq ns he hp).1
  | addDomain k n =>
    rw [hnil _ (by simp), List.append_nil]
    show EInv (EWorld.addDomain inits e k n).2 rs
    by_cases hd : e.w.poisoned = false ∧ ∃ u info, e.w.unis[k]? = some u ∧ e.w.g.domains.lookup n = some info ∧ ∀ d, u[info.id]? ≠ some (.domain d)
    · obtain ⟨hp, u, info, h1, h2, h3⟩ := hd
      exact (eaddDomain_eq he hp h1 h2 h3).1
    · obtain ⟨h1, h2⟩ := eaddDomain_idle (inits := inits) he.w k n hd
      rw [h1]
      exact he.plain hs.1 h2
  | addProperties k =>
    rw [hnil _ (by simp), List.append_nil]
    show EInv (EWorld.addProperties inits e k).2 rs
    rw [eaddProperties_noop he.w k]; exact he
  | get k p => rw [hnil _ (by simp), List.append_nil]; exact he.plain hs.1 (get_step he.w k p).2.2.2
  | set k p v => rw [hnil _ (by simp), List.append_nil]; exact he.plain hs.1 (set_g he.w k p v)
  | swap k p v => rw [hnil _ (by simp), List.append_nil]; exact he.plain hs.1 (swap_step he.w k p v).2.2.1
  | openTable k m b t => rw [hnil _ (by simp), List.append_nil]; exact he.plain hs.1 (Touch.inv he.w (openTable_touch e.w k m b t)).2.2.1
  | panicWriting k m t => rw [hnil _ (by simp), List.append_nil]; exact he.plain hs.1 (Touch.inv he.w (panicWriting_touch e.w k m t)).2.2.1
  | registerTracker k r => rw [hnil _ (by simp), List.append_nil]; exact he.plain hs.1 (Touch.inv he.w (registerTracker_touch e.w k r)).2.2.1

theorem joins_cons (e : EWorld decl) (op : ROp decl) (ops : List (ROp decl)) :
    EWorld.joins inits e (op :: ops) = EWorld.joins inits e [op] ++ EWorld.joins inits (e.step inits op).2 ops := by
  cases op <;> simp [EWorld.joins]

/-- One call of a history. -/
theorem erun_cons {e e' : EWorld decl} {op : ROp decl} {ops : List (ROp decl)} (h : e.run inits (op :: ops) = some e') :
    (e.step inits op).1 ≠ .error .deadlock ∧ (e.step inits op).2.run inits ops = some e' := by
  rw [EWorld.run] at h
  rcases hs : e.step inits op with ⟨r, e1⟩
  rw [hs] at h
  cases r with
  | ok x => exact ⟨by simp, h⟩
  | error q =>
    by_cases hq : q = .deadlock
    · subst hq; cases h
    · refine ⟨by simp [hq], ?_⟩
      cases q <;> first | exact h | exact absurd rfl hq

theorem erun_inv {e e' : EWorld decl} {rs : List P} (he : EInv e rs) {ops : List (ROp decl)} (h : e.run inits ops = some e') :
    EInv e' (rs ++ EWorld.joins inits e ops) := by
  induction ops generalizing e rs with
  | nil => injection h with h; subst h; simpa [EWorld.joins] using he
  | cons op ops ih =>
    obtain ⟨-, h1⟩ := erun_cons h
    rw [joins_cons, ← List.append_assoc]
    exact ih (estep_inv he op) h1

theorem EInv.empty : EInv (EWorld.empty : EWorld decl) [] :=
  ⟨WInv.empty, rfl, ⟨rfl, by intro m gid; simp [EWorld.empty, World.empty], by intro n i h; simp [EWorld.empty, World.empty] at h, by simp,
    by intro n i m d h; simp [EWorld.empty, World.empty] at h, by intro n i gid m h; simp [EWorld.empty, World.empty] at h⟩⟩

theorem reached_inv {e : EWorld decl} {ops : List (ROp decl)} (h : EWorld.empty.run inits ops = some e) : EInv e (EWorld.joins inits EWorld.empty ops) := by
  have := erun_inv EInv.empty h
  simpa using this

/-! ## Which initialiser a property reads -/

/-- A property with a registration under its domain and name has its place. -/
theorem roster_idx {e : EWorld decl} {rs : List P} (he : EInv e rs) {p r : P} (hr : r ∈ rs) (hd : (decl r).domain = (decl p).domain) (hn : (decl r).name = (decl p).name) :
    ∃ i info, IdxOk e.w.g (decl p) i ∧ e.w.g.domains.lookup (decl p).domain = some info ∧ i.domain = info.id ∧
      (lineup (decl := decl) rs (decl p).domain)[i.did]? = some (firstNamed (decl := decl) rs p) ∧
      ∀ j, j < i.did → ∀ q, (lineup (decl := decl) rs (decl p).domain)[j]? = some q → (decl q).name ≠ (decl p).name := by
  obtain ⟨gid, hgid⟩ := he.roster.named.2 ⟨r, hr, hn⟩
  cases hl : e.w.g.domains.lookup (decl p).domain with
  | none => exact absurd hd (he.roster.absent _ hl r hr)
  | some info =>
    obtain ⟨q, hq, hqn⟩ := (he.roster.gids _ _).1 hgid
    have hfirst : firstNamed (decl := decl) rs p = q := by
      have := he.roster.maker hq
      rw [hqn] at this
      unfold firstNamed
      rw [this]; rfl
    have hmem := he.roster.members _ _ hl
    have hget : ∀ j : Nat, (info.members[j]?).map (e.makers[·]?) = ((lineup (decl := decl) rs (decl p).domain)[j]?).map some := by
      intro j
      have := congrArg (fun l => l[j]?) hmem
      simpa using this
    have hnd : ∀ (x y : Nat) a b, e.makers[x]? = some a → e.makers[y]? = some b → (decl a).name = (decl b).name → x = y := by
      intro x y a b hx hy hab
      have h1 := (he.roster.gids (decl b).name x).2 ⟨a, hx, hab⟩
      have h2 := (he.roster.gids (decl b).name y).2 ⟨b, hy, rfl⟩
      rw [h1] at h2; injection h2
    have hin : gid ∈ info.members := by
      have hfr : firstNamed (decl := decl) rs r = q := by
        rw [← hfirst]; unfold firstNamed; rw [hn]
        cases hf : rs.find? (fun x => decide ((decl x).name = (decl p).name)) with
        | some y => rfl
        | none =>
          have := List.find?_eq_none.1 hf r hr
          simp [hn] at this
      have : q ∈ lineup (decl := decl) rs (decl p).domain := by
        unfold lineup
        exact List.mem_map.2 ⟨r, List.mem_filter.2 ⟨hr, by simp [hd]⟩, hfr⟩
      obtain ⟨j, hj, hjq⟩ := List.mem_iff_getElem.1 this
      have h1 := hget j
      rw [List.getElem?_eq_getElem hj, hjq] at h1
      cases hm : info.members[j]? with
      | none => rw [hm] at h1; cases h1
      | some x =>
        rw [hm] at h1
        simp only [Option.map_some, Option.some.injEq] at h1
        have := hnd x gid q q h1 hq rfl
        subst this
        exact List.mem_of_getElem? hm
    obtain ⟨did, hdid⟩ := Option.isSome_iff_exists.1 (he.roster.placed _ _ gid _ hl hin hgid)
    obtain ⟨gid', h1, h2⟩ := (he.w.g.info _ _ hl).did _ _ hdid
    rw [hgid] at h2; injection h2 with h2; subst h2
    refine ⟨⟨info.id, did, gid⟩, info, ⟨info, hl, rfl, hdid, hgid⟩, rfl, rfl, ?_, ?_⟩
    · have h3 := hget did
      rw [h1] at h3
      simp only [Option.map_some, hq] at h3
      cases hx : (lineup (decl := decl) rs (decl p).domain)[did]? with
      | none => rw [hx] at h3; cases h3
      | some y => rw [hx] at h3; simp at h3; rw [hfirst, h3]
    · intro j hj y hy hyn
      have h3 := hget j
      rw [hy] at h3
      cases hm : info.members[j]? with
      | none => rw [hm] at h3; cases h3
      | some x =>
        rw [hm] at h3
        simp only [Option.map_some, Option.some.injEq] at h3
        have := hnd x gid y q h3 hq (by rw [hyn, hqn])
        subst this
        exact he.roster.first _ _ _ _ hl hdid j hj (by rw [hm, h1])

/-- The value in that place, if the domain's properties were made like this. -/
theorem roster_value {e : EWorld decl} {rs : List P} (he : EInv e rs) {p r : P} (hr : r ∈ rs) (hd : (decl r).domain = (decl p).domain) (hn : (decl r).name = (decl p).name)
    {busy : Option Nat} {w : World P V} {vs : List (Σ t, V t)} (hv : gains (evalEach inits busy (lineup (decl := decl) rs (decl p).domain) w).1 = .ok vs) :
    ∃ i info v, IdxOk e.w.g (decl p) i ∧ e.w.g.domains.lookup (decl p).domain = some info ∧ i.domain = info.id ∧ vs[i.did]? = some v ∧
      (evalEach inits busy (lineup (decl := decl) rs (decl p).domain) w).1.find? (fun x => decide ((decl x.1).name = (decl p).name)) =
        some (firstNamed (decl := decl) rs p, .ok v) := by
  obtain ⟨i, info, h1, h2, h3, h4, h5⟩ := roster_idx he hr hd hn
  have hfst := (evalEach_fst (inits := inits) (busy := busy) (lineup (decl := decl) rs (decl p).domain) w).2 vs hv
  have hsnd := gains_ok.1 hv
  generalize hL : (evalEach inits busy (lineup (decl := decl) rs (decl p).domain) w).1 = L at *
  have a1 : (L[i.did]?).map Prod.fst = some (firstNamed (decl := decl) rs p) := by
    have := congrArg (fun l => l[i.did]?) hfst
    simp only [List.getElem?_map] at this
    rw [this]; exact h4
  cases hx : L[i.did]? with
  | none => rw [hx] at a1; cases a1
  | some x =>
    obtain ⟨q, rr⟩ := x
    rw [hx] at a1
    simp only [Option.map_some, Option.some.injEq] at a1
    subst a1
    have a2 := congrArg (fun l => l[i.did]?) hsnd
    simp only [List.getElem?_map, hx, Option.map_some] at a2
    cases hvv : vs[i.did]? with
    | none => rw [hvv] at a2; cases a2
    | some v =>
      rw [hvv] at a2
      simp only [Option.map_some, Option.some.injEq] at a2
      subst a2
      refine ⟨i, info, v, h1, h2, h3, hvv, ?_⟩
      have hlt := get_lt hx
      have hname : (decl (firstNamed (decl := decl) rs p)).name = (decl p).name := by
        unfold firstNamed
        cases hf : rs.find? (fun q => decide ((decl q).name = (decl p).name)) with
        | none => rfl
        | some y => have := List.find?_some hf; simpa using this
      rw [List.find?_eq_some_iff_getElem]
      refine ⟨by simp [hname], i.did, hlt, ?_, ?_⟩
      · rw [List.getElem?_eq_getElem hlt] at hx; injection hx
      · intro j hj
        have hjl : j < L.length := by omega
        have := h5 j hj (L[j].1) (by
          rw [← hfst, List.getElem?_map, List.getElem?_eq_getElem hjl]; rfl)
        simpa using this

end V11
