import Verif.Lemmas.InitsMake

/-!
# Universes whose properties are initialised by programs
-/

set_option linter.unusedSimpArgs false
set_option linter.unusedSectionVars false
set_option linter.unusedVariables false

namespace V11
variable {Ty : Type} [DecidableEq Ty] {V : Ty → Type} {P : Type} [DecidableEq P] {decl : P → PropDecl V}

/-! ## Values of properties do not matter to tables and trackers -/

theorem findTable_bare (u : List (MaybeDomain V)) (did : Nat) (t : String) : findTable (bareU u) did t = findTable u did t := by
  unfold findTable
  rw [List.getElem?_map]
  cases u[did]? with
  | none => rfl
  | some m => cases m <;> rfl

theorem modTable_bare (u : List (MaybeDomain V)) (did : Nat) (t : String) (f : TableInst → TableInst) :
    modTable (bareU u) did t f = bareU (modTable u did t f) := by
  unfold modTable
  apply List.ext_getElem?
  intro j
  rw [List.getElem?_modify, List.getElem?_map, List.getElem?_map, List.getElem?_modify]
  cases u[j]? with
  | none => rfl
  | some m =>
    by_cases h : did = j
    · cases m <;> simp [h, MaybeDomain.bare, Instance.bare, Instance.modTable]
    · simp [h]

theorem register_bare {w w' : World P V} (hw : ∀ n, w'.getId n = w.getId n) (u : List (MaybeDomain V)) (r : Reg) :
    w'.register (bareU u) r = ((w.register u r).1, bareU (w.register u r).2) := by
  unfold World.register
  rw [hw]
  cases w.getId r.domain with
  | error p => rfl
  | ok did =>
    simp only []
    rw [findTable_bare]
    cases findTable u did r.table with
    | error p => rfl
    | ok t =>
      simp only [modTable_bare]
      by_cases h1 : t.poisoned = true
      · simp [h1]
      · by_cases h2 : t.gt.ty = r.ty
        · cases h3 : r.consistent <;> simp [h1, h2, h3]
        · simp [h1, h2]

theorem registerAll_bare {w w' : World P V} (hw : ∀ n, w'.getId n = w.getId n) (rs : List Reg) (u : List (MaybeDomain V)) :
    w'.registerAll (bareU u) rs = ((w.registerAll u rs).1, bareU (w.registerAll u rs).2) := by
  induction rs generalizing u with
  | nil => rfl
  | cons r rs ih =>
    rw [World.registerAll, World.registerAll, register_bare hw]
    rcases h : w.register u r with ⟨q, u1⟩
    cases q with
    | none => exact ih u1
    | some q => rfl

theorem initDomain_bare {w w' : World P V} (hw : ∀ n, w'.getId n = w.getId n) (u : List (MaybeDomain V)) (n : String) :
    w'.initDomain (bareU u) n = ((w.initDomain u n).1, bareU (w.initDomain u n).2) := by
  unfold World.initDomain
  rw [hw]
  cases w.getId n with
  | error p => rfl
  | ok did =>
    simp only []
    rw [List.getElem?_map]
    cases u[did]? with
    | none => rfl
    | some m =>
      cases m with
      | unset s => rfl
      | domain d => exact registerAll_bare hw _ _

theorem initDomains_bare {w w' : World P V} (hw : ∀ n, w'.getId n = w.getId n) (ns : List String) (u : List (MaybeDomain V)) :
    w'.initDomains (bareU u) ns = ((w.initDomains u ns).1, bareU (w.initDomains u ns).2) := by
  induction ns generalizing u with
  | nil => rfl
  | cons n ns ih =>
    rw [World.initDomains, World.initDomains, initDomain_bare hw]
    rcases h : w.initDomain u n with ⟨q, u1⟩
    cases q with
    | none => exact ih u1
    | some q => rfl

theorem initDomain_alike {w w' : World P V} (hw : ∀ n, w'.getId n = w.getId n) {u u' : List (MaybeDomain V)} (hu : bareU u' = bareU u) (n : String) :
    (w'.initDomain u' n).1 = (w.initDomain u n).1 ∧ bareU (w'.initDomain u' n).2 = bareU (w.initDomain u n).2 := by
  have h1 := initDomain_bare (w := w') (w' := w') (fun _ => rfl) u' n
  have h2 := initDomain_bare hw u n
  rw [hu] at h1
  rw [h1] at h2
  injection h2 with a b
  exact ⟨a, b⟩

theorem initDomains_alike {w w' : World P V} (hw : ∀ n, w'.getId n = w.getId n) {u u' : List (MaybeDomain V)} (hu : bareU u' = bareU u) (ns : List String) :
    (w'.initDomains u' ns).1 = (w.initDomains u ns).1 ∧ bareU (w'.initDomains u' ns).2 = bareU (w.initDomains u ns).2 := by
  have h1 := initDomains_bare (w := w') (w' := w') (fun _ => rfl) ns u'
  have h2 := initDomains_bare hw ns u
  rw [hu] at h1
  rw [h1] at h2
  injection h2 with a b
  exact ⟨a, b⟩

variable {inits : (p : P) → Recipe decl (decl p).ty}

theorem getId_withG {w w' : World P V} (hb : w'.bare = w.bare) (g : Globals V) (n : String) : (w'.withG g).getId n = (w.withG g).getId n := by
  have : w'.poisoned = w.poisoned := by
    have := congrArg World.poisoned hb
    exact this
  unfold World.getId World.withG
  simp only [this]

theorem withG_bare {w w' : World P V} (hb : w'.bare = w.bare) (g : Globals V) : (w'.withG g).bare = (w.withG g).bare := by
  have := congrArg (fun x : World P V => x.withG g) hb
  exact this

theorem unis_bare {w w' : World P V} (hb : w'.bare = w.bare) : w'.unis.map bareU = w.unis.map bareU := by
  have := congrArg World.unis hb
  exact this

theorem bare_ext {w w' : World P V} (h1 : w'.g = w.g) (h2 : w'.poisoned = w.poisoned) (h3 : w'.idx = w.idx) (h4 : w'.unis.map bareU = w.unis.map bareU) :
    w'.bare = w.bare := by
  unfold World.bare
  rw [h1, h2, h3]
  exact congrArg (fun x => World.mk w.g w.poisoned w.idx x) h4

/-- The process after a panic under the lock. -/
theorem EInv.died {e : EWorld decl} {rs : List P} (h : EInv e rs) {α : Type} (q : Panic) : EInv (e.die q : R α × EWorld decl).2 rs := by
  unfold EWorld.die
  by_cases hq : q = .deadlock
  · simp only [hq, if_true]; exact h
  · simp only [hq, if_false]; exact ⟨⟨h.w.g, h.w.idx, h.w.unis⟩, h.makers, h.roster⟩

theorem die_facts {α : Type} (e : EWorld decl) (q : Panic) : (e.die q : R α × EWorld decl).1 = .error q ∧ (e.die q : R α × EWorld decl).2.made = e.made ∧
    (e.die q : R α × EWorld decl).2.makers = e.makers ∧ (e.die q : R α × EWorld decl).2.w.idx = e.w.idx ∧ (e.die q : R α × EWorld decl).2.w.g = e.w.g ∧
    (e.die q : R α × EWorld decl).2.w.unis = e.w.unis ∧ (e.w.poisoned = false → (e.die q : R α × EWorld decl).2.w.poisoned = !decide (q = .deadlock)) := by
  unfold EWorld.die
  by_cases hq : q = .deadlock
  · simp [hq]
  · simp [hq]

theorem takeWhile_all {α : Type} (f : α → Bool) (l : List α) : l.takeWhile f = l ↔ ∀ a ∈ l, f a = true := by
  induction l with
  | nil => simp
  | cons a l ih =>
    rw [List.takeWhile_cons]
    cases h : f a with
    | true => simp [h, ih]
    | false => simp [h]

/-- The log of `Universe::new`. -/
def EWorld.newLog (inits : (p : P) → Recipe decl (decl p).ty) (e : EWorld decl) (rs : List P) (names : List String) : List (P × R (Σ t, V t)) × World P V :=
  evalEach inits none ((names.takeWhile (fun n => (e.w.g.domains.lookup n).isSome)).flatMap (lineup (decl := decl) rs)) e.w

/-- What `Universe::new` comes to. -/
theorem enewUniverse_eq (names : List String) {e : EWorld decl} {rs : List P} (he : EInv e rs) (hp : e.w.poisoned = false) :
    let x := EWorld.newLog inits e rs names
    EInv (EWorld.newUniverse inits e names).2 rs ∧ (EWorld.newUniverse inits e names).2.made = e.made ++ x.1 ∧
      (EWorld.newUniverse inits e names).2.makers = e.makers ∧ (EWorld.newUniverse inits e names).2.w.idx = e.w.idx ∧
      Ext e.w.g (EWorld.newUniverse inits e names).2.w.g ∧
      (∀ q, gains x.1 = .error q → (EWorld.newUniverse inits e names).1 = .error q ∧ (EWorld.newUniverse inits e names).2.w.unis = x.2.unis ∧
        (EWorld.newUniverse inits e names).2.w.poisoned = !decide (q = .deadlock)) ∧
      (∀ vs, gains x.1 = .ok vs → (∃ n ∈ names, e.w.g.domains.lookup n = none) →
        (EWorld.newUniverse inits e names).1 = .error .noSuchDomain ∧ (EWorld.newUniverse inits e names).2.w.unis = x.2.unis ∧
        (EWorld.newUniverse inits e names).2.w.poisoned = true) ∧
      (∀ vs, gains x.1 = .ok vs → (∀ n ∈ names, ∃ i, e.w.g.domains.lookup n = some i) →
        (EWorld.newUniverse inits e names).1 = (e.w.newUniverse names).1 ∧ (EWorld.newUniverse inits e names).2.w.bare = (e.w.newUniverse names).2.bare ∧
        (∀ q, (EWorld.newUniverse inits e names).1 = .error q → (EWorld.newUniverse inits e names).2.w.unis = x.2.unis) ∧
        (∀ k, (EWorld.newUniverse inits e names).1 = .ok k → k = e.w.unis.length ∧ ∃ u, (EWorld.newUniverse inits e names).2.w.unis = x.2.unis ++ [u] ∧
          (∀ c n d, names = c ++ n :: d → n ∉ d → ∀ info, e.w.g.domains.lookup n = some info → ∃ i : Instance V, u[info.id]? = some (.domain i) ∧
            gains (evalEach inits none (lineup (decl := decl) rs n) (evalEach inits none (c.flatMap (lineup (decl := decl) rs)) e.w).2).1 = .ok i.props))) := by
  intro x
  obtain ⟨b, r, hb, h1, h2, h3, h4, h5, h6⟩ := getDomains_eq (inits := inits) names he (ret := e.w.g.did2name.map .unset) (ret0 := e.w.g.did2name.map .unset)
    unset_ok (by simp) rfl
  change EWorld.getDomains inits e (e.w.g.did2name.map .unset) names = (r, { e with w := x.2.withG (e.w.g.lockAll b), made := e.made ++ x.1 }) at h1
  change EInv ({ e with w := x.2.withG (e.w.g.lockAll b), made := e.made ++ x.1 } : EWorld decl) rs at h2
  change ∀ q, gains x.1 = .error q → r = .error q at h4
  have hbs : Beside decl none e.w x.2 := evalEach_beside _ _
  have hnew1 : ∀ p, r = .error p → EWorld.newUniverse inits e names = EWorld.die { e with w := x.2.withG (e.w.g.lockAll b), made := e.made ++ x.1 } p := by
    intro p hr
    unfold EWorld.newUniverse
    rw [if_neg (by simp [hp]), h1, hr]
  have hnew2 : ∀ u q u', r = .ok u → (x.2.withG (e.w.g.lockAll b)).initDomains u names = (some q, u') →
      EWorld.newUniverse inits e names = (.error q, { e with w := x.2.withG (e.w.g.lockAll b), made := e.made ++ x.1 }) := by
    intro u q u' hr hi
    unfold EWorld.newUniverse
    rw [if_neg (by simp [hp]), h1, hr]
    simp only []
    rw [hi]
  have hnew3 : ∀ u u', r = .ok u → (x.2.withG (e.w.g.lockAll b)).initDomains u names = (none, u') →
      EWorld.newUniverse inits e names =
        (.ok x.2.unis.length, { e with w := { x.2.withG (e.w.g.lockAll b) with unis := x.2.unis ++ [u'] }, made := e.made ++ x.1 }) := by
    intro u u' hr hi
    unfold EWorld.newUniverse
    rw [if_neg (by simp [hp]), h1, hr]
    simp only []
    rw [hi]
    rfl
  have hreg : names.takeWhile (fun n => (e.w.g.domains.lookup n).isSome) = names ↔ ∀ n ∈ names, ∃ i, e.w.g.domains.lookup n = some i := by
    rw [takeWhile_all]
    constructor
    · intro h n hn; exact Option.isSome_iff_exists.1 (h n hn)
    · intro h n hn; exact Option.isSome_iff_exists.2 (h n hn)
  have hdie : ∀ p, r = .error p → EInv (EWorld.newUniverse inits e names).2 rs ∧ (EWorld.newUniverse inits e names).2.made = e.made ++ x.1 ∧
      (EWorld.newUniverse inits e names).2.makers = e.makers ∧ (EWorld.newUniverse inits e names).2.w.idx = e.w.idx ∧
      Ext e.w.g (EWorld.newUniverse inits e names).2.w.g ∧
      (EWorld.newUniverse inits e names).1 = .error p ∧ (EWorld.newUniverse inits e names).2.w.unis = x.2.unis ∧
        (EWorld.newUniverse inits e names).2.w.poisoned = !decide (p = .deadlock) := by
    intro p hr
    have hpo : (x.2.withG (e.w.g.lockAll b)).poisoned = false := by
      have : x.2.poisoned = false := by rw [hbs.poisoned]; exact hp
      exact this
    obtain ⟨f1, f2, f3, f4, f5, f6, f7⟩ := die_facts (α := Nat) ({ e with w := x.2.withG (e.w.g.lockAll b), made := e.made ++ x.1 } : EWorld decl) p
    rw [hnew1 p hr]
    exact ⟨h2.died (α := Nat) p, f2, f3, f4.trans hbs.idx, by rw [f5]; exact h3, f1, f6, f7 hpo⟩
  cases hg : gains x.1 with
  | error q =>
    obtain ⟨d1, d2, d3, d3', d4, d5, d6, d7⟩ := hdie q (h4 q hg)
    refine ⟨d1, d2, d3, d3', d4, ?_, ?_, ?_⟩
    · intro q' hq'; injection hq' with hq'; subst hq'; exact ⟨d5, d6, d7⟩
    · intro vs hv; cases hv
    · intro vs hv; cases hv
  | ok vs0 =>
    by_cases ha : names.takeWhile (fun n => (e.w.g.domains.lookup n).isSome) = names
    · obtain ⟨u, u0, j1, j2, j3, j4, j5, j6, j7, j8⟩ := h6 vs0 hg ha
      rw [j1] at h2 h3
      have hall := hreg.1 ha
      have hWn : e.w.newUniverse names = match (e.w.withG (e.w.g.lockAll names)).initDomains u0 names with
          | (none, u) => (.ok e.w.unis.length, { e.w.withG (e.w.g.lockAll names) with unis := e.w.unis ++ [u] })
          | (some p, _) => (.error p, e.w.withG (e.w.g.lockAll names)) := by
        unfold World.newUniverse
        rw [if_neg (by simp [hp]), j3]
        rfl
      obtain ⟨c1, c2⟩ := initDomains_alike (w := e.w.withG (e.w.g.lockAll names)) (w' := x.2.withG (e.w.g.lockAll names)) (getId_withG hbs.bare _) j4 names
      have hsame := initDomains_same (w := x.2.withG (e.w.g.lockAll names)) names u
      obtain ⟨hu', -, -⟩ := initDomains_inv (w := x.2.withG (e.w.g.lockAll names)) h2.w.g names j5
      rcases hi : (x.2.withG (e.w.g.lockAll names)).initDomains u names with ⟨q, u'⟩
      rcases hi0 : (e.w.withG (e.w.g.lockAll names)).initDomains u0 names with ⟨q0, u0'⟩
      rw [hi] at c1 c2 hsame hu'
      rw [hi0] at c1 c2 hWn
      simp only [] at c1 c2 hsame hu'
      subst c1
      have hnn : ¬ ∃ n ∈ names, e.w.g.domains.lookup n = none := by
        rintro ⟨n, hn, hnone⟩
        obtain ⟨i, hi⟩ := hall n hn
        rw [hnone] at hi; cases hi
      cases q with
      | some q =>
        simp only [] at hWn
        have hnew := hnew2 u q u' j2 (by rw [j1]; exact hi)
        rw [j1] at hnew
        rw [hnew, hWn]
        refine ⟨h2, rfl, rfl, hbs.idx, h3, ?_, ?_, ?_⟩
        · intro q' hq'; cases hq'
        · intro _ _ hne; exact absurd hne hnn
        · intro _ _ _
          exact ⟨rfl, withG_bare hbs.bare _, fun _ _ => rfl, fun k hk => by cases hk⟩
      | none =>
        simp only [] at hWn
        have hnew := hnew3 u u' j2 (by rw [j1]; exact hi)
        rw [j1] at hnew
        rw [hnew, hWn]
        refine ⟨⟨⟨h2.w.g, h2.w.idx, ?_⟩, h2.makers, h2.roster⟩, rfl, rfl, hbs.idx, h3, ?_, ?_, ?_⟩
        · intro y hy
          simp only [List.mem_append, List.mem_singleton] at hy
          rcases hy with hy | rfl
          · exact h2.w.unis y hy
          · exact hu'
        · intro q' hq'; cases hq'
        · intro _ _ hne; exact absurd hne hnn
        · intro _ _ _
          refine ⟨by simp only [hbs.len], ?_, (fun q hq => by cases hq), ?_⟩
          · refine bare_ext rfl hbs.poisoned hbs.idx ?_
            show (x.2.unis ++ [u']).map bareU = (e.w.unis ++ [u0']).map bareU
            rw [List.map_append, List.map_append, hbs.unis]
            simp only [List.map_cons, List.map_nil]
            rw [c2]
          · intro k hk
            injection hk with hk
            refine ⟨by rw [← hk, hbs.len], u', rfl, ?_⟩
            intro c n d hc hnd info hl
            obtain ⟨i, i1, i2⟩ := j8 c n d hc hnd info hl
            obtain ⟨i', k1, k2⟩ := hsame _ _ i1
            exact ⟨i', k1, by rw [k2]; exact i2⟩
    · obtain ⟨d1, d2, d3, d3', d4, d5, d6, d7⟩ := hdie .noSuchDomain (h5 vs0 hg ha)
      have hne := mt hreg.2 ha
      refine ⟨d1, d2, d3, d3', d4, ?_, ?_, ?_⟩
      · intro q' hq'; cases hq'
      · intro _ _ _; exact ⟨d5, d6, by rw [d7]; rfl⟩
      · intro _ _ h; exact absurd h hne

/-- What `add_domain` comes to if it has to make the domain. -/
theorem eaddDomain_eq {e : EWorld decl} {rs : List P} (he : EInv e rs) (hp : e.w.poisoned = false) {k : Nat} {u : List (MaybeDomain V)} (hk : e.w.unis[k]? = some u)
    {n : String} {info : DomainInfo} (hl : e.w.g.domains.lookup n = some info) (hd : ∀ d, u[info.id]? ≠ some (.domain d)) :
    let x := evalEach inits (some k) (lineup (decl := decl) rs n) { e.w with unis := e.w.unis.set k (e.w.padded u) }
    EInv (EWorld.addDomain inits e k n).2 rs ∧ (EWorld.addDomain inits e k n).2.made = e.made ++ x.1 ∧ (EWorld.addDomain inits e k n).2.makers = e.makers ∧
      (EWorld.addDomain inits e k n).2.w.idx = e.w.idx ∧ Ext e.w.g (EWorld.addDomain inits e k n).2.w.g ∧
      (∀ q, gains x.1 = .error q → (EWorld.addDomain inits e k n).1 = .error q ∧ (EWorld.addDomain inits e k n).2.w.unis = x.2.unis ∧
        (EWorld.addDomain inits e k n).2.w.poisoned = !decide (q = .deadlock)) ∧
      (∀ vs, gains x.1 = .ok vs → (EWorld.addDomain inits e k n).1 = (e.w.addDomain k n).1 ∧
        (EWorld.addDomain inits e k n).2.w.bare = (e.w.addDomain k n).2.bare ∧
        ∃ u' i, (EWorld.addDomain inits e k n).2.w.unis = x.2.unis.set k u' ∧ u'[info.id]? = some (.domain i) ∧ i.props = vs ∧
          ∀ (j : Nat) d, u[j]? = some (.domain d) → ∃ d', u'[j]? = some (.domain d') ∧ d'.props = d.props) := by
  intro x
  have hU := he.w.unis u (List.mem_of_getElem? hk)
  have hlt : info.id < (e.w.padded u).length := by rw [padded_length hU]; exact get_lt (he.w.g.ids _ _ hl)
  have hns : (e.w.padded u)[info.id].isSet = false := by
    cases hx : (e.w.padded u)[info.id] with
    | unset m => rfl
    | domain d => exact absurd (padded_domain.1 (by rw [List.getElem?_eq_getElem hlt, hx])) (hd d)
  have hpU : UOk e.w.g (e.w.padded u) := hU.append_unset
  have he0 : EInv ({ e with w := { e.w with unis := e.w.unis.set k (e.w.padded u) } } : EWorld decl) rs :=
    ⟨he.w.setUni k hpU, he.makers, he.roster⟩
  have hin := instantiate_eq (inits := inits) (busy := some k) he0 hl
  change EWorld.instantiate inits (some k) _ n = ((gains x.1).map (info.made n), { e with w := x.2.withG (e.w.g.lock n), made := e.made ++ x.1 }) at hin
  have hbs : Beside decl (some k) ({ e.w with unis := e.w.unis.set k (e.w.padded u) } : World P V) x.2 := evalEach_beside _ _
  obtain ⟨he1, hx1⟩ := he0.lock hl
  have hE : EInv ({ e with w := x.2.withG (e.w.g.lock n), made := e.made ++ x.1 } : EWorld decl) rs := by
    have hbs := evalEach_beside (inits := inits) (busy := some k) (lineup (decl := decl) rs n)
      (({ e.w with unis := e.w.unis.set k (e.w.padded u) } : World P V).withG (e.w.g.lock n))
    rw [evalEach_withG] at hbs
    exact he1.beside hbs _
  have hadd : EWorld.addDomain inits e k n = match (gains x.1).map (info.made n) with
      | .error q => EWorld.die { e with w := x.2.withG (e.w.g.lock n), made := e.made ++ x.1 } q
      | .ok inst =>
        match (x.2.withG (e.w.g.lock n)).initDomain ((e.w.padded u).set info.id (.domain inst)) n with
        | (none, u) => (.ok (), { e with w := { x.2.withG (e.w.g.lock n) with unis := x.2.unis.set k u }, made := e.made ++ x.1 })
        | (some p, u) => (.error p, { e with w := { x.2.withG (e.w.g.lock n) with unis := x.2.unis.set k u }, made := e.made ++ x.1 }) := by
    unfold EWorld.addDomain
    rw [hk]
    simp only []
    rw [synced_eq he.w hp hk]
    simp only []
    have : ({ e.w with unis := e.w.unis.set k (e.w.padded u) } : World P V).getId n = .ok info.id := getId_eq hp hl
    rw [this]
    simp only []
    rw [List.getElem?_eq_getElem hlt]
    simp only []
    rw [if_neg (by simp [hns]), hin]
    cases (gains x.1).map (info.made n) with
    | error q => rfl
    | ok inst =>
      simp only []
      rcases (x.2.withG (e.w.g.lock n)).initDomain ((e.w.padded u).set info.id (.domain inst)) n with ⟨q, u'⟩
      cases q <;> rfl
  cases hg : gains x.1 with
  | error q =>
    rw [hg] at hadd
    simp only [Except.map] at hadd
    have hpo : (x.2.withG (e.w.g.lock n)).poisoned = false := by
      have : x.2.poisoned = false := by rw [hbs.poisoned]; exact hp
      exact this
    obtain ⟨r5, r1, r2, r3, r4, r6, r7⟩ := die_facts (α := Unit) ({ e with w := x.2.withG (e.w.g.lock n), made := e.made ++ x.1 } : EWorld decl) q
    rw [hadd]
    refine ⟨hE.died (α := Unit) q, r1, r2, r3.trans hbs.idx, by rw [r4]; exact hx1, ?_, ?_⟩
    · intro q' hq'; injection hq' with hq'; subst hq'; exact ⟨r5, r6, r7 hpo⟩
    · intro vs hv; cases hv
  | ok vs =>
    rw [hg] at hadd
    simp only [Except.map] at hadd
    obtain ⟨m1, inst0, m2, m3⟩ := made_ok he0 hl hg
    have hset : UOk (e.w.g.lock n) ((e.w.padded u).set info.id (.domain (info.made n vs))) := (hpU.ext he.w.g hx1).set _ m1
    have hW : e.w.addDomain k n = match ((({ e.w with unis := e.w.unis.set k (e.w.padded u) } : World P V)).withG (e.w.g.lock n)).initDomain ((e.w.padded u).set info.id (.domain inst0)) n with
        | (none, u') => (.ok (), { (({ e.w with unis := e.w.unis.set k (e.w.padded u) } : World P V)).withG (e.w.g.lock n) with unis := (e.w.unis.set k (e.w.padded u)).set k u' })
        | (some p, u') => (.error p, { (({ e.w with unis := e.w.unis.set k (e.w.padded u) } : World P V)).withG (e.w.g.lock n) with unis := (e.w.unis.set k (e.w.padded u)).set k u' }) := by
      unfold World.addDomain
      rw [hk]
      simp only []
      rw [synced_eq he.w hp hk]
      simp only []
      have : ({ e.w with unis := e.w.unis.set k (e.w.padded u) } : World P V).getId n = .ok info.id := getId_eq hp hl
      rw [this]
      simp only []
      rw [List.getElem?_eq_getElem hlt]
      simp only []
      rw [if_neg (by simp [hns]), m2]
      rfl
    obtain ⟨c1, c2⟩ := initDomain_alike (w := (({ e.w with unis := e.w.unis.set k (e.w.padded u) } : World P V)).withG (e.w.g.lock n)) (w' := x.2.withG (e.w.g.lock n))
      (getId_withG hbs.bare _) (set_bareU (u := e.w.padded u) (u' := e.w.padded u) rfl m3 (k := info.id)) n
    have hsame := initDomain_same (w := x.2.withG (e.w.g.lock n)) ((e.w.padded u).set info.id (.domain (info.made n vs))) n
    obtain ⟨hu', -, -⟩ := initDomain_inv (w := x.2.withG (e.w.g.lock n)) hE.w.g hset n
    have hbareset : ∀ a b, bareU a = bareU b → (x.2.unis.set k a).map bareU = ((e.w.unis.set k (e.w.padded u)).set k b).map bareU := by
      intro a b hab
      rw [List.map_set, List.map_set, hab]
      have := hbs.unis
      rw [this]
    have hfin : ∀ u', SameProps ((e.w.padded u).set info.id (.domain (info.made n vs))) u' → ∃ i, u'[info.id]? = some (.domain i) ∧ i.props = vs ∧
        ∀ (j : Nat) d, u[j]? = some (.domain d) → ∃ d', u'[j]? = some (.domain d') ∧ d'.props = d.props := by
      intro u' hs
      obtain ⟨i, i1, i2⟩ := hs info.id (info.made n vs) (by rw [List.getElem?_set, if_pos rfl, if_pos hlt])
      refine ⟨i, i1, i2, ?_⟩
      intro j d hj
      refine hs j d ?_
      have hne : info.id ≠ j := by rintro rfl; exact hd d hj
      rw [List.getElem?_set_ne hne]
      exact padded_domain.2 hj
    rcases hi : (x.2.withG (e.w.g.lock n)).initDomain ((e.w.padded u).set info.id (.domain (info.made n vs))) n with ⟨q, u'⟩
    rcases hi0 : ((({ e.w with unis := e.w.unis.set k (e.w.padded u) } : World P V)).withG (e.w.g.lock n)).initDomain ((e.w.padded u).set info.id (.domain inst0)) n with ⟨q0, u0'⟩
    rw [hi] at c1 c2 hsame hu' hadd
    rw [hi0] at c1 c2 hW
    simp only [] at c1 c2 hsame hu'
    subst c1
    obtain ⟨i, i1, i2, i3⟩ := hfin u' hsame
    have hEI : EInv ({ e with w := { x.2.withG (e.w.g.lock n) with unis := x.2.unis.set k u' }, made := e.made ++ x.1 } : EWorld decl) rs :=
      ⟨hE.w.setUni k hu', hE.makers, hE.roster⟩
    cases q with
    | some q =>
      simp only [] at hadd hW
      rw [hadd, hW]
      refine ⟨hEI, rfl, rfl, hbs.idx, hx1, (fun q' hq' => by cases hq'), ?_⟩
      intro vs' hvs
      injection hvs with hvs; subst hvs
      exact ⟨rfl, bare_ext rfl hbs.poisoned hbs.idx (hbareset _ _ c2), u', i, rfl, i1, i2, i3⟩
    | none =>
      simp only [] at hadd hW
      rw [hadd, hW]
      refine ⟨hEI, rfl, rfl, hbs.idx, hx1, (fun q' hq' => by cases hq'), ?_⟩
      intro vs' hvs
      injection hvs with hvs; subst hvs
      exact ⟨rfl, bare_ext rfl hbs.poisoned hbs.idx (hbareset _ _ c2), u', i, rfl, i1, i2, i3⟩

end V11
