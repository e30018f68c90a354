import Verif.Lemmas.Inits
import Verif.Lemmas.RegistryLedger

/-!
# Making domains with initialisers that do something
-/

set_option linter.unusedSimpArgs false
set_option linter.unusedSectionVars false
set_option linter.unusedVariables false

namespace V11
variable {Ty : Type} [DecidableEq Ty] {V : Ty → Type} {P : Type} [DecidableEq P] {decl : P → PropDecl V}

/-- The registry after these properties were registered, in this order. -/
structure Roster (decl : P → PropDecl V) (g : Globals V) (makers rs : List P) : Prop where
  known : makers = firsts (fun p => (decl p).name) rs
  gids : ∀ m gid, g.name2gid.lookup m = some gid ↔ ∃ q, makers[gid]? = some q ∧ (decl q).name = m
  members : ∀ n info, g.domains.lookup n = some info → info.members.map (makers[·]?) = (lineup (decl := decl) rs n).map some
  absent : ∀ n, g.domains.lookup n = none → ∀ p ∈ rs, (decl p).domain ≠ n
  first : ∀ n info m d, g.domains.lookup n = some info → info.name2did.lookup m = some d → ∀ j, j < d → info.members[j]? ≠ info.members[d]?
  placed : ∀ n info gid m, g.domains.lookup n = some info → gid ∈ info.members → g.name2gid.lookup m = some gid → (info.name2did.lookup m).isSome = true

/-- What is true of every reachable process. -/
structure EInv (e : EWorld decl) (rs : List P) : Prop where
  w : WInv decl e.w
  makers : e.w.g.producers = e.makers.map (fun p => Sigma.mk (decl p).ty (decl p).init)
  roster : Roster decl e.w.g e.makers rs

theorem EInv.len {e : EWorld decl} {rs : List P} (h : EInv e rs) : e.makers.length = e.w.g.producers.length := by rw [h.makers]; simp

theorem EInv.beside {e : EWorld decl} {rs : List P} (h : EInv e rs) {busy : Option Nat} {w' : World P V} (hb : Beside decl busy e.w w') (m : List (P × R (Σ t, V t))) :
    EInv ({ e with w := w', made := m } : EWorld decl) rs :=
  ⟨hb.inv h.w, by show w'.g.producers = _; rw [hb.g]; exact h.makers, by show Roster decl w'.g _ _; rw [hb.g]; exact h.roster⟩

/-- The domain is in use. -/
def Globals.lock (g : Globals V) (n : String) : Globals V := g.update n (fun info => { info with locked := true })

/-- These are. -/
def Globals.lockAll (g : Globals V) (ns : List String) : Globals V := ns.foldl Globals.lock g

theorem lookup_lock (g : Globals V) (n m : String) : (g.lock n).domains.lookup m =
    (g.domains.lookup m).map (fun info => if m = n then { info with locked := true } else info) := update_lookup _ _ _ _

theorem lookup_lock_some {g : Globals V} {n m : String} {info : DomainInfo} (h : (g.lock n).domains.lookup m = some info) :
    ∃ i, g.domains.lookup m = some i ∧ info.id = i.id ∧ info.members = i.members ∧ info.name2did = i.name2did ∧ info.tables = i.tables ∧ info.order = i.order := by
  rw [lookup_lock] at h
  cases hi : g.domains.lookup m with
  | none => rw [hi] at h; cases h
  | some i =>
    rw [hi] at h
    injection h with h
    refine ⟨i, rfl, ?_⟩
    subst h
    by_cases e : m = n <;> simp [e]

theorem lookup_of_lock {g : Globals V} {n m : String} {i : DomainInfo} (h : g.domains.lookup m = some i) :
    ∃ info, (g.lock n).domains.lookup m = some info ∧ info.id = i.id ∧ info.members = i.members ∧ info.name2did = i.name2did := by
  rw [lookup_lock, h]
  refine ⟨_, rfl, ?_⟩
  by_cases e : m = n <;> simp [e]

theorem lookup_lock_isSome (g : Globals V) (n m : String) : ((g.lock n).domains.lookup m).isSome = (g.domains.lookup m).isSome := by
  rw [lookup_lock]; cases g.domains.lookup m <;> rfl

theorem Roster.lock {g : Globals V} {makers rs : List P} (h : Roster decl g makers rs) (n : String) : Roster decl (g.lock n) makers rs := by
  refine ⟨h.known, h.gids, ?_, ?_, ?_, ?_⟩
  · intro m info hl
    obtain ⟨i, h1, -, h2, -⟩ := lookup_lock_some hl
    rw [h2]; exact h.members m i h1
  · intro m hl
    refine h.absent m ?_
    have := lookup_lock_isSome g n m
    rw [hl] at this
    cases hh : g.domains.lookup m with
    | none => rfl
    | some i => rw [hh] at this; cases this
  · intro m info m' d hl hd
    obtain ⟨i, h1, -, h2, h3, -⟩ := lookup_lock_some hl
    rw [h3] at hd; rw [h2]
    exact h.first m i m' d h1 hd
  · intro m info gid m' hl hg hm
    obtain ⟨i, h1, -, h2, h3, -⟩ := lookup_lock_some hl
    rw [h2] at hg; rw [h3]
    exact h.placed m i gid m' h1 hg hm

theorem EInv.lock {e : EWorld decl} {rs : List P} (h : EInv e rs) {n : String} {info : DomainInfo} (hl : e.w.g.domains.lookup n = some info) :
    EInv ({ e with w := e.w.withG (e.w.g.lock n) } : EWorld decl) rs ∧ Ext e.w.g (e.w.g.lock n) := by
  obtain ⟨inst, -, a2, a3, -⟩ := instantiate_ok h.w.g hl
  exact ⟨⟨⟨a2, fun p i hpi => (h.w.idx p i hpi).ext a3, fun u hu => (h.w.unis u hu).ext h.w.g a3⟩, h.makers, h.roster.lock n⟩, a3⟩

variable {inits : (p : P) → Recipe decl (decl p).ty}

theorem produceAll_eq {busy : Option Nat} (gids : List Nat) {e : EWorld decl} (ps : List P) (hg : gids.map (e.makers[·]?) = ps.map some) :
    EWorld.produceAll inits busy e gids =
      (gains (evalEach inits busy ps e.w).1, { e with w := (evalEach inits busy ps e.w).2, made := e.made ++ (evalEach inits busy ps e.w).1 }) := by
  induction gids generalizing e ps with
  | nil =>
    cases ps with
    | nil => simp [EWorld.produceAll, evalEach]; rfl
    | cons p ps => cases hg
  | cons gid gids ih =>
    cases ps with
    | nil => cases hg
    | cons p ps =>
      simp only [List.map_cons, List.cons.injEq] at hg
      obtain ⟨h1, h2⟩ := hg
      have hp : EWorld.produce inits busy e gid = ((((inits p).run busy e.w).1.map (Sigma.mk (decl p).ty)),
          { e with w := ((inits p).run busy e.w).2, made := e.made ++ [(p, ((inits p).run busy e.w).1.map (Sigma.mk (decl p).ty))] }) := by
        unfold EWorld.produce; rw [h1]
      rw [EWorld.produceAll, hp]
      simp only [evalEach]
      rcases hr : (inits p).run busy e.w with ⟨r, w1⟩
      cases r with
      | error q => rfl
      | ok v =>
        simp only [Except.map]
        rw [ih (e := { e with w := w1, made := e.made ++ [(p, .ok ⟨_, v⟩)] }) ps h2]
        rw [gains_cons]
        cases gains (evalEach inits busy ps w1).1 <;> simp [Except.map]

/-- The instance of a domain with these values. -/
def DomainInfo.made (info : DomainInfo) (name : String) (props : List (Σ t, V t)) : Instance V :=
  { id := info.id, name := name, props := props, tables := info.tables.map (fun p => (p.1, { gt := p.2, trackers := [], poisoned := false })), order := info.order }

theorem instantiate_eq {busy : Option Nat} {e : EWorld decl} {rs : List P} (he : EInv e rs) {n : String} {info : DomainInfo} (hl : e.w.g.domains.lookup n = some info) :
    EWorld.instantiate inits busy e n =
      ((gains (evalEach inits busy (lineup (decl := decl) rs n) e.w).1).map (info.made n),
       { e with w := (evalEach inits busy (lineup (decl := decl) rs n) e.w).2.withG (e.w.g.lock n),
                made := e.made ++ (evalEach inits busy (lineup (decl := decl) rs n) e.w).1 }) := by
  unfold EWorld.instantiate
  rw [hl]
  simp only []
  have h0 : ({ e with w := { e.w with g := e.w.g.update n (fun info => { info with locked := true }) } } : EWorld decl) =
    { e with w := e.w.withG (e.w.g.lock n) } := rfl
  rw [h0, produceAll_eq (e := { e with w := e.w.withG (e.w.g.lock n) }) info.members (lineup (decl := decl) rs n) (he.roster.members n info hl)]
  rw [evalEach_withG]
  cases gains (evalEach inits busy (lineup (decl := decl) rs n) e.w).1 <;> rfl

theorem made_ok {busy : Option Nat} {e : EWorld decl} {rs : List P} (he : EInv e rs) {n : String} {info : DomainInfo} (hl : e.w.g.domains.lookup n = some info)
    {w : World P V} {vs : List (Σ t, V t)} (hv : gains (evalEach inits busy (lineup (decl := decl) rs n) w).1 = .ok vs) :
    InstOk (e.w.g.lock n) info.id (info.made n vs) { info with locked := true } ∧
    ∃ inst0, e.w.g.instantiate n = .ok (inst0, e.w.g.lock n) ∧ (info.made n vs).bare = inst0.bare := by
  obtain ⟨inst0, b1, -, -, b4, b5, -⟩ := instantiate_ok he.w.g hl
  have h0 : inst0.bare = info.made n [] := by
    unfold Globals.instantiate at b1
    rw [hl] at b1
    simp only [] at b1
    cases hm : info.members.mapM (checkedGet e.w.g.producers) with
    | error q => rw [hm] at b1; cases b1
    | ok ps => rw [hm] at b1; injection b1 with b1; injection b1 with b1 _; subst b1; rfl
  have hn : inst0.name = n := by
    have : inst0.bare.name = inst0.name := rfl
    rw [← this, h0]; rfl
  refine ⟨⟨?_, ?_, rfl, rfl, ?_, rfl, ?_⟩, inst0, b1, h0.symm⟩
  · have := b4.name; rw [hn] at this; exact this
  · have := b4.look; rw [hn] at this; exact this
  · show vs.map (fun v => some v.1) = info.members.map (fun gid => e.w.g.producers[gid]?.map Sigma.fst)
    have h1 := evalEach_types _ _ hv
    have h2 := he.roster.members n info hl
    have h3 : info.members.map (fun gid => e.w.g.producers[gid]?.map Sigma.fst) = (info.members.map (e.makers[·]?)).map (Option.map (fun p => (decl p).ty)) := by
      rw [List.map_map]
      apply List.map_congr_left
      intro gid _
      rw [he.makers, List.getElem?_map]
      show _ = (e.makers[gid]?).map _
      cases e.makers[gid]? <;> rfl
    rw [h3, h2]
    have h4 : vs.map (fun v => some v.1) = (vs.map Sigma.fst).map some := by simp
    rw [h4, h1]
    simp
  · have := b4.tables
    have h2 : inst0.bare.tables = inst0.tables := rfl
    rw [← h2, h0] at this
    exact this

theorem set_bareU {u u' : List (MaybeDomain V)} (h : bareU u = bareU u') {k : Nat} {d d' : Instance V} (hd : d.bare = d'.bare) :
    bareU (u.set k (.domain d)) = bareU (u'.set k (.domain d')) := by
  simp only [bareU] at h ⊢
  rw [List.map_set, List.map_set, h]
  simp only [MaybeDomain.bare, hd]

/-- What `get_domains` comes to. -/
theorem getDomains_eq (names : List String) {e : EWorld decl} {rs : List P} (he : EInv e rs) {ret ret0 : List (MaybeDomain V)} (hr : UOk e.w.g ret)
    (hlen : ret.length = e.w.g.did2name.length) (hb : bareU ret = bareU ret0) :
    let a := names.takeWhile (fun n => (e.w.g.domains.lookup n).isSome)
    let x := evalEach inits none (a.flatMap (lineup (decl := decl) rs)) e.w
    ∃ b r, b <+: a ∧
      EWorld.getDomains inits e ret names = (r, { e with w := x.2.withG (e.w.g.lockAll b), made := e.made ++ x.1 }) ∧
      EInv ({ e with w := x.2.withG (e.w.g.lockAll b), made := e.made ++ x.1 } : EWorld decl) rs ∧ Ext e.w.g (e.w.g.lockAll b) ∧
      (∀ q, gains x.1 = .error q → r = .error q) ∧
      (∀ vs, gains x.1 = .ok vs → a ≠ names → r = .error .noSuchDomain) ∧
      (∀ vs, gains x.1 = .ok vs → a = names → ∃ u u0, b = names ∧ r = .ok u ∧ e.w.g.getDomains ret0 names = .ok (u0, e.w.g.lockAll names) ∧
        bareU u = bareU u0 ∧ UOk (e.w.g.lockAll names) u ∧ u.length = ret.length ∧
        (∀ j : Nat, (∀ n ∈ names, ∀ info, e.w.g.domains.lookup n = some info → info.id ≠ j) → u[j]? = ret[j]?) ∧
        (∀ c n d, names = c ++ n :: d → n ∉ d → ∀ info, e.w.g.domains.lookup n = some info → ∃ i : Instance V, u[info.id]? = some (.domain i) ∧
          gains (evalEach inits none (lineup (decl := decl) rs n) (evalEach inits none (c.flatMap (lineup (decl := decl) rs)) e.w).2).1 = .ok i.props)) := by
  induction names generalizing e ret ret0 with
  | nil =>
    refine ⟨[], .ok ret, List.prefix_rfl, ?_, ?_, Ext.refl _, ?_, ?_, ?_⟩
    · simp [EWorld.getDomains, evalEach]; rfl
    · simp [evalEach]; exact he
    · intro q hq; simp [evalEach, gains_nil] at hq; cases hq
    · intro vs _ h; exact absurd rfl h
    · intro vs _ _
      exact ⟨ret, ret0, rfl, rfl, rfl, hb, hr, rfl, fun _ _ => rfl, fun c n d h => by simp at h⟩
  | cons n names ih =>
    cases hl : e.w.g.domains.lookup n with
    | none =>
      have ha : (n :: names).takeWhile (fun n => (e.w.g.domains.lookup n).isSome) = [] := by
        rw [List.takeWhile_cons, hl]; rfl
      simp only [ha]
      refine ⟨[], .error .noSuchDomain, List.prefix_rfl, ?_, ?_, Ext.refl _, ?_, ?_, ?_⟩
      · rw [EWorld.getDomains, hl]
        simp [evalEach]; rfl
      · simp [evalEach]; exact he
      · intro q hq; simp [evalEach, gains_nil] at hq; cases hq
      · intro vs _ _; rfl
      · intro vs _ h; cases h
    | some info =>
      have ha : (n :: names).takeWhile (fun n => (e.w.g.domains.lookup n).isSome) = n :: names.takeWhile (fun n => (e.w.g.domains.lookup n).isSome) := by
        rw [List.takeWhile_cons, hl]; rfl
      simp only [ha, List.flatMap_cons]
      obtain ⟨he1, hx1⟩ := he.lock hl
      have hin := instantiate_eq (inits := inits) (busy := none) he hl
      have hE1 : EInv ({ e with w := (evalEach inits none (lineup (decl := decl) rs n) e.w).2.withG (e.w.g.lock n), made := e.made ++ (evalEach inits none (lineup (decl := decl) rs n) e.w).1 } : EWorld decl) rs := by
        have hbs := evalEach_beside (inits := inits) (busy := none) (lineup (decl := decl) rs n) (e.w.withG (e.w.g.lock n))
        rw [evalEach_withG] at hbs
        exact he1.beside hbs _
      have hap := evalEach_append (inits := inits) (busy := none) (lineup (decl := decl) rs n)
        ((names.takeWhile (fun n => (e.w.g.domains.lookup n).isSome)).flatMap (lineup (decl := decl) rs)) e.w
      rw [EWorld.getDomains, hl]
      simp only []
      rw [hin]
      cases hg : gains (evalEach inits none (lineup (decl := decl) rs n) e.w).1 with
      | error q =>
        rw [hg] at hap
        simp only [] at hap
        rw [hap]
        simp only [Except.map]
        refine ⟨[n], .error q, by simp, rfl, hE1, hx1, ?_, ?_, ?_⟩
        · intro q' hq; rw [hg] at hq; injection hq with hq; rw [hq]
        · intro vs hv; rw [hg] at hv; cases hv
        · intro vs hv; rw [hg] at hv; cases hv
      | ok vs1 =>
        rw [hg] at hap
        simp only [] at hap
        rw [hap]
        simp only [Except.map]
        have hid : info.id < ret.length := by rw [hlen]; exact get_lt (he.w.g.ids _ _ hl)
        rw [if_pos hid]
        obtain ⟨m1, inst0, m2, m3⟩ := made_ok he hl hg
        have hset : UOk (e.w.g.lock n) (ret.set info.id (.domain (info.made n vs1))) := (hr.ext he.w.g hx1).set _ m1
        obtain ⟨b, r, ib, i1, i2, i3, i4, i5, i6⟩ := ih hE1 (ret := ret.set info.id (.domain (info.made n vs1))) (ret0 := ret0.set info.id (.domain inst0))
          hset (by rw [List.length_set]; exact hlen) (set_bareU hb m3)
        simp only [] at i1 i2 i4 i5 i6 ib
        have hgl : ((evalEach inits none (lineup (decl := decl) rs n) e.w).2.withG (e.w.g.lock n)).g = e.w.g.lock n := rfl
        have htk : names.takeWhile (fun m => (((evalEach inits none (lineup (decl := decl) rs n) e.w).2.withG (e.w.g.lock n)).g.domains.lookup m).isSome) =
            names.takeWhile (fun m => (e.w.g.domains.lookup m).isSome) := by
          congr 1
          funext m
          rw [hgl, lookup_lock_isSome]
        simp only [htk, evalEach_withG] at i1 i2 i4 i5 i6 ib
        refine ⟨n :: b, r, List.prefix_cons_inj _ |>.2 ib, ?_, ?_, hx1.trans i3, ?_, ?_, ?_⟩
        · rw [i1, List.append_assoc]; rfl
        · rw [List.append_assoc] at i2; exact i2
        · intro q hq
          rw [gains_append, hg] at hq
          refine i4 q ?_
          cases hg2 : gains (evalEach inits none ((names.takeWhile (fun m => (e.w.g.domains.lookup m).isSome)).flatMap (lineup (decl := decl) rs)) (evalEach inits none (lineup (decl := decl) rs n) e.w).2).1 with
          | error q' => rw [hg2] at hq; injection hq with hq; rw [hq]
          | ok _ => rw [hg2] at hq; cases hq
        · intro vs hv hne
          rw [gains_append, hg] at hv
          cases hg2 : gains (evalEach inits none ((names.takeWhile (fun m => (e.w.g.domains.lookup m).isSome)).flatMap (lineup (decl := decl) rs)) (evalEach inits none (lineup (decl := decl) rs n) e.w).2).1 with
          | error q' => rw [hg2] at hv; cases hv
          | ok ws => exact i5 ws hg2 (fun h => hne (by rw [h]))
        · intro vs hv heq
          rw [gains_append, hg] at hv
          injection heq with _ heq
          cases hg2 : gains (evalEach inits none ((names.takeWhile (fun m => (e.w.g.domains.lookup m).isSome)).flatMap (lineup (decl := decl) rs)) (evalEach inits none (lineup (decl := decl) rs n) e.w).2).1 with
          | error q' => rw [hg2] at hv; cases hv
          | ok ws =>
            obtain ⟨u, u0, j1, j2, j3, j4, j5, j6, j7, j8⟩ := i6 ws hg2 heq
            refine ⟨u, u0, by rw [j1], j2, ?_, j4, j5, by simpa using j6, ?_, ?_⟩
            · rw [Globals.getDomains, hl]
              simp only []
              rw [m2]
              have hlen0 : ret0.length = ret.length := by
                have := congrArg List.length hb
                simpa using this.symm
              show (if info.id < ret0.length then _ else _) = _
              rw [if_pos (by omega)]
              exact j3
            · intro j hj
              rw [j7 j (by
                intro m hm i hi
                obtain ⟨i', h1, h2, -⟩ := lookup_lock_some hi
                rw [h2]; exact hj m (by simp [hm]) i' h1)]
              exact List.getElem?_set_ne (hj n (by simp) info hl)
            · intro c m d hc hmd i hi
              cases c with
              | nil =>
                injection hc with hc1 hc2
                subst hc1; subst hc2
                rw [hl] at hi; injection hi with hi; subst hi
                refine ⟨info.made n vs1, ?_, hg⟩
                rw [j7 info.id (by
                  intro m' hm' i' hi' hid'
                  obtain ⟨i'', h1, h2, -⟩ := lookup_lock_some hi'
                  have : m' = n := he.w.g.id_inj h1 hl (by rw [← h2, hid'])
                  subst this; exact hmd hm')]
                rw [List.getElem?_set]
                rw [if_pos rfl, if_pos hid]
              | cons c0 c =>
                injection hc with hc1 hc2
                subst hc1
                obtain ⟨i', h1, h2, -⟩ := lookup_of_lock (n := n) hi
                obtain ⟨t, t1, t2⟩ := j8 c m d hc2 hmd i' h1
                refine ⟨t, by rw [← h2]; exact t1, ?_⟩
                rw [List.flatMap_cons, evalEach_append, hg]
                exact t2

end V11
