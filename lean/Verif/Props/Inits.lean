import Verif.Lemmas.InitsLike
import Verif.Props.RegistryDemo

/-!
# C94: property initialisers that do something
-/

set_option linter.unusedSimpArgs false
set_option linter.unusedSectionVars false
set_option linter.unusedVariables false

namespace V11
variable {Ty : Type} [DecidableEq Ty] {V : Ty → Type} {P : Type} [DecidableEq P] {decl : P → PropDecl V}
variable (inits : (p : P) → Recipe decl (decl p).ty)

theorem read_value {w : World P V} (hw : WInv decl w) (hp : w.poisoned = false) {p : P} {i : PIndex} (hi : IdxOk w.g (decl p) i) {k : Nat} {u : List (MaybeDomain V)}
    (hk : w.unis[k]? = some u) {d : Instance V} (hd : u[i.domain]? = some (.domain d)) {v : Σ t, V t} (hv : d.props[i.did]? = some v) :
    (∀ x, v = ⟨(decl p).ty, x⟩ → (w.get decl k p).1 = .ok x) ∧ (v.1 ≠ (decl p).ty → (w.get decl k p).1 = .error .badDowncast) := by
  have hr := resolve_of_idx hw hi (Or.inl hp)
  have hc : cellOf u i = .ok v := by unfold cellOf; rw [hd]; simp only []; rw [hv]
  refine ⟨fun x hx => get_of hk hr (by rw [hc, hx]), fun hne => ?_⟩
  unfold World.get
  rw [hk]
  simp only []
  rcases e : w.resolve decl p with ⟨r, w1⟩
  rw [e] at hr
  simp only [] at hr
  subst hr
  simp only []
  rw [hc]
  simp only []
  unfold downcast
  rw [dif_neg hne]

/-- C94: `Universe::new` evaluates the initialisers of each listed domain, in the order listed, and of each domain in the order of registration; twins
once for each registration. It stops at the first that does not return, with that outcome. If all return, the outcome and everything but the values of properties
are as if the initialisers were constants; what the initialisers wrote to other universes stays in either case. -/
theorem C94_new {ops : List (ROp decl)} {e : EWorld decl} (h : EWorld.empty.run inits ops = some e) (hp : e.w.poisoned = false) (names : List String)
    (hn : ∀ n ∈ names, (.registerDomain n, true) ∈ EWorld.trace inits EWorld.empty ops) :
    let ps := names.flatMap (lineup (decl := decl) (EWorld.joins inits EWorld.empty ops))
    let x := evalEach inits none ps e.w
    let r := EWorld.newUniverse inits e names
    r.2.made = e.made ++ x.1 ∧
    ((∀ y ∈ x.1, y.2.isOk = true) →
      x.1.map Prod.fst = ps ∧ r.1 = (e.w.newUniverse names).1 ∧ r.2.w.bare = (e.w.newUniverse names).2.bare ∧ r.2.w.unis.take e.w.unis.length = x.2.unis) ∧
    (∀ p q, (p, .error q) ∈ x.1 → r.1 = .error q ∧ r.2.w.unis = x.2.unis ∧ r.2.w.poisoned = !decide (q = .deadlock)) := by
  intro ps x r
  have he := reached_inv h
  have hall : ∀ n ∈ names, ∃ i, e.w.g.domains.lookup n = some i := fun n hnn => (reached_known h n).2 (hn n hnn)
  have htw : names.takeWhile (fun n => (e.w.g.domains.lookup n).isSome) = names :=
    (takeWhile_all _ _).2 (fun n hnn => by obtain ⟨i, hi⟩ := hall n hnn; simp [hi])
  have hx : EWorld.newLog inits e (EWorld.joins inits EWorld.empty ops) names = x := by
    unfold EWorld.newLog; rw [htw]
  obtain ⟨-, h2, -, -, -, h6, -, h8⟩ := enewUniverse_eq (inits := inits) names he hp
  rw [hx] at h2 h6 h8
  refine ⟨h2, ?_, ?_⟩
  · intro hok
    obtain ⟨vs, hv⟩ := gains_all.2 hok
    obtain ⟨a1, a2, a3, a4⟩ := h8 vs hv hall
    refine ⟨(evalEach_fst ps e.w).2 vs hv, a1, a2, ?_⟩
    have hlen : x.2.unis.length = e.w.unis.length := (evalEach_beside (inits := inits) (busy := none) ps e.w).len
    cases hr : (EWorld.newUniverse inits e names).1 with
    | error q =>
      show (EWorld.newUniverse inits e names).2.w.unis.take _ = _
      rw [a3 q hr, ← hlen, List.take_length]
    | ok k =>
      obtain ⟨-, u, hu, -⟩ := a4 k hr
      show (EWorld.newUniverse inits e names).2.w.unis.take _ = _
      rw [hu, ← hlen, List.take_left]
  · intro p q hq
    exact h6 q (gains_error hq)

/-- C94: a property of the new universe reads the value that the first evaluated initialiser with its name returned, the domain's last mention in
the list counting; if that has another type it is refused. -/
theorem C94_values {ops : List (ROp decl)} {e : EWorld decl} (h : EWorld.empty.run inits ops = some e) (c d : List String) (n : String) (hnd : n ∉ d) {k : Nat}
    (hk : (EWorld.newUniverse inits e (c ++ n :: d)).1 = .ok k) (p r : P) (hpn : (decl p).domain = n) (hr : r ∈ EWorld.joins inits EWorld.empty ops)
    (hrd : (decl r).domain = (decl p).domain) (hrn : (decl r).name = (decl p).name) :
    let rs := EWorld.joins inits EWorld.empty ops
    let before := (evalEach inits none (c.flatMap (lineup (decl := decl) rs)) e.w).2
    k = e.w.unis.length ∧ ∃ q v, (evalEach inits none (lineup (decl := decl) rs n) before).1.find? (fun x => decide ((decl x.1).name = (decl p).name)) = some (q, .ok v) ∧
      (∀ x, v = ⟨(decl p).ty, x⟩ → ((EWorld.newUniverse inits e (c ++ n :: d)).2.w.get decl k p).1 = .ok x) ∧
      (v.1 ≠ (decl p).ty → ((EWorld.newUniverse inits e (c ++ n :: d)).2.w.get decl k p).1 = .error .badDowncast) := by
  intro rs before
  have he := reached_inv h
  have hp : e.w.poisoned = false := by
    cases hc : e.w.poisoned with
    | false => rfl
    | true => rw [(enewUniverse_idle hc _).1] at hk; cases hk
  obtain ⟨h1, -, -, h4, h5, h6, h7, h8⟩ := enewUniverse_eq (inits := inits) (c ++ n :: d) he hp
  cases hg : gains (EWorld.newLog inits e (EWorld.joins inits EWorld.empty ops) (c ++ n :: d)).1 with
  | error q => rw [(h6 q hg).1] at hk; cases hk
  | ok vs =>
    have hall : ∀ m ∈ c ++ n :: d, ∃ i, e.w.g.domains.lookup m = some i := by
      by_contra hc
      push Not at hc
      obtain ⟨m, hm1, hm2⟩ := hc
      rw [(h7 vs hg ⟨m, hm1, Option.eq_none_iff_forall_ne_some.2 hm2⟩).1] at hk; cases hk
    obtain ⟨a1, a2, a3, a4⟩ := h8 vs hg hall
    obtain ⟨b1, u, b2, b3⟩ := a4 k hk
    obtain ⟨info, hl⟩ := hall n (by simp)
    obtain ⟨inst, c1, c2⟩ := b3 c n d rfl hnd info hl
    refine ⟨b1, ?_⟩
    subst hpn
    obtain ⟨i, info', v, d1, d2, d3, d4, d5⟩ := roster_value (inits := inits) he hr hrd hrn c2
    rw [hl] at d2; injection d2 with d2; subst d2
    have hun : (EWorld.newUniverse inits e (c ++ (decl p).domain :: d)).2.w.unis[k]? = some u := by
      have hlen : (EWorld.newLog inits e (EWorld.joins inits EWorld.empty ops) (c ++ (decl p).domain :: d)).2.unis.length = e.w.unis.length :=
        (evalEach_beside (inits := inits) (busy := none) _ e.w).len
      rw [b2, b1, ← hlen]; simp
    have hpo : (EWorld.newUniverse inits e (c ++ (decl p).domain :: d)).2.w.poisoned = false := by
      have hb := congrArg World.poisoned a2
      change (EWorld.newUniverse inits e _).2.w.poisoned = (e.w.newUniverse _).2.poisoned at hb
      rw [hb]
      rw [a1] at hk
      unfold World.newUniverse at hk ⊢
      rw [if_neg (by simp [hp])] at hk ⊢
      rcases hgd : e.w.g.getDomains (e.w.g.did2name.map .unset) (c ++ (decl p).domain :: d) with q | ⟨u0, g0⟩
      · rw [hgd] at hk; cases hk
      · simp only []
        rcases ({ e.w with g := g0 } : World P V).initDomains u0 (c ++ (decl p).domain :: d) with ⟨q, u1⟩
        cases q <;> exact hp
    obtain ⟨f1, f2⟩ := read_value h1.w hpo (d1.ext h5) hun (by rw [d3]; exact c1) d4
    exact ⟨_, v, d5, f1, f2⟩

/-- C94: if a listed domain is not registered, the initialisers of those before it are evaluated nevertheless; then it panics, and the registry is unusable. -/
theorem C94_unknown {ops : List (ROp decl)} {e : EWorld decl} (h : EWorld.empty.run inits ops = some e) (hp : e.w.poisoned = false) (c d : List String) (n : String)
    (hc : ∀ m ∈ c, (.registerDomain m, true) ∈ EWorld.trace inits EWorld.empty ops) (hn : (.registerDomain n, true) ∉ EWorld.trace inits EWorld.empty ops) :
    let x := evalEach inits none (c.flatMap (lineup (decl := decl) (EWorld.joins inits EWorld.empty ops))) e.w
    let r := EWorld.newUniverse inits e (c ++ n :: d)
    r.2.made = e.made ++ x.1 ∧ ((∀ y ∈ x.1, y.2.isOk = true) → r.1 = .error .noSuchDomain ∧ r.2.w.unis = x.2.unis ∧ r.2.w.poisoned = true) := by
  intro x r
  have he := reached_inv h
  have hnone : e.w.g.domains.lookup n = none := by
    cases hl : e.w.g.domains.lookup n with
    | none => rfl
    | some i => exact absurd ((reached_known h n).1 ⟨i, hl⟩) hn
  have htw : (c ++ n :: d).takeWhile (fun n => (e.w.g.domains.lookup n).isSome) = c := by
    have hcw : ∀ m ∈ c, (fun n => (e.w.g.domains.lookup n).isSome) m = true := fun m hm => by
      obtain ⟨i, hi⟩ := (reached_known h m).2 (hc m hm); simp [hi]
    rw [List.takeWhile_append_of_pos hcw, List.takeWhile_cons]
    simp [hnone]
  have hx : EWorld.newLog inits e (EWorld.joins inits EWorld.empty ops) (c ++ n :: d) = x := by
    unfold EWorld.newLog; rw [htw]
  obtain ⟨-, h2, -, -, -, h6, h7, -⟩ := enewUniverse_eq (inits := inits) (c ++ n :: d) he hp
  rw [hx] at h2 h7
  refine ⟨h2, fun hok => ?_⟩
  obtain ⟨vs, hv⟩ := gains_all.2 hok
  exact h7 vs hv ⟨n, by simp, hnone⟩

/-- C94: `add_domain` of a registered domain that the universe lacks evaluates its initialisers in the same way, and nobody can use the universe meanwhile.
If all return, the outcome and everything but values are as with constants, the properties of the domain read as after `Universe::new`, and the
universe's others keep their values. If one does not, the outcome is its, and the universe has not got the domain. -/
theorem C94_add {ops : List (ROp decl)} {e : EWorld decl} (h : EWorld.empty.run inits ops = some e) (hp : e.w.poisoned = false) (k : Nat) (hk : k < e.w.unis.length) (n : String)
    (hn : (.registerDomain n, true) ∈ EWorld.trace inits EWorld.empty ops) (hnot : ¬ e.w.hasDomain k n) :
    let rs := EWorld.joins inits EWorld.empty ops
    let x := evalEach inits (some k) (lineup (decl := decl) rs n) e.w
    let r := EWorld.addDomain inits e k n
    r.2.made = e.made ++ x.1 ∧ (∀ k', k' ≠ k → r.2.w.unis[k']? = x.2.unis[k']?) ∧
    (∀ p v, (decl p).domain ≠ n → (e.w.get decl k p).1 = .ok v → (r.2.w.poisoned = false → (r.2.w.get decl k p).1 = .ok v)) ∧
    ((∀ y ∈ x.1, y.2.isOk = true) →
      x.1.map Prod.fst = lineup (decl := decl) rs n ∧ r.1 = (e.w.addDomain k n).1 ∧ r.2.w.bare = (e.w.addDomain k n).2.bare ∧
      ∀ p, (decl p).domain = n → (∃ q ∈ rs, (decl q).domain = n ∧ (decl q).name = (decl p).name) →
        ∃ q v, x.1.find? (fun y => decide ((decl y.1).name = (decl p).name)) = some (q, .ok v) ∧
          (∀ a, v = ⟨(decl p).ty, a⟩ → (r.2.w.get decl k p).1 = .ok a) ∧ (v.1 ≠ (decl p).ty → (r.2.w.get decl k p).1 = .error .badDowncast)) ∧
    (∀ p q, (p, .error q) ∈ x.1 → r.1 = .error q ∧ ¬ r.2.w.hasDomain k n ∧ r.2.w.poisoned = !decide (q = .deadlock)) := by
  intro rs x r
  have he := reached_inv h
  obtain ⟨info, hl⟩ := (reached_known h n).2 hn
  have hku : e.w.unis[k]? = some e.w.unis[k] := List.getElem?_eq_getElem hk
  generalize e.w.unis[k] = u at hku
  have hd : ∀ d, u[info.id]? ≠ some (.domain d) := fun d hd => hnot ((hasDomain_at he.w hku hl).2 ⟨d, hd⟩)
  obtain ⟨h1, h2, -, h4, h5, h6, h7⟩ := eaddDomain_eq (inits := inits) he hp hku hl hd
  have hx0 : evalEach inits (some k) (lineup (decl := decl) rs n) { e.w with unis := e.w.unis.set k (e.w.padded u) } = (x.1, x.2.setU k (e.w.padded u)) :=
    evalEach_setU (inits := inits) (lineup (decl := decl) rs n) e.w (e.w.padded u)
  rw [hx0] at h2 h6 h7
  have hbs : Beside decl (some k) e.w x.2 := evalEach_beside (inits := inits) _ _
  have hU := he.w.unis u (List.mem_of_getElem? hku)
  have hxk : k < x.2.unis.length := by rw [hbs.len]; exact hk
  -- universe k afterwards has what it had
  have hpast : ∃ u', r.2.w.unis[k]? = some u' ∧ ∀ (j : Nat) d, u[j]? = some (.domain d) → ∃ d', u'[j]? = some (.domain d') ∧ d'.props = d.props := by
    cases hg : gains x.1 with
    | error q =>
      refine ⟨e.w.padded u, ?_, fun j d hj => ⟨d, padded_domain.2 hj, rfl⟩⟩
      show (EWorld.addDomain inits e k n).2.w.unis[k]? = _
      rw [(h6 q hg).2.1]
      show (x.2.unis.set k _)[k]? = _
      rw [List.getElem?_set, if_pos rfl, if_pos hxk]
    | ok vs =>
      obtain ⟨-, -, u', i, a3, -, -, a6⟩ := h7 vs hg
      refine ⟨u', ?_, a6⟩
      show (EWorld.addDomain inits e k n).2.w.unis[k]? = _
      rw [a3]
      show ((x.2.unis.set k _).set k _)[k]? = _
      rw [List.getElem?_set, if_pos rfl, if_pos (by simpa using hxk)]
  refine ⟨h2, ?_, ?_, ?_, ?_⟩
  · intro k' hk'
    show (EWorld.addDomain inits e k n).2.w.unis[k']? = _
    cases hg : gains x.1 with
    | error q => rw [(h6 q hg).2.1]; exact setU_get _ hk' _
    | ok vs =>
      obtain ⟨-, -, u', i, a3, -⟩ := h7 vs hg
      rw [a3, List.getElem?_set_ne (Ne.symm hk')]
      exact setU_get _ hk' _
  · intro p v hpd hv hpo
    obtain ⟨u0, i, g1, g2, g3, g4⟩ := get_ok he.w hv
    rw [hku] at g1; injection g1 with g1; subst g1
    obtain ⟨u', b1, b2⟩ := hpast
    have hi' : IdxOk (EWorld.addDomain inits e k n).2.w.g (decl p) i := g3.ext h5
    cases hud : u[i.domain]? with
    | none => unfold cellOf at g4; rw [hud] at g4; cases g4
    | some m =>
      cases m with
      | unset s => unfold cellOf at g4; rw [hud] at g4; cases g4
      | domain d0 =>
        obtain ⟨d', c1, c2⟩ := b2 _ _ hud
        have hcell : d0.props[i.did]? = some ⟨_, v⟩ := by
          unfold cellOf at g4; rw [hud] at g4
          simp only [] at g4
          cases hz : d0.props[i.did]? with
          | none => rw [hz] at g4; cases g4
          | some z => rw [hz] at g4; injection g4 with g4; rw [g4]
        exact (read_value h1.w hpo hi' b1 c1 (by rw [c2]; exact hcell)).1 v rfl
  · intro hok
    obtain ⟨vs, hv⟩ := gains_all.2 hok
    obtain ⟨a1, a2, u', i, a3, a4, a5, a6⟩ := h7 vs hv
    refine ⟨(evalEach_fst _ e.w).2 vs hv, a1, a2, ?_⟩
    rintro p hpd ⟨q, hq1, hq2, hq3⟩
    subst hpd
    obtain ⟨i', info', v, d1, d2, d3, d4, d5⟩ := roster_value (inits := inits) (busy := some k) (w := e.w) he hq1 hq2 hq3 hv
    rw [hl] at d2; injection d2 with d2; subst d2
    have hun : r.2.w.unis[k]? = some u' := by
      show (EWorld.addDomain inits e k (decl p).domain).2.w.unis[k]? = _
      rw [a3]
      show ((x.2.unis.set k _).set k _)[k]? = _
      rw [List.getElem?_set, if_pos rfl, if_pos (by simpa using hxk)]
    have hpo : r.2.w.poisoned = false := by
      have hb := congrArg World.poisoned a2
      change (EWorld.addDomain inits e k _).2.w.poisoned = (e.w.addDomain k _).2.poisoned at hb
      show (EWorld.addDomain inits e k (decl p).domain).2.w.poisoned = false
      rw [hb]
      obtain ⟨inst, w0, hw0, -, -, -, -, -, -, -, hw⟩ := addDomain_new he.w hp hku hl hd
      rw [hw, hw0]; exact hp
    obtain ⟨f1, f2⟩ := read_value h1.w hpo (d1.ext h5) hun (by rw [d3]; exact a4) (by rw [a5]; exact d4)
    exact ⟨_, v, d5, f1, f2⟩
  · intro p q hq
    have hg := gains_error hq
    obtain ⟨a1, a2, a3⟩ := h6 q hg
    refine ⟨a1, ?_, a3⟩
    have hlook : ∃ info', (EWorld.addDomain inits e k n).2.w.g.domains.lookup n = some info' ∧ info'.id = info.id := by
      obtain ⟨info', b1, b2, -⟩ := h5.dom _ _ hl
      exact ⟨info', b1, b2⟩
    obtain ⟨info', b1, b2⟩ := hlook
    have hun : (EWorld.addDomain inits e k n).2.w.unis[k]? = some (e.w.padded u) := by
      rw [a2]
      show (x.2.unis.set k _)[k]? = _
      rw [List.getElem?_set, if_pos rfl, if_pos hxk]
    intro hhas
    obtain ⟨d, hd'⟩ := (hasDomain_at h1.w hun b1).1 hhas
    rw [b2] at hd'
    exact hd d (padded_domain.1 hd')

/-- C94: `add_properties` evaluates nothing and changes nothing, in whatever state; nor does `add_domain` of a domain that is there, or that is not registered. -/
theorem C94_idle {ops : List (ROp decl)} {e : EWorld decl} (h : EWorld.empty.run inits ops = some e) (k : Nat) (n : String) :
    EWorld.addProperties inits e k = ((e.w.addProperties k).1, e) ∧
    ((e.w.hasDomain k n ∨ (.registerDomain n, true) ∉ EWorld.trace inits EWorld.empty ops ∨ e.w.poisoned = true) →
      (EWorld.addDomain inits e k n).2.made = e.made ∧ (EWorld.addDomain inits e k n).1 = (e.w.addDomain k n).1 ∧ (EWorld.addDomain inits e k n).2.w = (e.w.addDomain k n).2) := by
  have he := reached_inv h
  refine ⟨eaddProperties_noop he.w k, ?_⟩
  intro hc
  rw [(eaddDomain_idle (inits := inits) he.w k n ?_).1]
  · exact ⟨rfl, rfl, rfl⟩
  · rintro ⟨hp, u, info, h1, h2, h3⟩
    rcases hc with hc | hc | hc
    · obtain ⟨d, hd⟩ := (hasDomain_at he.w h1 h2).1 hc
      exact h3 d hd
    · exact hc ((reached_known h n).1 ⟨info, h2⟩)
    · rw [hp] at hc; cases hc

/-- C94: an initialiser that registers something, makes a universe or a domain of one, or opens a table never returns: whoever makes a universe whose
list leads to it, the initialisers before it returning, waits forever. -/
theorem C94_locks {ops : List (ROp decl)} {e : EWorld decl} (h : EWorld.empty.run inits ops = some e) (hp : e.w.poisoned = false) (names : List String)
    (hn : ∀ n ∈ names, (.registerDomain n, true) ∈ EWorld.trace inits EWorld.empty ops) (a b : List P) (p : P)
    (hs : names.flatMap (lineup (decl := decl) (EWorld.joins inits EWorld.empty ops)) = a ++ p :: b) (hl : (inits p).Locks)
    (ha : ∀ y ∈ (evalEach inits none a e.w).1, y.2.isOk = true) :
    (EWorld.newUniverse inits e names).1 = .error .deadlock ∧ EWorld.empty.run inits (ops ++ [.newUniverse names]) = none := by
  obtain ⟨-, -, h3⟩ := C94_new inits h hp names hn
  rw [hs] at h3
  obtain ⟨vs, hv⟩ := gains_all.2 ha
  have hx : (p, .error .deadlock) ∈ (evalEach inits none (a ++ p :: b) e.w).1 := by
    rw [evalEach_append, hv]
    simp only [evalEach]
    have := locks_waits hl none (evalEach inits none a e.w).2
    rcases hr : (inits p).run none (evalEach inits none a e.w).2 with ⟨r, w1⟩
    rw [hr] at this
    simp only at this
    subst this
    simp
  have h1 := (h3 p .deadlock hx).1
  refine ⟨h1, ?_⟩
  have hrun : ∀ (ops : List (ROp decl)) (e0 : EWorld decl), e0.run inits ops = some e → e0.run inits (ops ++ [.newUniverse names]) = none := by
    intro ops
    induction ops with
    | nil =>
      intro e0 h0
      injection h0 with h0; subst h0
      have hst : (e0.step inits (.newUniverse names)).1 = .error .deadlock := by
        show (EWorld.newUniverse inits e0 names).1.map _ = _
        rw [h1]; rfl
      rw [List.nil_append, EWorld.run]
      rcases hx : e0.step inits (.newUniverse names) with ⟨r, e1⟩
      rw [hx] at hst
      simp only at hst
      subst hst
      rfl
    | cons op ops ih =>
      intro e0 h0
      obtain ⟨a1, a2⟩ := erun_cons h0
      rw [List.cons_append, EWorld.run]
      rcases hx : e0.step inits op with ⟨r, e1⟩
      rw [hx] at a1 a2
      cases r with
      | ok y => exact ih _ a2
      | error q => cases q <;> first | exact ih _ a2 | exact absurd rfl a1
  exact hrun ops _ h

/-- C94: an initialiser that panics, having used registered properties or not: whoever makes a universe whose list leads to it panics with its panic, there is no new universe, and
the registry is unusable afterwards. -/
theorem C94_panics {ops : List (ROp decl)} {e : EWorld decl} (h : EWorld.empty.run inits ops = some e) (hp : e.w.poisoned = false) (names : List String)
    (hn : ∀ n ∈ names, (.registerDomain n, true) ∈ EWorld.trace inits EWorld.empty ops) (a b : List P) (p : P)
    (hs : names.flatMap (lineup (decl := decl) (EWorld.joins inits EWorld.empty ops)) = a ++ p :: b)
    (hl : (inits p).Panics (· ∈ EWorld.joins inits EWorld.empty ops) none)
    (ha : ∀ q ∈ a, (inits q).Mild (· ∈ EWorld.joins inits EWorld.empty ops) none) :
    (EWorld.newUniverse inits e names).1 = .error .userPanic ∧ (EWorld.newUniverse inits e names).2.w.poisoned = true ∧
    (EWorld.newUniverse inits e names).2.w.unis.length = e.w.unis.length ∧
    (EWorld.newUniverse inits e names).2.made.map Prod.fst = e.made.map Prod.fst ++ a ++ [p] := by
  obtain ⟨h1, -, h3⟩ := C94_new inits h hp names hn
  rw [hs] at h1 h3
  have hready := fun q hq => reached_ready (inits := inits) h q hq
  have hev := evalEach_mild (inits := inits) (ready := (· ∈ EWorld.joins inits EWorld.empty ops)) (busy := none) a e.w ha hready
  obtain ⟨vs, hv⟩ := gains_all.2 hev
  have hb := evalEach_beside (inits := inits) (busy := none) a e.w
  have hrun := panics_panics hl (evalEach inits none a e.w).2 (fun q hq => by rw [hb.idx]; exact hready q hq)
  have hx : evalEach inits none (a ++ p :: b) e.w = ((evalEach inits none a e.w).1 ++ [(p, .error .userPanic)], ((inits p).run none (evalEach inits none a e.w).2).2) := by
    rw [evalEach_append, hv]
    simp only [evalEach]
    rcases hr : (inits p).run none (evalEach inits none a e.w).2 with ⟨r, w1⟩
    rw [hr] at hrun
    simp only at hrun
    subst hrun
    simp
  have hfst : (evalEach inits none a e.w).1.map Prod.fst = a := (evalEach_fst (inits := inits) (busy := none) a e.w).2 vs hv
  obtain ⟨g1, g2, g3⟩ := h3 p .userPanic (by rw [hx]; simp)
  refine ⟨g1, by rw [g3]; decide, ?_, ?_⟩
  · rw [g2]
    have := (evalEach_beside (inits := inits) (busy := none) (a ++ p :: b) e.w).len
    exact this
  · rw [h1, hx]
    simp [hfst]

/-- C94: likewise whoever adds its domain to a universe. -/
theorem C94_locks_add {ops : List (ROp decl)} {e : EWorld decl} (h : EWorld.empty.run inits ops = some e) (hp : e.w.poisoned = false) (k : Nat) (hk : k < e.w.unis.length) (n : String)
    (hn : (.registerDomain n, true) ∈ EWorld.trace inits EWorld.empty ops) (hnot : ¬ e.w.hasDomain k n) (a b : List P) (p : P)
    (hs : lineup (decl := decl) (EWorld.joins inits EWorld.empty ops) n = a ++ p :: b) (hl : (inits p).Locks)
    (ha : ∀ y ∈ (evalEach inits (some k) a e.w).1, y.2.isOk = true) : (EWorld.addDomain inits e k n).1 = .error .deadlock := by
  obtain ⟨-, -, -, -, h3⟩ := C94_add inits h hp k hk n hn hnot
  rw [hs] at h3
  obtain ⟨vs, hv⟩ := gains_all.2 ha
  have hx : (p, .error .deadlock) ∈ (evalEach inits (some k) (a ++ p :: b) e.w).1 := by
    rw [evalEach_append, hv]
    simp only [evalEach]
    have := locks_waits hl (some k) (evalEach inits (some k) a e.w).2
    rcases hr : (inits p).run (some k) (evalEach inits (some k) a e.w).2 with ⟨r, w1⟩
    rw [hr] at this
    simp only at this
    subst this
    simp
  exact (h3 p .deadlock hx).1

/-- C94: initialisers that only use properties that were registered before, and do not panic, always return. -/
theorem C94_calm {ops : List (ROp decl)} {e : EWorld decl} (h : EWorld.empty.run inits ops = some e) (hp : e.w.poisoned = false) (names : List String)
    (hn : ∀ n ∈ names, (.registerDomain n, true) ∈ EWorld.trace inits EWorld.empty ops)
    (hm : ∀ n ∈ names, ∀ p ∈ lineup (decl := decl) (EWorld.joins inits EWorld.empty ops) n, (inits p).Mild (· ∈ EWorld.joins inits EWorld.empty ops) none) :
    (EWorld.newUniverse inits e names).1 = (e.w.newUniverse names).1 ∧ (EWorld.newUniverse inits e names).2.w.bare = (e.w.newUniverse names).2.bare := by
  obtain ⟨-, h2, -⟩ := C94_new inits h hp names hn
  have hok := evalEach_mild (inits := inits) (ready := (· ∈ EWorld.joins inits EWorld.empty ops)) (busy := none) _ e.w (by
    intro p hpp
    obtain ⟨n, h1, h2⟩ := List.mem_flatMap.1 hpp
    exact hm n h1 p h2) (fun p hpp => reached_ready h p hpp)
  exact ⟨(h2 hok).2.1, (h2 hok).2.2.1⟩

/-- C94: so long as every initialiser has returned and the registry is usable, every call has had the outcome it would have with constants, and will have; the processes differ only
in the values of properties. -/
theorem C94_shadow {ops : List (ROp decl)} {e : EWorld decl} (h : EWorld.empty.run inits ops = some e) (hp : e.w.poisoned = false) (hm : ∀ y ∈ e.made, y.2.isOk = true) :
    EWorld.trace inits EWorld.empty ops = World.history decl ops ∧ e.w.bare = (World.after decl ops).bare ∧
    ∀ op, (∀ y ∈ (e.step inits op).2.made, y.2.isOk = true) → (e.step inits op).1 = ((World.after decl ops).step decl op).1 := by
  obtain ⟨a1, a2⟩ := erun_shadow (inits := inits) EInv.empty WInv.empty rfl h hm hp
  refine ⟨a2, a1, fun op hop => ?_⟩
  exact (estep_shadow (reached_inv h) (run_inv WInv.empty ops).1 a1 op hop).1

/-- C94: with constants for initialisers, each is its value, and nothing else happens. -/
theorem C94_constant (ps : List P) (busy : Option Nat) (w : World P V) :
    evalEach (fun p => .ret (decl p).init) busy ps w = (ps.map (fun p => (p, .ok ⟨_, (decl p).init⟩)), w) := by
  induction ps with
  | nil => rfl
  | cons p ps ih => simp only [evalEach, Recipe.run, ih, List.map_cons]

end V11

namespace V11.RegDemo

/-- The initialisers of `decl`: that of `2` sets `0` in universe 0 on its way, that of `4` makes a universe, and that of `1` would panic. -/
def scripts : (p : Fin 6) → Recipe decl (decl p).ty
  | 0 => .ret (7 : Nat)
  | 1 => .panic
  | 2 => .call (.set 0 0 (50 : Nat)) (fun _ => .ret (4 : Nat))
  | 3 => .ret true
  | 4 => .call (.newUniverse ["game"]) (fun _ => .ret false)
  | 5 => .panic

/-- Registration; `0` twice. -/
def begun : List (ROp decl) :=
  [.registerDomain "game", .registerDomain "ui", .registerProp 0, .registerProp 1, .registerProp 2, .registerProp 0, .registerProp 3, .registerProp 4]

/-- What a reading gives. -/
def seen (e : Option (EWorld decl)) (k : Nat) (p : Fin 6) (t : (decl p).ty = false) : Option (Option Nat) :=
  e.map (fun e => ((e.w.get decl k p).1.toOption).map (fun v => (t ▸ v : Val false)))

/-- The properties that were evaluated. -/
def evaluated (e : Option (EWorld decl)) : Option (List (Fin 6 × Bool)) := e.map (fun e => e.made.map (fun y => (y.1, y.2.isOk)))

/-- C94: four registrations on `game`, three of one name; the initialiser of its first registrant is evaluated three times, that of the twin never. -/
example : EWorld.joins scripts EWorld.empty begun = [0, 1, 2, 3, 4] ∧ lineup (decl := decl) [0, 1, 2, 3, 4] "game" = [0, 0, 2, 0] ∧
    evaluated (EWorld.empty.run scripts (begun ++ [.newUniverse ["game"]])) = some [(0, true), (0, true), (2, true), (0, true)] := by decide

/-- C94: the second universe's making writes to the first. -/
example : seen (EWorld.empty.run scripts (begun ++ [.newUniverse ["game"]])) 0 1 rfl = some (some 7) ∧
    seen (EWorld.empty.run scripts (begun ++ [.newUniverse ["game"]])) 0 2 rfl = some (some 4) ∧
    seen (EWorld.empty.run scripts (begun ++ [.newUniverse ["game"], .newUniverse ["game"]])) 0 1 rfl = some (some 50) ∧
    seen (EWorld.empty.run scripts (begun ++ [.newUniverse ["game"], .newUniverse ["game"]])) 1 1 rfl = some (some 7) := ⟨rfl, rfl, rfl, rfl⟩

/-- C94_locks: the initialiser of `4` waits for the lock its thread holds. -/
example : (scripts 4).Locks ∧ lineup (decl := decl) [0, 1, 2, 3, 4] "ui" = [4] := ⟨.now _ _ trivial, by decide⟩

example : (EWorld.empty.run scripts (begun ++ [.newUniverse ["game", "ui"]])).isNone = true ∧
    (EWorld.empty.run scripts (begun ++ [.newUniverse ["game"], .addDomain 0 "ui"])).isNone = true := ⟨rfl, rfl⟩

/-- C94_calm: those of `game` do not. -/
example : ∀ p ∈ lineup (decl := decl) [0, 1, 2, 3, 4] "game", (scripts p).Mild (· ∈ EWorld.joins scripts EWorld.empty begun) none := by
  intro p hp
  have h : p = 0 ∨ p = 2 := by revert p; decide
  rcases h with rfl | rfl
  · exact .ret _
  · exact .call _ _ ⟨by simp, by decide⟩ (fun _ => .ret _)

/-- C94_panics: its hypotheses hold there. -/
example : EWorld.joins scripts EWorld.empty [.registerDomain "game", .registerProp 2, .registerProp 1, .registerProp 0] = [2, 1, 0] ∧
    lineup (decl := decl) [2, 1, 0] "game" = [2] ++ 1 :: [1] ∧ (scripts 1).Panics (· ∈ ([2, 1, 0] : List (Fin 6))) none ∧
    (scripts 2).Mild (· ∈ ([2, 1, 0] : List (Fin 6))) none :=
  ⟨by decide, by decide, .now, .call _ _ ⟨by simp, by decide⟩ (fun _ => .ret _)⟩

/-- C94_new: an initialiser that panics. Here `1` comes first, and its panic leaves nothing usable. -/
example : evaluated (EWorld.empty.run scripts ([.registerDomain "game", .registerProp 2, .registerProp 1, .registerProp 0] ++ [.newUniverse ["game"]])) =
      some [(2, true), (1, false)] ∧
    (EWorld.empty.run scripts ([.registerDomain "game", .registerProp 2, .registerProp 1, .registerProp 0] ++ [.newUniverse ["game"]])).map (fun e => (e.w.poisoned, e.w.unis.length)) =
      some (true, 0) := ⟨by decide, rfl⟩

end V11.RegDemo
