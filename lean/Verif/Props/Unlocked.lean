import Verif.Lemmas.Unlocked
import Verif.Props.RegistryUse
import Verif.Props.RegistryDemo

/-!
# C98: unlocking a domain that is in use
-/

set_option linter.unusedSimpArgs false
set_option linter.unusedSectionVars false
set_option linter.unusedVariables false

namespace V11

variable {Ty : Type} [DecidableEq Ty] {V : Ty → Type} {P : Type} [DecidableEq P] {decl : P → PropDecl V}

/-- C98: `set_locked` returns exactly if the registry is usable and knows the domain; then `locked` says so for that
domain and the same as before for the others, and the universes are as they were. Asked for an unknown domain it poisons
the registry. -/
theorem C98_set_locked (w : World P V) (n : String) (b : Bool) :
    ((w.setLocked n b).1 = .ok () ↔ ∃ b', w.locked n = .ok b') ∧ (w.setLocked n b).2.unis = w.unis ∧
    ((w.setLocked n b).1 = .ok () → (w.setLocked n b).2.poisoned = false ∧
      ∀ m, (w.setLocked n b).2.locked m = if m = n then .ok b else w.locked m) ∧
    ((w.setLocked n b).1 ≠ .ok () → (w.setLocked n b).2 = { w with poisoned := true }) := by
  unfold World.setLocked
  by_cases hp : w.poisoned = true
  · rw [if_pos hp]
    refine ⟨by simp [World.locked, hp], rfl, (fun h => by cases h), ?_⟩
    intro _
    cases w; simp_all
  · rw [if_neg hp]
    cases hl : w.g.domains.lookup n with
    | none => exact ⟨by simp [World.locked, hp, hl, World.die], rfl, (fun h => by cases h), fun _ => rfl⟩
    | some info =>
      simp only []
      refine ⟨by simp [World.locked, hp, hl], trivial, ?_, by simp⟩
      intro _
      refine ⟨by simpa using hp, ?_⟩
      intro m
      unfold World.locked
      simp only [if_neg hp]
      rw [update_lookup]
      by_cases e : m = n
      · subst e; rw [hl]; simp
      · simp only [if_neg e, Option.map_id']

/-- C98: on a domain that is registered, a property that has no place yet is registered exactly if the registry is
usable, the name is right and the domain is not locked - whether or not universes have the domain. -/
theorem C98_register (ops : List (LkOp decl)) (p : P) (hnew : (World.lkAfter decl ops : World P V).idx p = none) :
    ((World.lkAfter decl ops : World P V).registerProp decl p).1 = .ok () ↔
      IsPropName (decl p).domain.toList (decl p).name.toList ∧ (World.lkAfter decl ops : World P V).locked (decl p).domain = .ok false := by
  generalize (World.lkAfter decl ops : World P V) = w at *
  unfold World.registerProp World.locked
  rw [← checkPropName_ok]
  by_cases hp : w.poisoned = true
  · simp [if_pos hp]
  · simp only [if_neg hp]
    rw [hnew]
    simp only []
    cases hc : checkPropName (decl p).domain.toList (decl p).name.toList with
    | error e => simp [World.die]
    | ok x =>
      simp only []
      cases hl : w.g.domains.lookup (decl p).domain with
      | none => simp [World.die]
      | some info =>
        simp only []
        by_cases hk : info.locked = true
        · simp [hk, World.die]
        · simp [hk]

/-- C98: reading a registered property of an existing universe fails only because the universe does not have the domain,
or because the property was registered after and not added since, or because a property of the same name and another type
was registered first. -/
theorem C98_get (ops : List (LkOp decl)) (k : Nat) (p : P) (hr : Registers p ops) (hk : k < (World.lkAfter decl ops : World P V).unis.length) :
    (((World.lkAfter decl ops).get decl k p).1 = .error .domainNotInUniverse ↔ ¬ (World.lkAfter decl ops).hasDomain k (decl p).domain) ∧
    (∀ e, ((World.lkAfter decl ops).get decl k p).1 = .error e → e = .domainNotInUniverse ∨ e = .lateProp ∨
      (e = .badDowncast ∧ ∃ v, firstInit (World.lkHistory decl ops) (decl p).name = some v ∧ v.1 ≠ (decl p).ty)) ∧
    ((World.lkAfter decl ops).get decl k p).2 = World.lkAfter decl ops := by
  have h := lkRun_inv (P := P) (V := V) ops
  have hI := lk_init (P := P) (V := V) ops
  obtain ⟨i, hi⟩ := hr.idx
  generalize (World.lkAfter decl ops : World P V) = w at *
  have hu := List.getElem?_eq_getElem hk
  generalize w.unis[k] = u at hu
  obtain ⟨info, a1, a2, a3, a4⟩ := h.idx p i hi
  have hinst := (h.unis u (List.mem_of_getElem? hu)).inst
  rw [get_idx hu hi]
  cases hc : cellOf u i with
  | error e =>
    simp only []
    refine ⟨?_, ?_, trivial⟩
    · rw [hasDomain_l h hu a1]
      unfold cellOf at hc
      split at hc
      · rename_i d hd
        split at hc
        · cases hc
        · injection hc with hc
          subst hc
          constructor
          · intro hx; injection hx with hx; cases hx
          · intro hx
            exact absurd ⟨d, by rw [a2]; exact hd, at_place h hu a1 (by rw [a2]; exact hd)⟩ hx
      · rename_i hx
        injection hc with hc
        subst hc
        refine ⟨fun _ => ?_, fun _ => rfl⟩
        rintro ⟨d, hd, -⟩
        rw [a2] at hd
        exact hx d hd
    · intro e' he
      injection he with he
      subst he
      unfold cellOf at hc
      split at hc
      · split at hc
        · cases hc
        · injection hc with hc; exact Or.inr (Or.inl hc.symm)
      · injection hc with hc; exact Or.inl hc.symm
  | ok v =>
    simp only []
    obtain ⟨d, c1, c2⟩ := cell_inst hc
    refine ⟨?_, ?_, trivial⟩
    · constructor
      · intro hx
        unfold downcast at hx
        split at hx
        · cases hx
        · injection hx with hx; cases hx
      · intro hx
        exact absurd ((hasDomain_l h hu a1).2 ⟨d, by rw [a2]; exact c1, at_place h hu a1 (by rw [a2]; exact c1)⟩) hx
    · intro e he
      unfold downcast at he
      split at he
      · cases he
      · rename_i hne
        injection he with he
        refine Or.inr (Or.inr ⟨he.symm, ?_⟩)
        obtain ⟨info', b1, b2, b3⟩ := hinst _ _ c1
        have hn := at_place h hu a1 (by rw [a2]; exact c1)
        rw [hn, a1] at b1
        injection b1 with b1
        subst b1
        obtain ⟨gid, pr, e1, e2, e3⟩ := b3 _ _ c2
        obtain ⟨gid', f1, f2⟩ := (h.g.info _ _ a1).did _ _ a3
        rw [e1] at f1
        injection f1 with f1
        subst f1
        refine ⟨pr, ?_, by rw [← e3]; exact hne⟩
        rw [hI, f2]
        exact e2

/-- C98: a property whose name was never registered before, registered while a universe already has its (unlocked)
domain, cannot be read there: the read panics, saying the property came late, for as long as `add_properties` is not
called on that universe. -/
theorem C98_late (ops more : List (LkOp decl)) (k : Nat) (p : P) (hd : (World.lkAfter decl ops : World P V).hasDomain k (decl p).domain)
    (hnew : firstInit (World.lkHistory decl ops : List (ROp decl × Bool)) (decl p).name = none)
    (hok : ((World.lkAfter decl ops : World P V).registerProp decl p).1 = .ok ())
    (hm : LkOp.call (.addProperties k) ∉ more) :
    ((World.lkAfter decl (ops ++ [LkOp.call (.registerProp p)] ++ more) : World P V).get decl k p).1 = .error .lateProp := by
  have h := lkRun_inv (P := P) (V := V) ops
  have hI := lk_init (P := P) (V := V) ops
  rw [World.lkAfter, List.append_assoc, lkRun_append, lkRun_append]
  show ((((World.lkAfter decl ops : World P V).registerProp decl p).2.lkRun decl more).get decl k p).1 = _
  generalize (World.lkAfter decl ops : World P V) = w at *
  have hnone : w.g.name2gid.lookup (decl p).name = none := by
    cases hx : w.g.name2gid.lookup (decl p).name with
    | none => rfl
    | some gid =>
      obtain ⟨v, hv⟩ := InitOk.known h.g hI hx
      rw [hv] at hnew; cases hnew
  obtain ⟨u, d, h1, h2, h3⟩ := id hd
  -- the place it gets
  have hplace : ∃ info, w.g.domains.lookup (decl p).domain = some info ∧
      (w.registerProp decl p).2.idx p = some { domain := info.id, did := info.members.length, gid := w.g.producers.length } := by
    have hidx : w.idx p = none := by
      cases hx : w.idx p with
      | none => rfl
      | some i =>
        obtain ⟨-, -, -, -, a4⟩ := h.idx p i hx
        rw [a4] at hnone; cases hnone
    unfold World.registerProp at hok ⊢
    by_cases hp : w.poisoned = true
    · rw [if_pos hp] at hok; cases hok
    · simp only [if_neg hp] at hok ⊢
      rw [hidx] at hok ⊢
      simp only [] at hok ⊢
      cases hc : checkPropName (decl p).domain.toList (decl p).name.toList with
      | error e => rw [hc] at hok; cases hok
      | ok x =>
        rw [hc] at hok
        simp only [] at hok ⊢
        cases hl : w.g.domains.lookup (decl p).domain with
        | none => rw [hl] at hok; cases hok
        | some info =>
          rw [hl] at hok
          simp only [] at hok ⊢
          by_cases hk : info.locked = true
          · rw [if_pos hk] at hok; cases hok
          · rw [if_neg hk]
            have hno : info.name2did.lookup (decl p).name = none := by
              cases hx : info.name2did.lookup (decl p).name with
              | none => rfl
              | some j =>
                obtain ⟨gid, -, f2⟩ := (h.g.info _ _ hl).did _ _ hx
                rw [f2] at hnone; cases hnone
            exact ⟨info, rfl, by simp [hno, hnone]⟩
  obtain ⟨info, hl, hidx⟩ := hplace
  obtain ⟨d0, e1, e2⟩ := (hasDomain_l h h1 hl).1 hd
  have s1 := registerProp_l h (fun j => decide (j ≠ k)) p
  have s2 := lkRun_l s1.inv (fun j => decide (j ≠ k)) more (by
    intro op ho j hj
    cases op with
    | setLocked n b => cases hj
    | call op =>
      cases op <;> try (cases hj; done)
      rename_i k'
      have : k' = j := by simpa [LkOp.adds] using hj
      subst this
      by_contra hc
      have : k' = k := by simpa using hc
      subst this
      exact hm ho)
  have s := s1.trans s2
  obtain ⟨u', b1, b2⟩ := s.unis k u h1
  obtain ⟨d', c1, c2, c3, c4, c5⟩ := b2 _ _ e1
  rw [get_idx b1 (s2.idx _ _ hidx)]
  have hlen : d0.props.length ≤ info.members.length := by
    by_contra hc
    obtain ⟨info', f1, f2, f3⟩ := (h.unis u (List.mem_of_getElem? h1)).inst _ _ e1
    rw [e2, hl] at f1
    injection f1 with f1
    subst f1
    obtain ⟨gid, pr, g1, -⟩ := f3 info.members.length d0.props[info.members.length] (List.getElem?_eq_getElem (by omega))
    rw [List.getElem?_eq_none (le_refl _)] at g1; cases g1
  have hcell : cellOf u' { domain := info.id, did := info.members.length, gid := w.g.producers.length } = .error .lateProp := by
    unfold cellOf
    simp only []
    rw [c1]
    simp only []
    rw [List.getElem?_eq_none (by rw [c5 (by simp)]; exact hlen)]
  rw [hcell]

/-- C98: `add_properties` returns whenever the registry is usable and the universe exists, and leaves the registry and
the other universes alone. Afterwards no registered property of the universe's domains is late: one that could be read has
the value it had, and one that was late has the initial value of the first property registered under its name. -/
theorem C98_add_properties (ops : List (LkOp decl)) (k : Nat) (hp : (World.lkAfter decl ops : World P V).poisoned = false)
    (hk : k < (World.lkAfter decl ops : World P V).unis.length) :
    ((World.lkAfter decl ops : World P V).addProperties k).1 = .ok () ∧
    (∃ u', ((World.lkAfter decl ops : World P V).addProperties k).2 = { World.lkAfter decl ops with unis := (World.lkAfter decl ops).unis.set k u' }) ∧
    ∀ p, Registers p ops →
      (((World.lkAfter decl ops).get decl k p).1 ≠ .error .lateProp →
        (((World.lkAfter decl ops).addProperties k).2.get decl k p).1 = ((World.lkAfter decl ops).get decl k p).1) ∧
      (((World.lkAfter decl ops).get decl k p).1 = .error .lateProp → ∃ v, firstInit (World.lkHistory decl ops) (decl p).name = some v ∧
        (((World.lkAfter decl ops).addProperties k).2.get decl k p).1 = downcast (decl p).ty v) := by
  have h := lkRun_inv (P := P) (V := V) ops
  have hI := lk_init (P := P) (V := V) ops
  have hR : ∀ p, Registers p ops → ∃ i, (World.lkAfter decl ops : World P V).idx p = some i := fun p h => h.idx
  generalize (World.lkAfter decl ops : World P V) = w at *
  have hu := List.getElem?_eq_getElem hk
  generalize w.unis[k] = u at hu
  obtain ⟨u', h1, h2, h3⟩ := addProperties_does h hp hu
  rw [h1]
  refine ⟨rfl, ⟨u', rfl⟩, ?_⟩
  intro p hr
  obtain ⟨i, hi⟩ := hR p hr
  obtain ⟨info, a1, a2, a3, a4⟩ := h.idx p i hi
  have hu' : ({ w with unis := w.unis.set k u' } : World P V).unis[k]? = some u' := by
    simp only []
    rw [List.getElem?_set]
    simp [hk]
  rw [get_idx hu hi, get_idx (w := ({ w with unis := w.unis.set k u' } : World P V)) hu' hi]
  cases hd : u[i.domain]? with
  | none =>
    have : u'[i.domain]? = none := by
      rw [List.getElem?_eq_none_iff] at hd ⊢
      omega
    have e1 : cellOf u i = .error .domainNotInUniverse := by unfold cellOf; rw [hd]
    have e2 : cellOf u' i = .error .domainNotInUniverse := by unfold cellOf; rw [this]
    rw [e1, e2]
    exact ⟨fun _ => rfl, fun hx => by injection hx with hx; cases hx⟩
  | some m =>
    obtain ⟨m', b1, b2⟩ := h3 _ _ hd
    cases m with
    | unset n =>
      cases b2
      have e1 : cellOf u i = .error .domainNotInUniverse := by unfold cellOf; rw [hd]
      have e2 : cellOf u' i = .error .domainNotInUniverse := by unfold cellOf; rw [b1]
      rw [e1, e2]
      exact ⟨fun _ => rfl, fun hx => by injection hx with hx; cases hx⟩
    | domain d =>
      obtain ⟨info', extra, c1, rfl, c3⟩ := b2
      have hn := at_place h hu a1 (by rw [a2]; exact hd)
      rw [hn, a1] at c1
      injection c1 with c1
      subst c1
      obtain ⟨gid, f1, f2⟩ := (h.g.info _ _ a1).did _ _ a3
      rw [a4] at f2
      injection f2 with f2
      subst f2
      by_cases hj : i.did < d.props.length
      · have e1 := List.getElem?_eq_getElem hj
        have e2 : cellOf u i = .ok d.props[i.did] := cell_of_inst hd e1
        have e3 : cellOf u' i = .ok d.props[i.did] := cell_of_inst b1 (by simp only []; rw [List.getElem?_append_left hj]; exact e1)
        rw [e2, e3]
        refine ⟨fun _ => rfl, ?_⟩
        intro hx
        simp only [] at hx
        unfold downcast at hx
        split at hx
        · cases hx
        · injection hx with hx; cases hx
      · have e2 : cellOf u i = .error .lateProp := by
          unfold cellOf
          rw [hd]
          simp only []
          rw [List.getElem?_eq_none (by omega)]
        rw [e2]
        refine ⟨fun hx => absurd rfl hx, fun _ => ?_⟩
        have hpr := List.getElem?_eq_getElem (h.g.gid_lt a4)
        refine ⟨w.g.producers[i.gid]'(h.g.gid_lt a4), by rw [hI, a4]; exact hpr, ?_⟩
        have := congrArg (·[i.did - d.props.length]?) c3
        simp only [List.getElem?_map, List.getElem?_drop] at this
        rw [show d.props.length + (i.did - d.props.length) = i.did by omega, f1] at this
        simp only [Option.map_some, hpr] at this
        cases hx : extra[i.did - d.props.length]? with
        | none => rw [hx] at this; cases this
        | some x =>
          rw [hx] at this
          simp only [Option.map_some, Option.some.injEq] at this
          subst this
          have e3 : cellOf u' i = .ok (w.g.producers[i.gid]'(h.g.gid_lt a4)) :=
            cell_of_inst b1 (by simp only []; rw [List.getElem?_append_right (by omega)]; exact hx)
          rw [e3]

/-- C98: registering more on an unlocked domain never mixes properties up: a write to one that returned is what the
property and the others of its name then have, and no property of another name changes in any universe. -/
theorem C98_places (ops : List (LkOp decl)) (k : Nat) (p : P) (val : V (decl p).ty) (hp : Registers p ops)
    (hok : ((World.lkAfter decl ops : World P V).set decl k p val).1 = .ok ()) :
    (((World.lkAfter decl ops).set decl k p val).2.get decl k p).1 = .ok val ∧
    ∀ q, Registers q ops →
      ((decl q).name = (decl p).name → (decl q).domain = (decl p).domain →
        (((World.lkAfter decl ops).set decl k p val).2.get decl k q).1 = downcast (decl q).ty ⟨_, val⟩) ∧
      ∀ k', (decl q).name ≠ (decl p).name ∨ k' ≠ k →
        (((World.lkAfter decl ops).set decl k p val).2.get decl k' q).1 = ((World.lkAfter decl ops).get decl k' q).1 := by
  have h := lkRun_inv (P := P) (V := V) ops
  have hR : ∀ p, Registers p ops → ∃ i, (World.lkAfter decl ops : World P V).idx p = some i := fun p h => h.idx
  generalize (World.lkAfter decl ops : World P V) = w at *
  obtain ⟨i, hi⟩ := hR p hp
  have hI := h.idx p i hi
  rw [set_fst] at hok
  rw [set_snd]
  have hform : ∃ (u : List (MaybeDomain V)) (old : V (decl p).ty), w.unis[k]? = some u ∧ cellOf u i = .ok ⟨_, old⟩ ∧
      (w.swap decl k p val).2 = { w with unis := w.unis.set k (putCell u i ⟨_, val⟩) } := by
    unfold World.swap World.resolve at hok ⊢
    cases hu : w.unis[k]? with
    | none => rw [hu] at hok; cases hok
    | some u =>
      rw [hu, hi] at hok
      rw [hi]
      simp only [] at hok ⊢
      cases hc : cellOf u i with
      | error e => rw [hc] at hok; cases hok
      | ok v =>
        rw [hc] at hok
        simp only [] at hok ⊢
        cases hd : downcast (decl p).ty v with
        | error e => rw [hd] at hok; cases hok
        | ok old =>
          have := downcast_ok hd
          subst this
          exact ⟨u, old, rfl, hc, rfl⟩
  obtain ⟨u, old, hu, hc, hw⟩ := hform
  rw [hw]
  have hlt : k < w.unis.length := by
    by_contra hx
    rw [List.getElem?_eq_none (by omega)] at hu; cases hu
  have hu' : ({ w with unis := w.unis.set k (putCell u i ⟨_, val⟩) } : World P V).unis[k]? = some (putCell u i ⟨_, val⟩) := by
    simp only []
    rw [List.getElem?_set]
    simp [hlt]
  refine ⟨?_, ?_⟩
  · rw [get_idx (w := ({ w with unis := w.unis.set k (putCell u i ⟨_, val⟩) } : World P V)) hu' hi, cellOf_putCell hc, if_pos ⟨rfl, rfl⟩]
    exact downcast_same _ _
  · intro q hq
    obtain ⟨j, hj⟩ := hR q hq
    have hJ := h.idx q j hj
    constructor
    · intro hn hdm
      have e : j = i := by
        obtain ⟨info, a1, a2, a3, a4⟩ := hI
        obtain ⟨info', b1, b2, b3, b4⟩ := hJ
        rw [hdm, a1] at b1
        injection b1 with b1
        subst b1
        rw [hn, a3] at b3
        rw [hn, a4] at b4
        injection b3 with b3
        injection b4 with b4
        cases i; cases j; simp_all
      rw [get_idx (w := ({ w with unis := w.unis.set k (putCell u i ⟨_, val⟩) } : World P V)) hu' hj, cellOf_putCell hc, if_pos (by rw [e]; exact ⟨rfl, rfl⟩)]
    · intro k' hne
      by_cases ek : k' = k
      · subst ek
        have hn : (decl q).name ≠ (decl p).name := by
          rcases hne with hne | hne
          · exact hne
          · exact absurd rfl hne
        rw [get_idx (w := ({ w with unis := w.unis.set k' (putCell u i ⟨_, val⟩) } : World P V)) hu' hj, get_idx hu hj, cellOf_putCell hc,
          if_neg (fun hx => hn (IdxOk.place h.g hJ hI hx))]
        cases cellOf u j <;> rfl
      · have hkk : ({ w with unis := w.unis.set k (putCell u i ⟨_, val⟩) } : World P V).unis[k']? = w.unis[k']? := by
          simp only []
          rw [List.getElem?_set_ne (Ne.symm ek)]
        cases hx : w.unis[k']? with
        | none =>
          unfold World.get
          rw [hkk, hx]
        | some x =>
          rw [get_idx (w := ({ w with unis := w.unis.set k (putCell u i ⟨_, val⟩) } : World P V)) (by rw [hkk]; exact hx) hj, get_idx hx hj]
          cases cellOf x j <;> rfl

/-- C98: a table registered on an unlocked domain never gets into a universe that already has the domain, whatever is
called afterwards, `add_properties` and `add_domain` included; its module cannot lock it there. -/
theorem C98_tables (ops more : List (LkOp decl)) (k : Nat) (n t : String) (hd : (World.lkAfter decl ops : World P V).hasDomain k n)
    (hno : ∀ x, ¬ (World.lkAfter decl ops : World P V).hasTable k n t x) :
    (∀ x, ¬ (World.lkAfter decl (ops ++ more) : World P V).hasTable k n t x) ∧
    ∀ m : GTable, m.domain = n → m.name = t → ∀ write tolerant, ∃ e, (e = .poisoned ∨ e = .noSuchTable) ∧
      ((World.lkAfter decl (ops ++ more) : World P V).openTable k m write tolerant) = (.error e, World.lkAfter decl (ops ++ more)) := by
  have h := lkRun_inv (P := P) (V := V) ops
  have happ : (World.lkAfter decl (ops ++ more) : World P V) = (World.lkAfter decl ops : World P V).lkRun decl more := lkRun_append _ _ _
  rw [happ]
  have s := lkRun_l h (fun _ => true) more (fun _ _ _ _ => rfl)
  generalize (World.lkAfter decl ops : World P V) = w at *
  generalize w.lkRun decl more = w' at *
  obtain ⟨u, d, h1, h2, h3⟩ := hd
  obtain ⟨j, hj, e⟩ := List.mem_iff_getElem.1 h2
  have hj' : u[j]? = some (.domain d) := by rw [List.getElem?_eq_getElem hj, e]
  obtain ⟨info, a1, a2, -⟩ := (h.unis u (List.mem_of_getElem? h1)).inst _ _ hj'
  have hnone : d.tables.lookup t = none := by
    cases hx : d.tables.lookup t with
    | none => rfl
    | some x => exact absurd ⟨u, d, h1, h2, h3, hx⟩ (hno x)
  obtain ⟨u', b1, b2⟩ := s.unis k u h1
  obtain ⟨d', c1, c2, c3, -⟩ := b2 _ _ hj'
  have hnone' : d'.tables.lookup t = none := by
    rw [lookup_none_iff, c3, ← lookup_none_iff]; exact hnone
  obtain ⟨info', e1, e2, -⟩ := s.ext.dom _ _ a1
  rw [h3] at e1
  constructor
  · rintro x ⟨u2, i2, f1, f2, f3, f4⟩
    rw [b1] at f1
    injection f1 with f1
    subst f1
    obtain ⟨d2, g1, g2⟩ := (hasDomain_l s.inv b1 e1).1 ⟨u', i2, b1, f2, f3⟩
    obtain ⟨j2, hj2, ee⟩ := List.mem_iff_getElem.1 f2
    have hj2' : u'[j2]? = some (.domain i2) := by rw [List.getElem?_eq_getElem hj2, ee]
    obtain ⟨i3, k1, k2, -⟩ := (s.inv.unis u' (List.mem_of_getElem? b1)).inst _ _ hj2'
    rw [f3, e1] at k1
    injection k1 with k1
    subst k1
    have : j2 = j := by rw [← k2, e2, a2]
    subst this
    rw [c1] at hj2'
    injection hj2' with hj2'
    injection hj2' with hj2'
    subst hj2'
    rw [hnone'] at f4; cases f4
  · intro m hm ht write tolerant
    unfold World.openTable
    rw [b1]
    simp only []
    by_cases hp : w'.poisoned = true
    · refine ⟨.poisoned, Or.inl rfl, ?_⟩
      have : w'.getId m.domain = .error .poisoned := by unfold World.getId; rw [if_pos hp]
      rw [this]
    · refine ⟨.noSuchTable, Or.inr rfl, ?_⟩
      have : w'.getId m.domain = .ok info'.id := by
        unfold World.getId
        rw [if_neg hp, hm, e1]
      rw [this]
      simp only []
      have hf : findTable u' info'.id m.name = .error .noSuchTable := by
        unfold findTable
        rw [e2, a2, c1]
        simp only []
        rw [ht, hnone']
      rw [hf]

theorem getDomains_locks {g : Globals V} (hg : GInv g) (names : List String) {ret u : List (MaybeDomain V)} {g' : Globals V}
    (h : g.getDomains ret names = .ok (u, g')) :
    (∀ n ∈ names, ∃ info, g'.domains.lookup n = some info ∧ info.locked = true) ∧
    ∀ n info, g.domains.lookup n = some info → info.locked = true → ∃ info', g'.domains.lookup n = some info' ∧ info'.locked = true := by
  induction names generalizing g ret with
  | nil =>
    injection h with h
    injection h with h1 h2
    subst h2
    exact ⟨by simp, fun n info h1 h2 => ⟨info, h1, h2⟩⟩
  | cons n names ih =>
    rw [Globals.getDomains] at h
    cases hl : g.domains.lookup n with
    | none => rw [hl] at h; cases h
    | some info =>
      obtain ⟨inst, a1, a2, -⟩ := instantiate_ok hg hl
      rw [hl] at h
      simp only [] at h
      rw [a1] at h
      replace h : (if info.id < ret.length then _ else _) = _ := h
      split at h
      · obtain ⟨b1, b2⟩ := ih (g := g.update n (fun i => { i with locked := true })) a2 h
        constructor
        · intro m hm
          rcases List.mem_cons.1 hm with rfl | hm
          · exact b2 m { info with locked := true } (by rw [update_lookup, hl]; simp) rfl
          · exact b1 m hm
        · intro m i hm hk
          refine b2 m (if m = n then { i with locked := true } else i) (by rw [update_lookup, hm]; rfl) ?_
          split <;> simp [hk]
      · cases h

/-- C98: making a universe locks its domains again, and so does adding a domain to a universe that lacks it; adding one
that it has does not. -/
theorem C98_relock (ops : List (LkOp decl)) (hp : (World.lkAfter decl ops : World P V).poisoned = false) :
    (∀ names k, ((World.lkAfter decl ops : World P V).newUniverse names).1 = .ok k →
      ∀ n ∈ names, ((World.lkAfter decl ops).newUniverse names).2.locked n = .ok true) ∧
    (∀ k n, k < (World.lkAfter decl ops : World P V).unis.length → (∃ b, (World.lkAfter decl ops : World P V).locked n = .ok b) →
      (¬ (World.lkAfter decl ops).hasDomain k n → ((World.lkAfter decl ops).addDomain k n).2.locked n = .ok true) ∧
      ((World.lkAfter decl ops).hasDomain k n → ((World.lkAfter decl ops).addDomain k n).2.locked n = (World.lkAfter decl ops).locked n)) := by
  have h := lkRun_inv (P := P) (V := V) ops
  generalize (World.lkAfter decl ops : World P V) = w at *
  constructor
  · intro names k hok n hn
    unfold World.newUniverse at hok ⊢
    rw [if_neg (by simp [hp])] at hok ⊢
    cases hg : w.g.getDomains (w.g.did2name.map .unset) names with
    | error p => rw [hg] at hok; cases hok
    | ok r =>
      obtain ⟨u, g'⟩ := r
      obtain ⟨info, a1, a2⟩ := (getDomains_locks h.g names hg).1 n hn
      simp only []
      split
      · unfold World.locked; simp only [hp]; rw [if_neg (by simp), a1]; simp [a2]
      · unfold World.locked; simp only [hp]; rw [if_neg (by simp), a1]; simp [a2]
  · intro k n hk hl
    have hu := List.getElem?_eq_getElem hk
    generalize w.unis[k] = u at hu
    have hU := h.unis u (List.mem_of_getElem? hu)
    obtain ⟨b, hb⟩ := hl
    have hinfo : ∃ info, w.g.domains.lookup n = some info := by
      unfold World.locked at hb
      rw [if_neg (by simp [hp])] at hb
      cases hx : w.g.domains.lookup n with
      | none => rw [hx] at hb; cases hb
      | some info => exact ⟨info, rfl⟩
    obtain ⟨info, hl⟩ := hinfo
    rw [hasDomain_l h hu hl]
    have hid : info.id < w.g.did2name.length := by
      have := h.g.ids _ _ hl
      by_contra hc
      rw [List.getElem?_eq_none (by omega)] at this; cases this
    have hsy : w.synced u = .ok (u ++ (w.g.did2name.drop u.length).map .unset) := by
      unfold World.synced
      rw [if_neg (by simp [hp]), if_pos hU.len]
    have hlt : info.id < (u ++ (w.g.did2name.drop u.length).map MaybeDomain.unset).length := by
      have := hU.len
      simp; omega
    have hdom : ∀ d, (u ++ (w.g.did2name.drop u.length).map MaybeDomain.unset)[info.id]? = some (.domain d) ↔ u[info.id]? = some (.domain d) := by
      intro d
      constructor
      · intro hx
        by_cases hlt : info.id < u.length
        · rwa [List.getElem?_append_left hlt] at hx
        · rw [List.getElem?_append_right (by omega), List.getElem?_map] at hx
          cases e : (w.g.did2name.drop u.length)[info.id - u.length]? with
          | none => rw [e] at hx; cases hx
          | some m => rw [e] at hx; simp at hx
      · exact fun h => prefix_get (List.prefix_append _ _) h
    unfold World.addDomain
    rw [hu]
    simp only []
    rw [hsy]
    simp only []
    have hgid : ({ w with unis := w.unis.set k (u ++ (w.g.did2name.drop u.length).map MaybeDomain.unset) } : World P V).getId n = .ok info.id := by
      unfold World.getId
      rw [if_neg (by simp [hp])]
      simp only []
      rw [hl]
    rw [hgid]
    simp only []
    constructor
    · intro hh
      rw [List.getElem?_eq_getElem hlt]
      simp only []
      have hns : (u ++ (w.g.did2name.drop u.length).map MaybeDomain.unset)[info.id].isSet = false := by
        cases e : (u ++ (w.g.did2name.drop u.length).map MaybeDomain.unset)[info.id] with
        | unset m => rfl
        | domain d =>
          have := (hdom d).1 (by rw [List.getElem?_eq_getElem hlt, e])
          exact absurd ⟨d, this, at_place h hu hl this⟩ hh
      rw [if_neg (by rw [hns]; exact Bool.false_ne_true)]
      obtain ⟨inst, a1, -⟩ := instantiate_ok h.g hl
      rw [a1]
      simp only []
      split
      · unfold World.locked; simp only [hp]; rw [if_neg (by simp), update_lookup, hl]; simp
      · unfold World.locked; simp only [hp]; rw [if_neg (by simp), update_lookup, hl]; simp
    · rintro ⟨d, hd, -⟩
      rw [(hdom d).2 hd]
      simp only []
      rw [if_pos (by rfl)]
      rfl

end V11

namespace V11.RegDemo

/-- The domain is used, unlocked, and given one more property and one more table. -/
def reopened : List (LkOp decl) :=
  [.call (.registerDomain "game"), .call (.registerProp 0), .call (.newUniverse ["game"]), .call (.set 0 0 (42 : Nat)),
   .setLocked "game" false, .call (.registerProp 2), .call (.registerTable ships)]

/-- C98: what follows. -/
example : (World.lkAfter decl reopened).poisoned = false ∧ Registers (2 : Fin 6) reopened ∧
    ((World.lkAfter decl reopened).get decl 0 2).1.toOption = none ∧
    ((World.lkAfter decl (reopened ++ [.call (.addProperties 0)])).get decl 0 2).1.toOption = some (3 : Nat) ∧
    ((World.lkAfter decl (reopened ++ [.call (.addProperties 0)])).get decl 0 0).1.toOption = some (42 : Nat) ∧
    ((World.lkAfter decl (reopened ++ [.call (.addProperties 0)])).openTable 0 ships false false).1.toOption = none ∧
    ((World.lkAfter decl (reopened ++ [.call (.newUniverse ["game"])])).openTable 1 ships false false).1.toOption = some () ∧
    (World.lkAfter decl reopened).locked "game" = .ok false :=
  ⟨rfl, by
    show ((ROp.registerProp 2 : ROp decl), true) ∈ _
    exact List.mem_cons_of_mem _ (List.mem_cons_of_mem _ (List.mem_cons_of_mem _ (List.mem_cons_of_mem _ List.mem_cons_self))), rfl, rfl, rfl, rfl, rfl, rfl⟩

end V11.RegDemo
