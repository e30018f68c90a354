import Verif.Lemmas.InitsStep

/-!
# Processes that differ only in the values of properties
-/

set_option linter.unusedSimpArgs false
set_option linter.unusedSectionVars false
set_option linter.unusedVariables false

namespace V11
variable {Ty : Type} [DecidableEq Ty] {V : Ty → Type} {P : Type} [DecidableEq P] {decl : P → PropDecl V}

/-- The same process with other universes. -/
def World.withU (w : World P V) (us : List (List (MaybeDomain V))) : World P V := { w with unis := us }

theorem eq_withU {w w' : World P V} (h : w'.bare = w.bare) : w' = w.withU w'.unis ∧ w'.unis.map bareU = w.unis.map bareU := by
  have h1 : w'.g = w.g := by have := congrArg World.g h; exact this
  have h2 : w'.poisoned = w.poisoned := by have := congrArg World.poisoned h; exact this
  have h3 : w'.idx = w.idx := by have := congrArg World.idx h; exact this
  refine ⟨?_, unis_bare h⟩
  cases w'
  simp only at h1 h2 h3
  subst h1 h2 h3
  rfl

theorem withU_bare {w : World P V} {us us' : List (List (MaybeDomain V))} (h : us'.map bareU = us.map bareU) : (w.withU us').bare = (w.withU us).bare :=
  bare_ext rfl rfl rfl h

theorem registerDomain_withU (w : World P V) (us : List (List (MaybeDomain V))) (n : String) :
    (w.withU us).registerDomain n = ((w.registerDomain n).1, (w.registerDomain n).2.withU us) := by
  unfold World.registerDomain World.withU
  cases checkName n.toList with
  | error q => rfl
  | ok x =>
    simp only []
    by_cases hp : w.poisoned = true
    · rw [if_pos hp, if_pos hp]
    · rw [if_neg hp, if_neg hp]
      cases w.g.domains.lookup n <;> rfl

theorem registerProp_withU (w : World P V) (us : List (List (MaybeDomain V))) (p : P) :
    (w.withU us).registerProp decl p = ((w.registerProp decl p).1, (w.registerProp decl p).2.withU us) := by
  unfold World.registerProp World.withU
  simp only []
  by_cases hp : w.poisoned = true
  · rw [if_pos hp, if_pos hp]
  · rw [if_neg hp, if_neg hp]
    cases w.idx p with
    | some i => rfl
    | none =>
      simp only []
      cases checkPropName (decl p).domain.toList (decl p).name.toList with
      | error q => rfl
      | ok x =>
        simp only []
        cases w.g.domains.lookup (decl p).domain with
        | none => rfl
        | some info =>
          simp only []
          by_cases hl : info.locked = true
          · rw [if_pos hl, if_pos hl]; rfl
          · rw [if_neg hl, if_neg hl]

theorem registerTable_withU (w : World P V) (us : List (List (MaybeDomain V))) (t : GTable) :
    (w.withU us).registerTable t = ((w.registerTable t).1, (w.registerTable t).2.withU us) := by
  unfold World.registerTable World.withU
  cases t.build with
  | error q => rfl
  | ok x =>
    simp only []
    by_cases hp : w.poisoned = true
    · rw [if_pos hp, if_pos hp]
    · rw [if_neg hp, if_neg hp]
      cases w.g.domains.lookup t.domain with
      | none => rfl
      | some info =>
        simp only []
        by_cases hl : info.locked = true
        · rw [if_pos hl, if_pos hl]; rfl
        · rw [if_neg hl, if_neg hl]
          cases info.tables.lookup t.name with
          | none => rfl
          | some old =>
            simp only []
            by_cases he : t.equivalent old = true
            · rw [if_pos he, if_pos he]
            · rw [if_neg he, if_neg he]; rfl

theorem resolve_withU (w : World P V) (us : List (List (MaybeDomain V))) (p : P) :
    (w.withU us).resolve decl p = ((w.resolve decl p).1, (w.resolve decl p).2.withU us) := by
  unfold World.resolve
  show (match w.idx p with | some i => _ | none => _) = _
  cases w.idx p with
  | some i => rfl
  | none =>
    simp only []
    unfold World.syncAlias World.withU
    simp only []
    by_cases hp : w.poisoned = true
    · rw [if_pos hp, if_pos hp]
    · rw [if_neg hp, if_neg hp]
      cases w.g.domains.lookup (decl p).domain with
      | none => rfl
      | some info =>
        simp only []
        cases w.g.name2gid.lookup (decl p).name with
        | none => rfl
        | some gid =>
          simp only []
          cases info.name2did.lookup (decl p).name <;> rfl

theorem uni_pair {us us' : List (List (MaybeDomain V))} (h : us'.map bareU = us.map bareU) (k : Nat) :
    (us'[k]? = none ∧ us[k]? = none) ∨ ∃ u u', us[k]? = some u ∧ us'[k]? = some u' ∧ bareU u' = bareU u := by
  have := congrArg (fun l => l[k]?) h
  simp only [List.getElem?_map] at this
  cases h1 : us[k]? with
  | none => rw [h1] at this; simp at this; exact Or.inl ⟨by simpa using this, rfl⟩
  | some u =>
    rw [h1] at this
    cases h2 : us'[k]? with
    | none => rw [h2] at this; cases this
    | some u' => rw [h2] at this; simp at this; exact Or.inr ⟨u, u', rfl, rfl, this⟩

theorem set_pair {us us' : List (List (MaybeDomain V))} (h : us'.map bareU = us.map bareU) (k : Nat) {u u' : List (MaybeDomain V)} (hu : bareU u' = bareU u) :
    (us'.set k u').map bareU = (us.set k u).map bareU := by
  rw [List.map_set, List.map_set, h, hu]

theorem place_pair {u u' : List (MaybeDomain V)} (h : bareU u' = bareU u) (j : Nat) : (u'[j]?).map MaybeDomain.bare = (u[j]?).map MaybeDomain.bare := by
  have := congrArg (fun l => l[j]?) h
  unfold bareU at this
  simpa using this

theorem length_pair {u u' : List (MaybeDomain V)} (h : bareU u' = bareU u) : u'.length = u.length := by
  have := congrArg List.length h
  unfold bareU at this
  simpa using this

theorem isSet_pair {m m' : MaybeDomain V} (h : m'.bare = m.bare) : m'.isSet = m.isSet := by
  cases m <;> cases m' <;> first | rfl | cases h

/-- Two processes that differ only in values. -/
theorem newUniverse_same {w : World P V} {us : List (List (MaybeDomain V))} (h : us.map bareU = w.unis.map bareU) (ns : List String) :
    ((w.withU us).newUniverse ns).1 = (w.newUniverse ns).1 ∧ ((w.withU us).newUniverse ns).2.bare = (w.newUniverse ns).2.bare := by
  have hb : (w.withU us).bare = w.bare := bare_ext rfl rfl rfl h
  unfold World.newUniverse
  show (if w.poisoned then _ else _ : R Nat × World P V).1 = _ ∧ (if w.poisoned then _ else _ : R Nat × World P V).2.bare = _
  by_cases hp : w.poisoned = true
  · rw [if_pos hp, if_pos hp]; exact ⟨rfl, hb⟩
  · rw [if_neg hp, if_neg hp]
    show (match w.g.getDomains (w.g.did2name.map .unset) ns with | .error p => _ | .ok (u, g) => _ : R Nat × World P V).1 = _ ∧
      (match w.g.getDomains (w.g.did2name.map .unset) ns with | .error p => _ | .ok (u, g) => _ : R Nat × World P V).2.bare = _
    rcases w.g.getDomains (w.g.did2name.map .unset) ns with q | ⟨u, g⟩
    · exact ⟨rfl, bare_ext rfl rfl rfl h⟩
    · simp only []
      have hid : ∀ n, (({ w.withU us with g := g } : World P V)).getId n = ({ w with g := g } : World P V).getId n := fun _ => rfl
      have hd : ({ w.withU us with g := g } : World P V).initDomains u ns = ({ w with g := g } : World P V).initDomains u ns := by
        have a1 : ∀ (r : Reg) u, ({ w.withU us with g := g } : World P V).register u r = ({ w with g := g } : World P V).register u r := fun _ _ => rfl
        have a2 : ∀ (rs : List Reg) u, ({ w.withU us with g := g } : World P V).registerAll u rs = ({ w with g := g } : World P V).registerAll u rs := by
          intro rs
          induction rs with
          | nil => intro u; rfl
          | cons r rs ih => intro u; rw [World.registerAll, World.registerAll, a1]; rcases ({ w with g := g } : World P V).register u r with ⟨q, u1⟩; cases q <;> simp [ih]
        have a3 : ∀ n u, ({ w.withU us with g := g } : World P V).initDomain u n = ({ w with g := g } : World P V).initDomain u n := by
          intro n u; unfold World.initDomain; rw [hid]
          cases ({ w with g := g } : World P V).getId n with
          | error p => rfl
          | ok did =>
            simp only []
            cases u[did]? with
            | none => rfl
            | some m => cases m <;> simp [a2]
        clear hp
        induction ns generalizing u with
        | nil => rfl
        | cons n ns ih => rw [World.initDomains, World.initDomains, a3]; rcases ({ w with g := g } : World P V).initDomain u n with ⟨q, u1⟩; cases q <;> simp [ih]
      rw [hd]
      have hlen : us.length = w.unis.length := by simpa using congrArg List.length h
      rcases ({ w with g := g } : World P V).initDomains u ns with ⟨q, u1⟩
      cases q with
      | none =>
        refine ⟨?_, bare_ext rfl rfl rfl ?_⟩
        · show (Except.ok us.length : R Nat) = _; rw [hlen]
        · show (us ++ [u1]).map bareU = (w.unis ++ [u1]).map bareU
          rw [List.map_append, List.map_append, h]
      | some q => exact ⟨rfl, bare_ext rfl rfl rfl h⟩

theorem addDomain_same {w : World P V} {us : List (List (MaybeDomain V))} (h : us.map bareU = w.unis.map bareU) (k : Nat) (n : String) :
    ((w.withU us).addDomain k n).1 = (w.addDomain k n).1 ∧ ((w.withU us).addDomain k n).2.bare = (w.addDomain k n).2.bare := by
  have hb : (w.withU us).bare = w.bare := bare_ext rfl rfl rfl h
  unfold World.addDomain
  show (match us[k]? with | none => _ | some u => _ : R Unit × World P V).1 = _ ∧ (match us[k]? with | none => _ | some u => _ : R Unit × World P V).2.bare = _
  rcases uni_pair h k with ⟨h1, h2⟩ | ⟨u, u', h1, h2, hu⟩
  · rw [h1, h2]; exact ⟨rfl, hb⟩
  · rw [h1, h2]
    simp only []
    have hs : (w.withU us).synced u' = if w.poisoned then .error .poisoned else if u.length ≤ w.g.did2name.length then .ok (u' ++ (w.g.did2name.drop u.length).map .unset) else .error .vecOob := by
      unfold World.synced World.withU; simp only [length_pair hu]
    have hs' : w.synced u = if w.poisoned then .error .poisoned else if u.length ≤ w.g.did2name.length then .ok (u ++ (w.g.did2name.drop u.length).map .unset) else .error .vecOob := rfl
    rw [hs, hs']
    by_cases hp : w.poisoned = true
    · simp only [if_pos hp]; exact ⟨trivial, hb⟩
    · simp only [if_neg hp]
      by_cases hlen : u.length ≤ w.g.did2name.length
      · simp only [if_pos hlen]
        have hu1 : bareU (u' ++ (w.g.did2name.drop u.length).map MaybeDomain.unset) = bareU (u ++ (w.g.did2name.drop u.length).map MaybeDomain.unset) := by
          unfold bareU at hu ⊢; rw [List.map_append, List.map_append, hu]
        generalize u' ++ (w.g.did2name.drop u.length).map MaybeDomain.unset = x' at hu1
        generalize u ++ (w.g.did2name.drop u.length).map MaybeDomain.unset = x at hu1
        have hb1 : ({ (w.withU us) with unis := (w.withU us).unis.set k x' } : World P V).bare = ({ w with unis := w.unis.set k x } : World P V).bare :=
          bare_ext rfl rfl rfl (set_pair h k hu1)
        have hid : ({ (w.withU us) with unis := (w.withU us).unis.set k x' } : World P V).getId n = w.getId n := rfl
        have hid' : ({ w with unis := w.unis.set k x } : World P V).getId n = w.getId n := rfl
        rw [hid, hid']
        cases w.getId n with
        | error q => exact ⟨rfl, hb1⟩
        | ok id =>
          simp only []
          have hpl := place_pair hu1 id
          cases h3 : x[id]? with
          | none =>
            rw [h3] at hpl
            have : x'[id]? = none := by simpa using hpl
            rw [this]; exact ⟨rfl, hb1⟩
          | some m =>
            rw [h3] at hpl
            cases h4 : x'[id]? with
            | none => rw [h4] at hpl; cases hpl
            | some m' =>
              rw [h4] at hpl
              simp only [Option.map_some, Option.some.injEq] at hpl
              simp only [isSet_pair hpl]
              cases hm : m.isSet with
              | true => exact ⟨rfl, hb1⟩
              | false =>
                simp only [Bool.false_eq_true, if_false]
                show (match w.g.instantiate n with | .error p => _ | .ok (inst, g) => _ : R Unit × World P V).1 = _ ∧ (match w.g.instantiate n with | .error p => _ | .ok (inst, g) => _ : R Unit × World P V).2.bare = _
                rcases w.g.instantiate n with q | ⟨inst, g⟩
                · exact ⟨rfl, bare_ext rfl rfl rfl (set_pair h k hu1)⟩
                · simp only []
                  have hx : bareU (x'.set id (.domain inst)) = bareU (x.set id (.domain inst)) := by
                    unfold bareU at hu1 ⊢; rw [List.map_set, List.map_set, hu1]
                  have hii := initDomain_alike (w := (World.mk g w.poisoned w.idx (w.unis.set k x)))
                    (w' := (World.mk g (w.withU us).poisoned (w.withU us).idx ((w.withU us).unis.set k x'))) (fun _ => rfl) hx n
                  rcases e1 : (World.mk g w.poisoned w.idx (w.unis.set k x)).initDomain (x.set id (.domain inst)) n with ⟨q, y⟩
                  rcases e2 : (World.mk g (w.withU us).poisoned (w.withU us).idx ((w.withU us).unis.set k x')).initDomain (x'.set id (.domain inst)) n with ⟨q', y'⟩
                  rw [e1, e2] at hii
                  obtain ⟨rfl, hy⟩ := hii
                  have hsu : ((us.set k x').set k y').map bareU = ((w.unis.set k x).set k y).map bareU := set_pair (set_pair h k hu1) k hy
                  cases q' with
                  | none => exact ⟨rfl, bare_ext rfl rfl rfl hsu⟩
                  | some q => exact ⟨rfl, bare_ext rfl rfl rfl hsu⟩
      · simp only [if_neg hlen]; exact ⟨trivial, hb⟩

theorem addProperties_fst {w : World P V} (h : WInv decl w) (k : Nat) :
    (w.addProperties k).1 = match w.unis[k]? with | none => .error .vecOob | some _ => if w.poisoned then .error .poisoned else .ok () := by
  have hno := (addProperties_noop h k).2
  cases hk : w.unis[k]? with
  | none => unfold World.addProperties; rw [hk]
  | some u =>
    simp only []
    by_cases hp : w.poisoned = true
    · rw [if_pos hp]; unfold World.addProperties; rw [hk]; simp only []; rw [if_pos hp]
    · rw [if_neg hp]; exact hno.2 ⟨get_lt hk, by simpa using hp⟩

theorem addProperties_same {w : World P V} {us : List (List (MaybeDomain V))} (hw : WInv decl w) (hw' : WInv decl (w.withU us)) (h : us.map bareU = w.unis.map bareU) (k : Nat) :
    ((w.withU us).addProperties k).1 = (w.addProperties k).1 ∧ ((w.withU us).addProperties k).2.bare = (w.addProperties k).2.bare := by
  rw [(addProperties_noop hw k).1, (addProperties_noop hw' k).1, addProperties_fst hw, addProperties_fst hw']
  refine ⟨?_, bare_ext rfl rfl rfl h⟩
  show (match us[k]? with | none => _ | some u => _ : R Unit) = _
  rcases uni_pair h k with ⟨h1, h2⟩ | ⟨u, u', h1, h2, hu⟩
  · rw [h1, h2]
  · rw [h1, h2]; rfl

/-- Cells of the two: both there, and with the same type; or neither. -/
theorem cell_pair {w : World P V} {us : List (List (MaybeDomain V))} (hw : WInv decl w) (hw' : WInv decl (w.withU us)) {k : Nat} {u u' : List (MaybeDomain V)}
    (h1 : w.unis[k]? = some u) (h2 : us[k]? = some u') (hu : bareU u' = bareU u) {d : PropDecl V} {i : PIndex} (hi : IdxOk w.g d i) :
    (cellOf u i = .error .domainNotInUniverse ∧ cellOf u' i = .error .domainNotInUniverse) ∨ ∃ v v', cellOf u i = .ok v ∧ cellOf u' i = .ok v' ∧ v'.1 = v.1 := by
  have a := cellOf_inv (w := w) hw.g (hw.unis u (List.mem_of_getElem? h1)) hi
  have b := cellOf_inv (w := w.withU us) hw'.g (hw'.unis u' (List.mem_of_getElem? h2)) (d := d) (i := i) hi
  have hpl := place_pair hu i.domain
  rcases a with a | ⟨inst, v, a1, a2, a3, a4⟩
  · rcases b with b | ⟨inst', v', b1, b2, b3, b4⟩
    · exact Or.inl ⟨a, b⟩
    · rw [b1] at hpl
      exfalso
      cases hx : u[i.domain]? with
      | none => rw [hx] at hpl; cases hpl
      | some m =>
        rw [hx] at hpl
        cases m with
        | unset s => cases hpl
        | domain d0 =>
          unfold cellOf at a
          rw [hx] at a
          simp only [] at a
          cases hy : d0.props[i.did]? with
          | none => rw [hy] at a; cases a
          | some z => rw [hy] at a; cases a
  · rcases b with b | ⟨inst', v', b1, b2, b3, b4⟩
    · exfalso
      rw [a1] at hpl
      cases hx : u'[i.domain]? with
      | none => rw [hx] at hpl; cases hpl
      | some m =>
        rw [hx] at hpl
        cases m with
        | unset s => cases hpl
        | domain d0 =>
          unfold cellOf at b
          rw [hx] at b
          simp only [] at b
          cases hy : d0.props[i.did]? with
          | none => rw [hy] at b; cases b
          | some z => rw [hy] at b; cases b
    · refine Or.inr ⟨v, v', a3, b3, ?_⟩
      have e : (w.withU us).g.producers[i.gid]?.map Sigma.fst = w.g.producers[i.gid]?.map Sigma.fst := rfl
      rw [e, a4] at b4
      injection b4 with b4
      exact b4.symm

theorem downcast_fst {t : Ty} (v : Σ t, V t) : (∃ x, downcast t v = .ok x) ∧ v.1 = t ∨ downcast t v = .error .badDowncast ∧ v.1 ≠ t := by
  unfold downcast
  by_cases h : v.1 = t
  · left; rw [dif_pos h]; exact ⟨⟨_, rfl⟩, h⟩
  · right; rw [dif_neg h]; exact ⟨rfl, h⟩

theorem get_same {w : World P V} {us : List (List (MaybeDomain V))} (hw : WInv decl w) (hw' : WInv decl (w.withU us)) (h : us.map bareU = w.unis.map bareU) (k : Nat) (p : P) :
    ((w.withU us).get decl k p).1.map (fun _ => ()) = (w.get decl k p).1.map (fun _ => ()) ∧ ((w.withU us).get decl k p).2.bare = (w.get decl k p).2.bare := by
  unfold World.get
  show (match us[k]? with | none => _ | some u => _ : R (V (decl p).ty) × World P V).1.map _ = _ ∧ (match us[k]? with | none => _ | some u => _ : R (V (decl p).ty) × World P V).2.bare = _
  rcases uni_pair h k with ⟨h1, h2⟩ | ⟨u, u', h1, h2, hu⟩
  · rw [h1, h2]; exact ⟨rfl, bare_ext rfl rfl rfl h⟩
  · rw [h1, h2]
    simp only []
    rw [resolve_withU]
    obtain ⟨-, -, r3, r4, r5⟩ := resolve_step hw p
    rcases e : w.resolve decl p with ⟨r, w1⟩
    rw [e] at r3 r4 r5
    have hb1 : (w1.withU us).bare = w1.bare := bare_ext rfl rfl rfl (by show us.map bareU = w1.unis.map bareU; rw [h]; simp only at r3; rw [r3])
    cases r with
    | error q => exact ⟨rfl, hb1⟩
    | ok i =>
      simp only []
      rcases cell_pair hw hw' h1 h2 hu (r5 i rfl).1 with ⟨c1, c2⟩ | ⟨v, v', c1, c2, c3⟩
      · rw [c1, c2]; exact ⟨rfl, hb1⟩
      · rw [c1, c2]
        simp only []
        refine ⟨?_, hb1⟩
        rcases downcast_fst (t := (decl p).ty) v with ⟨⟨x, hx⟩, ht⟩ | ⟨hx, ht⟩
        · rcases downcast_fst (t := (decl p).ty) v' with ⟨⟨x', hx'⟩, ht'⟩ | ⟨hx', ht'⟩
          · rw [hx, hx']; rfl
          · exact absurd (c3.trans ht) ht'
        · rcases downcast_fst (t := (decl p).ty) v' with ⟨⟨x', hx'⟩, ht'⟩ | ⟨hx', ht'⟩
          · exact absurd (c3.symm.trans ht') ht
          · rw [hx, hx']

theorem swap_same {w : World P V} {us : List (List (MaybeDomain V))} (hw : WInv decl w) (hw' : WInv decl (w.withU us)) (h : us.map bareU = w.unis.map bareU) (k : Nat) (p : P)
    (val : V (decl p).ty) :
    ((w.withU us).swap decl k p val).1.map (fun _ => ()) = (w.swap decl k p val).1.map (fun _ => ()) ∧ ((w.withU us).swap decl k p val).2.bare = (w.swap decl k p val).2.bare := by
  unfold World.swap
  show (match us[k]? with | none => _ | some u => _ : R (V (decl p).ty) × World P V).1.map _ = _ ∧ (match us[k]? with | none => _ | some u => _ : R (V (decl p).ty) × World P V).2.bare = _
  rcases uni_pair h k with ⟨h1, h2⟩ | ⟨u, u', h1, h2, hu⟩
  · rw [h1, h2]; exact ⟨rfl, bare_ext rfl rfl rfl h⟩
  · rw [h1, h2]
    simp only []
    rw [resolve_withU]
    obtain ⟨-, -, r3, r4, r5⟩ := resolve_step hw p
    rcases e : w.resolve decl p with ⟨r, w1⟩
    rw [e] at r3 r4 r5
    simp only at r3
    have hun : us.map bareU = w1.unis.map bareU := by rw [h, r3]
    have hb1 : (w1.withU us).bare = w1.bare := bare_ext rfl rfl rfl hun
    cases r with
    | error q => exact ⟨rfl, hb1⟩
    | ok i =>
      simp only []
      rcases cell_pair hw hw' h1 h2 hu (r5 i rfl).1 with ⟨c1, c2⟩ | ⟨v, v', c1, c2, c3⟩
      · rw [c1, c2]; exact ⟨rfl, hb1⟩
      · rw [c1, c2]
        simp only []
        rcases downcast_fst (t := (decl p).ty) v with ⟨⟨x, hx⟩, ht⟩ | ⟨hx, ht⟩
        · rcases downcast_fst (t := (decl p).ty) v' with ⟨⟨x', hx'⟩, ht'⟩ | ⟨hx', ht'⟩
          · rw [hx, hx']
            refine ⟨rfl, bare_ext rfl rfl rfl ?_⟩
            exact set_pair hun k (by rw [putCell_bare, putCell_bare, hu])
          · exact absurd (c3.trans ht) ht'
        · rcases downcast_fst (t := (decl p).ty) v' with ⟨⟨x', hx'⟩, ht'⟩ | ⟨hx', ht'⟩
          · exact absurd (c3.symm.trans ht') ht
          · rw [hx, hx']; exact ⟨rfl, hb1⟩

theorem modTable_pair {u u' : List (MaybeDomain V)} (hu : bareU u' = bareU u) (did : Nat) (t : String) (f : TableInst → TableInst) :
    bareU (modTable u' did t f) = bareU (modTable u did t f) := by rw [← modTable_bare, ← modTable_bare, hu]

theorem findTable_pair {u u' : List (MaybeDomain V)} (hu : bareU u' = bareU u) (did : Nat) (t : String) : findTable u' did t = findTable u did t := by
  rw [← findTable_bare, ← findTable_bare u, hu]

theorem openTable_same {w : World P V} {us : List (List (MaybeDomain V))} (h : us.map bareU = w.unis.map bareU) (k : Nat) (m : GTable) (b t : Bool) :
    ((w.withU us).openTable k m b t).1 = (w.openTable k m b t).1 ∧ ((w.withU us).openTable k m b t).2.bare = (w.openTable k m b t).2.bare := by
  have hb : (w.withU us).bare = w.bare := bare_ext rfl rfl rfl h
  unfold World.openTable
  show (match us[k]? with | none => _ | some u => _ : R Unit × World P V).1 = _ ∧ (match us[k]? with | none => _ | some u => _ : R Unit × World P V).2.bare = _
  rcases uni_pair h k with ⟨h1, h2⟩ | ⟨u, u', h1, h2, hu⟩
  · rw [h1, h2]; exact ⟨rfl, hb⟩
  · rw [h1, h2]
    simp only []
    have hid : (w.withU us).getId m.domain = w.getId m.domain := rfl
    rw [hid]
    cases w.getId m.domain with
    | error q => exact ⟨rfl, hb⟩
    | ok did =>
      simp only []
      rw [findTable_pair hu]
      cases findTable u did m.name with
      | error q => exact ⟨rfl, hb⟩
      | ok x =>
        simp only []
        cases x.gt.convert m with
        | error q =>
          simp only []
          cases b with
          | true => exact ⟨trivial, bare_ext rfl rfl rfl (set_pair h k (modTable_pair hu _ _ _))⟩
          | false => exact ⟨trivial, hb⟩
        | ok y =>
          simp only []
          cases x.poisoned && !t with
          | true => exact ⟨rfl, hb⟩
          | false => exact ⟨rfl, hb⟩

theorem registerTracker_same {w : World P V} {us : List (List (MaybeDomain V))} (h : us.map bareU = w.unis.map bareU) (k : Nat) (r : Reg) :
    ((w.withU us).registerTracker k r).1 = (w.registerTracker k r).1 ∧ ((w.withU us).registerTracker k r).2.bare = (w.registerTracker k r).2.bare := by
  have hb : (w.withU us).bare = w.bare := bare_ext rfl rfl rfl h
  unfold World.registerTracker
  show (match us[k]? with | none => _ | some u => _ : R Unit × World P V).1 = _ ∧ (match us[k]? with | none => _ | some u => _ : R Unit × World P V).2.bare = _
  rcases uni_pair h k with ⟨h1, h2⟩ | ⟨u, u', h1, h2, hu⟩
  · rw [h1, h2]; exact ⟨rfl, hb⟩
  · rw [h1, h2]
    simp only []
    have e1 := register_bare (w := w) (w' := w) (fun _ => rfl) u r
    have e2 := register_bare (w := w.withU us) (w' := w) (fun _ => rfl) u' r
    rw [hu, e1] at e2
    rcases x1 : w.register u r with ⟨q, y⟩
    rcases x2 : (w.withU us).register u' r with ⟨q', y'⟩
    rw [x1, x2] at e2
    simp only [Prod.mk.injEq] at e2
    obtain ⟨rfl, hy⟩ := e2
    cases q with
    | none => exact ⟨rfl, bare_ext rfl rfl rfl (set_pair h k hy.symm)⟩
    | some q => exact ⟨rfl, bare_ext rfl rfl rfl (set_pair h k hy.symm)⟩

theorem panicWriting_same {w : World P V} {us : List (List (MaybeDomain V))} (h : us.map bareU = w.unis.map bareU) (k : Nat) (m : GTable) (t : Bool) :
    ((w.withU us).panicWriting k m t).1 = (w.panicWriting k m t).1 ∧ ((w.withU us).panicWriting k m t).2.bare = (w.panicWriting k m t).2.bare := by
  obtain ⟨a1, a2⟩ := openTable_same h k m true t
  unfold World.panicWriting
  rcases x1 : w.openTable k m true t with ⟨q, y⟩
  rcases x2 : (w.withU us).openTable k m true t with ⟨q', y'⟩
  rw [x1, x2] at a1 a2
  simp only at a1 a2
  subst a1
  cases q' with
  | error q => exact ⟨rfl, a2⟩
  | ok x =>
    simp only []
    obtain ⟨e1, e2⟩ := eq_withU a2
    have hid : y'.getId m.domain = y.getId m.domain := by rw [e1]; rfl
    rw [hid]
    rcases uni_pair e2 k with ⟨h1, h2⟩ | ⟨u, u', h1, h2, hu⟩
    · rw [h1, h2]; exact ⟨rfl, a2⟩
    · rw [h1, h2]
      cases y.getId m.domain with
      | error q => exact ⟨rfl, a2⟩
      | ok did =>
        refine ⟨rfl, bare_ext ?_ ?_ ?_ (set_pair e2 k (modTable_pair hu _ _ _))⟩
        · show y'.g = y.g; rw [e1]; rfl
        · show y'.poisoned = y.poisoned; rw [e1]; rfl
        · show y'.idx = y.idx; rw [e1]; rfl

/-- Every call has the same outcome in both, and leaves two such processes. -/
theorem step_same {w w' : World P V} (hw : WInv decl w) (hw' : WInv decl w') (h : w'.bare = w.bare) (op : ROp decl) :
    (w'.step decl op).1 = (w.step decl op).1 ∧ (w'.step decl op).2.bare = (w.step decl op).2.bare := by
  obtain ⟨he, hu⟩ := eq_withU h
  rw [he] at hw' ⊢
  generalize w'.unis = us at *
  have fix : ∀ x : World P V, x.unis = w.unis → (x.withU us).bare = x.bare := fun x hx => bare_ext rfl rfl rfl (by rw [hx]; exact hu)
  cases op with
  | registerDomain n =>
    show ((w.withU us).registerDomain n).1 = _ ∧ ((w.withU us).registerDomain n).2.bare = _
    rw [registerDomain_withU]; exact ⟨rfl, fix _ (registerDomain_step hw n).2.2⟩
  | registerProp p =>
    show ((w.withU us).registerProp decl p).1 = _ ∧ ((w.withU us).registerProp decl p).2.bare = _
    rw [registerProp_withU]; exact ⟨rfl, fix _ (registerProp_step hw p).2.2⟩
  | registerTable t =>
    show ((w.withU us).registerTable t).1 = _ ∧ ((w.withU us).registerTable t).2.bare = _
    rw [registerTable_withU]; exact ⟨rfl, fix _ (registerTable_step hw t).2.2⟩
  | newUniverse ns =>
    obtain ⟨a1, a2⟩ := newUniverse_same hu ns
    refine ⟨?_, a2⟩
    show ((w.withU us).newUniverse ns).1.map _ = (w.newUniverse ns).1.map _
    rw [a1]
  | addDomain k n => exact addDomain_same hu k n
  | addProperties k => exact addProperties_same hw hw' hu k
  | get k p => exact get_same hw hw' hu k p
  | set k p v =>
    obtain ⟨a1, a2⟩ := swap_same hw hw' hu k p v
    show ((w.withU us).set decl k p v).1 = (w.set decl k p v).1 ∧ ((w.withU us).set decl k p v).2.bare = (w.set decl k p v).2.bare
    rw [set_fst, set_fst, set_snd, set_snd]
    exact ⟨a1, a2⟩
  | swap k p v => exact swap_same hw hw' hu k p v
  | openTable k m b t => exact openTable_same hu k m b t
  | panicWriting k m t => exact panicWriting_same hu k m t
  | registerTracker k r => exact registerTracker_same hu k r

end V11
