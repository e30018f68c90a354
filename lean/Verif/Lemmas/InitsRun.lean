import Verif.Lemmas.InitsWorld

/-!
# Every history with initialisers that do something
-/

set_option linter.unusedSimpArgs false
set_option linter.unusedSectionVars false
set_option linter.unusedVariables false

namespace V11
variable {Ty : Type} [DecidableEq Ty] {V : Ty → Type} {P : Type} [DecidableEq P] {decl : P → PropDecl V}
variable {inits : (p : P) → Recipe decl (decl p).ty}

/-! ## `add_properties` has nothing to do -/

theorem addMore_noop {busy : Option Nat} {e : EWorld decl} (ms done : List (MaybeDomain V))
    (h : ∀ d, .domain d ∈ ms → ∃ k info, InstOk e.w.g k d info) : EWorld.addMore inits busy e done ms = (.ok (), done ++ ms, e) := by
  induction ms generalizing done with
  | nil => simp [EWorld.addMore]
  | cons m ms ih =>
    cases m with
    | unset n =>
      rw [EWorld.addMore, ih _ (fun d hd => h d (by simp [hd]))]
      simp
    | domain d =>
      obtain ⟨k, info, hi⟩ := h d (by simp)
      rw [EWorld.addMore, hi.look]
      simp only []
      rw [List.drop_eq_nil_of_le (by rw [hi.full])]
      simp only [EWorld.produceMore]
      rw [ih _ (fun d hd => h d (by simp [hd]))]
      simp

theorem eaddProperties_noop {e : EWorld decl} (h : WInv decl e.w) (k : Nat) : EWorld.addProperties inits e k = ((e.w.addProperties k).1, e) := by
  unfold EWorld.addProperties
  have hno := addProperties_noop h k
  cases hk : e.w.unis[k]? with
  | none =>
    simp only []
    have : (e.w.addProperties k).1 = .error .vecOob := by unfold World.addProperties; rw [hk]
    rw [this]
  | some u =>
    simp only []
    cases hp : e.w.poisoned with
    | true =>
      have : (e.w.addProperties k).1 = .error .poisoned := by unfold World.addProperties; rw [hk]; simp [hp]
      rw [this]; rfl
    | false =>
      have hok : (e.w.addProperties k).1 = .ok () := hno.2.2 ⟨get_lt hk, hp⟩
      rw [hok, if_neg (by simp), addMore_noop u [] (by
        intro d hd
        obtain ⟨j, hj, hjd⟩ := List.mem_iff_getElem.1 hd
        have hu := h.unis u (List.mem_of_getElem? hk)
        obtain ⟨info, hi⟩ := hu.inst j d (by rw [List.getElem?_eq_getElem hj, hjd])
        exact ⟨j, info, hi⟩)]
      simp only [List.nil_append]
      have hset : e.w.unis.set k u = e.w.unis := by
        apply List.ext_getElem?
        intro j
        rw [List.getElem?_set]
        by_cases hj : k = j
        · subst hj; rw [if_pos rfl, if_pos (get_lt hk)]; exact hk.symm
        · simp [hj]
      rw [hset]

/-! ## Registering properties -/

theorem mem_firsts_find {α β : Type} [DecidableEq β] {f : α → β} {l : List α} {a : α} (h : a ∈ firsts f l) :
    l.find? (fun b => decide (f b = f a)) = some a := by
  induction l with
  | nil => cases h
  | cons x l ih =>
    rw [firsts] at h
    rcases List.mem_cons.1 h with rfl | h
    · simp
    · obtain ⟨h1, h2⟩ := List.mem_filter.1 h
      have : f x ≠ f a := fun hc => by simp [hc] at h2
      rw [List.find?_cons]
      simp only [this, decide_false]
      exact ih h1

theorem firstNamed_append {rs : List P} {p q : P} (h : ∃ r ∈ rs, (decl r).name = (decl q).name) :
    firstNamed (decl := decl) (rs ++ [p]) q = firstNamed (decl := decl) rs q := by
  unfold firstNamed
  rw [List.find?_append]
  cases hf : rs.find? (fun r => decide ((decl r).name = (decl q).name)) with
  | some r => rfl
  | none =>
    obtain ⟨r, hr, hn⟩ := h
    have := List.find?_eq_none.1 hf r hr
    simp [hn] at this

theorem lineup_append (rs : List P) (p : P) (n : String) :
    lineup (decl := decl) (rs ++ [p]) n = lineup (decl := decl) rs n ++ (if (decl p).domain = n then [firstNamed (decl := decl) (rs ++ [p]) p] else []) := by
  unfold lineup
  rw [List.filter_append, List.map_append]
  congr 1
  · apply List.map_congr_left
    intro q hq
    exact firstNamed_append ⟨q, (List.mem_filter.1 hq).1, rfl⟩
  · by_cases h : (decl p).domain = n <;> simp [h]

/-- A registration of a property that takes effect. -/
theorem registerProp_shape {w : World P V} {p : P} (hb : (w.registerProp decl p).1.isOk = true) (hidx : w.idx p = none) :
    ∃ info, w.poisoned = false ∧ w.g.domains.lookup (decl p).domain = some info ∧
          (w.registerProp decl p).2.g = ({ w.g with
              name2gid := if (w.g.name2gid.lookup (decl p).name).isSome then w.g.name2gid else w.g.name2gid ++ [((decl p).name, (w.g.name2gid.lookup (decl p).name).getD w.g.producers.length)]
              producers := if (w.g.name2gid.lookup (decl p).name).isSome then w.g.producers else w.g.producers ++ [⟨(decl p).ty, (decl p).init⟩] } : Globals V).update (decl p).domain
            (fun i => { i with
              name2did := if (i.name2did.lookup (decl p).name).isSome then i.name2did else i.name2did ++ [((decl p).name, (info.name2did.lookup (decl p).name).getD info.members.length)]
              members := i.members ++ [(w.g.name2gid.lookup (decl p).name).getD w.g.producers.length] }) := by
  unfold World.registerProp at hb ⊢
  split at hb
  · cases hb
  · rename_i hp
    simp only [if_neg hp, hidx] at hb ⊢
    split at hb
    · cases hb
    · rename_i eb
      split at hb
      · cases hb
      · rename_i info hl
        split at hb
        · cases hb
        · rename_i hlk
          refine ⟨info, by simpa using hp, hl, ?_⟩
          simp only [eb, hl, if_neg hlk]

/-- One that does not leaves the registry as it is. -/
theorem registerProp_idle {w : World P V} {p : P} (h : ¬ ((w.registerProp decl p).1.isOk = true ∧ (w.idx p).isNone = true)) :
    (w.registerProp decl p).2.g = w.g := by
  unfold World.registerProp at h ⊢
  split
  · rfl
  · rename_i hp
    rw [if_neg hp] at h
    split
    · rfl
    · rename_i hidx
      rw [hidx] at h
      simp only [] at h ⊢
      split
      · rfl
      · rename_i eb
        rw [eb] at h
        simp only [] at h
        split
        · rfl
        · rename_i info hl
          rw [hl] at h
          simp only [] at h
          split
          · rfl
          · rename_i hlk
            rw [if_neg hlk] at h
            exact absurd ⟨rfl, rfl⟩ h

theorem Roster.maker {g : Globals V} {makers rs : List P} (h : Roster decl g makers rs) {gid : Nat} {q : P} (hq : makers[gid]? = some q) :
    rs.find? (fun r => decide ((decl r).name = (decl q).name)) = some q := by
  refine mem_firsts_find (f := fun p => (decl p).name) ?_
  rw [← h.known]
  exact List.mem_of_getElem? hq

theorem Roster.named {g : Globals V} {makers rs : List P} (h : Roster decl g makers rs) {m : String} :
    (∃ gid, g.name2gid.lookup m = some gid) ↔ ∃ r ∈ rs, (decl r).name = m := by
  constructor
  · rintro ⟨gid, hg⟩
    obtain ⟨q, h1, h2⟩ := (h.gids m gid).1 hg
    have := mem_firsts (f := fun p => (decl p).name) (l := rs) (a := q) (by rw [← h.known]; exact List.mem_of_getElem? h1)
    exact ⟨q, this, h2⟩
  · rintro ⟨r, hr, hm⟩
    have : m ∈ (firsts (fun p => (decl p).name) rs).map (fun p => (decl p).name) := firsts_map_mem.2 (List.mem_map.2 ⟨r, hr, hm⟩)
    rw [← h.known] at this
    obtain ⟨q, hq, hqm⟩ := List.mem_map.1 this
    obtain ⟨gid, hlt, hgid⟩ := List.mem_iff_getElem.1 hq
    exact ⟨gid, (h.gids m gid).2 ⟨q, by rw [List.getElem?_eq_getElem hlt, hgid], hqm⟩⟩

theorem eregisterProp_inv {e : EWorld decl} {rs : List P} (he : EInv e rs) (p : P) :
    EInv (e.registerProp p).2 (rs ++ (if (e.registerProp p).1.isOk = true ∧ (e.w.idx p).isNone = true then [p] else [])) := by
  have hw := (registerProp_step he.w p).1
  by_cases h : (e.registerProp p).1.isOk = true ∧ (e.w.idx p).isNone = true
  · rw [if_pos h]
    obtain ⟨hok, hidx⟩ := h
    have hidx' : e.w.idx p = none := by simpa using hidx
    obtain ⟨info, hpo, hl, hg⟩ := registerProp_shape (w := e.w) (p := p) hok hidx'
    have hlen := he.len
    -- the makers
    have hmk : (e.registerProp p).2.makers = if (e.w.g.name2gid.lookup (decl p).name).isSome then e.makers else e.makers ++ [p] := by
      unfold EWorld.registerProp
      simp only []
      rw [hg]
      show (if (if (e.w.g.name2gid.lookup (decl p).name).isSome then e.w.g.producers else e.w.g.producers ++ [⟨(decl p).ty, (decl p).init⟩]).length = _ then _ else _) = _
      cases (e.w.g.name2gid.lookup (decl p).name).isSome <;> simp
    have hpr : (e.w.registerProp decl p).2.g.producers = if (e.w.g.name2gid.lookup (decl p).name).isSome then e.w.g.producers else e.w.g.producers ++ [⟨(decl p).ty, (decl p).init⟩] := by
      rw [hg]; rfl
    have hn2g : (e.w.registerProp decl p).2.g.name2gid = if (e.w.g.name2gid.lookup (decl p).name).isSome then e.w.g.name2gid
        else e.w.g.name2gid ++ [((decl p).name, (e.w.g.name2gid.lookup (decl p).name).getD e.w.g.producers.length)] := by rw [hg]; rfl
    have hlook : ∀ n, (e.w.registerProp decl p).2.g.domains.lookup n = (e.w.g.domains.lookup n).map (fun i => if n = (decl p).domain then ({ i with
              name2did := if (i.name2did.lookup (decl p).name).isSome then i.name2did else i.name2did ++ [((decl p).name, (info.name2did.lookup (decl p).name).getD info.members.length)]
              members := i.members ++ [(e.w.g.name2gid.lookup (decl p).name).getD e.w.g.producers.length] } : DomainInfo) else i) := by
      intro n
      rw [hg, update_lookup]
    generalize hgid : (e.w.g.name2gid.lookup (decl p).name).getD e.w.g.producers.length = gid at hn2g hlook
    -- facts about the new registry
    have hgids : ∀ m gid', (e.w.registerProp decl p).2.g.name2gid.lookup m = some gid' ↔ ∃ q, (e.registerProp p).2.makers[gid']? = some q ∧ (decl q).name = m := by
      intro m gid'
      rw [hn2g, hmk]
      cases hk : e.w.g.name2gid.lookup (decl p).name with
      | some x => simp only [Option.isSome_some, if_true]; exact he.roster.gids m gid'
      | none =>
        rw [hk] at hgid
        simp only [Option.getD_none] at hgid
        subst hgid
        simp only [Option.isSome_none, Bool.false_eq_true, if_false]
        rw [lookup_append]
        by_cases hm : m = (decl p).name
        · subst hm
          rw [hk, Option.none_or, List.lookup_cons]
          simp only [beq_self_eq_true]
          constructor
          · intro hh; injection hh with hh; subst hh
            exact ⟨p, by rw [← hlen]; simp, rfl⟩
          · rintro ⟨q, h1, h2⟩
            rw [List.getElem?_append] at h1
            split at h1
            · have := (he.roster.gids (decl p).name gid').2 ⟨q, h1, h2⟩
              rw [hk] at this; cases this
            · rename_i hge
              have : gid' - e.makers.length = 0 := by
                by_contra hc
                rw [List.getElem?_eq_none (by simp; omega)] at h1; cases h1
              congr 1; omega
        · have hne : (m == (decl p).name) = false := by simp [hm]
          rw [List.lookup_cons, hne]
          simp only [List.lookup_nil, Option.or_none]
          rw [he.roster.gids]
          constructor
          · rintro ⟨q, h1, h2⟩
            exact ⟨q, by rw [List.getElem?_append_left (get_lt h1)]; exact h1, h2⟩
          · rintro ⟨q, h1, h2⟩
            rw [List.getElem?_append] at h1
            split at h1
            · exact ⟨q, h1, h2⟩
            · have := List.mem_of_getElem? h1
              simp at this; subst this
              exact absurd h2.symm hm
    have hmine : (e.w.registerProp decl p).2.g.name2gid.lookup (decl p).name = some gid := by
      rw [hn2g]
      cases hk : e.w.g.name2gid.lookup (decl p).name with
      | some x => rw [hk] at hgid; simp at hgid; subst hgid; simp [hk]
      | none => simp [hk, lookup_append]
    have hknown : (e.registerProp p).2.makers = firsts (fun p => (decl p).name) (rs ++ [p]) := by
      rw [firsts_append, hmk, he.roster.known]
      cases hk : e.w.g.name2gid.lookup (decl p).name with
      | some x =>
        obtain ⟨r, hr, hrn⟩ := he.roster.named.1 ⟨x, hk⟩
        rw [if_pos (by rfl), if_pos (List.mem_map.2 ⟨r, hr, hrn⟩)]
      | none =>
        rw [if_neg (by simp), if_neg]
        intro hc
        obtain ⟨r, hr, hrn⟩ := List.mem_map.1 hc
        obtain ⟨x, hx⟩ := he.roster.named.2 ⟨r, hr, hrn⟩
        rw [hk] at hx; cases hx
    have hmk' : (e.registerProp p).2.makers[gid]? = some (firstNamed (decl := decl) (rs ++ [p]) p) := by
      obtain ⟨q, h1, h2⟩ := (hgids _ _).1 hmine
      rw [h1]
      unfold firstNamed
      have := mem_firsts_find (f := fun p => (decl p).name) (l := rs ++ [p]) (a := q) (by rw [← hknown]; exact List.mem_of_getElem? h1)
      rw [h2] at this
      rw [this]; rfl
    have hpre : e.makers <+: (e.registerProp p).2.makers := by
      rw [hmk]; cases (e.w.g.name2gid.lookup (decl p).name).isSome <;> simp
    have hold : ∀ gid' m, gid' < e.w.g.producers.length → (e.w.registerProp decl p).2.g.name2gid.lookup m = some gid' → e.w.g.name2gid.lookup m = some gid' := by
      intro gid' m hlt hm
      obtain ⟨q, h1, h2⟩ := (hgids m gid').1 hm
      refine (he.roster.gids m gid').2 ⟨q, ?_, h2⟩
      have h3 : gid' < e.makers.length := by omega
      have h4 : e.makers[gid']? = some e.makers[gid'] := List.getElem?_eq_getElem h3
      have := prefix_get hpre h4
      rw [h1] at this; rw [this, h4]
    have hfresh : ∀ j : Nat, info.name2did.lookup (decl p).name = none → info.members[j]? ≠ some gid := by
      intro j hn hc
      have hm := List.mem_of_getElem? hc
      have hlt := (he.w.g.info _ _ hl).mem gid hm
      have := he.roster.placed _ info gid (decl p).name hl hm (hold gid _ hlt hmine)
      rw [hn] at this; cases this
    refine ⟨hw, ?_, hknown, hgids, ?_, ?_, ?_, ?_⟩
    · show (e.w.registerProp decl p).2.g.producers = _
      rw [hpr, hmk]
      cases (e.w.g.name2gid.lookup (decl p).name).isSome <;> simp [he.makers]
    · intro n i hi
      change (e.w.registerProp decl p).2.g.domains.lookup n = some i at hi
      rw [hlook] at hi
      cases hi0 : e.w.g.domains.lookup n with
      | none => rw [hi0] at hi; cases hi
      | some i0 =>
        rw [hi0] at hi
        simp only [Option.map_some, Option.some.injEq] at hi
        have hbase : i0.members.map ((e.registerProp p).2.makers[·]?) = (lineup (decl := decl) rs n).map some := by
          rw [← he.roster.members n i0 hi0]
          apply List.map_congr_left
          intro x hx
          have hlt := (he.w.g.info _ _ hi0).mem x hx
          have h4 : e.makers[x]? = some e.makers[x] := List.getElem?_eq_getElem (by omega)
          rw [h4]; exact prefix_get hpre h4
        rw [lineup_append]
        by_cases hn : n = (decl p).domain
        · rw [if_pos hn] at hi
          rw [← hi, if_pos hn.symm]
          simp only [List.map_append, List.map_cons, List.map_nil]
          rw [hbase, hmk']
        · rw [if_neg hn] at hi
          rw [← hi, if_neg (Ne.symm hn), List.append_nil]
          exact hbase
    · intro n hn q hq
      change (e.w.registerProp decl p).2.g.domains.lookup n = none at hn
      rw [hlook, Option.map_eq_none_iff] at hn
      rcases List.mem_append.1 hq with hq | hq
      · exact he.roster.absent n hn q hq
      · simp at hq; subst hq
        rintro rfl
        rw [hl] at hn; cases hn
    · intro n i m d hi hd j hj
      change (e.w.registerProp decl p).2.g.domains.lookup n = some i at hi
      rw [hlook] at hi
      cases hi0 : e.w.g.domains.lookup n with
      | none => rw [hi0] at hi; cases hi
      | some i0 =>
        rw [hi0] at hi
        simp only [Option.map_some, Option.some.injEq] at hi
        by_cases hn : n = (decl p).domain
        · rw [if_pos hn] at hi
          rw [hn, hl] at hi0
          injection hi0 with hi0; subst hi0
          rw [← hi] at hd ⊢
          simp only [] at hd ⊢
          have oldcase : ∀ d, info.name2did.lookup m = some d → j < d → (info.members ++ [gid])[j]? ≠ (info.members ++ [gid])[d]? := by
            intro d hd hj
            obtain ⟨x, hx, -⟩ := (he.w.g.info _ _ hl).did m d hd
            have hlt := get_lt hx
            rw [List.getElem?_append_left (by omega), List.getElem?_append_left hlt]
            exact he.roster.first _ info m d hl hd j hj
          cases hk : info.name2did.lookup (decl p).name with
          | some x => rw [hk] at hd; exact oldcase d (by simpa using hd) hj
          | none =>
            rw [hk] at hd
            simp only [Option.isSome_none, Bool.false_eq_true, if_false, Option.getD_none] at hd
            rw [lookup_append] at hd
            cases hm : info.name2did.lookup m with
            | some x => rw [hm] at hd; injection hd with hd; subst hd; exact oldcase _ hm hj
            | none =>
              rw [hm, Option.none_or, List.lookup_cons] at hd
              split at hd
              · injection hd with hd; subst hd
                rw [List.getElem?_append_left hj]
                simp only [List.getElem?_concat_length]
                exact hfresh j hk
              · cases hd
        · rw [if_neg hn] at hi
          rw [← hi] at hd ⊢
          exact he.roster.first n i0 m d hi0 hd j hj
    · intro n i gid' m hi hmem hm
      change (e.w.registerProp decl p).2.g.domains.lookup n = some i at hi
      rw [hlook] at hi
      cases hi0 : e.w.g.domains.lookup n with
      | none => rw [hi0] at hi; cases hi
      | some i0 =>
        rw [hi0] at hi
        simp only [Option.map_some, Option.some.injEq] at hi
        have oldcase : gid' ∈ i0.members → (i0.name2did.lookup m).isSome = true := by
          intro hmem
          have hlt := (he.w.g.info _ _ hi0).mem gid' hmem
          exact he.roster.placed n i0 gid' m hi0 hmem (hold gid' m hlt hm)
        by_cases hn : n = (decl p).domain
        · rw [if_pos hn] at hi
          rw [← hi] at hmem ⊢
          simp only [] at hmem ⊢
          have hgrow : ∀ s, (i0.name2did.lookup s).isSome = true →
              ((if (i0.name2did.lookup (decl p).name).isSome then i0.name2did else i0.name2did ++ [((decl p).name, (info.name2did.lookup (decl p).name).getD info.members.length)]).lookup s).isSome = true := by
            intro s hs
            split
            · exact hs
            · rw [lookup_append]
              obtain ⟨y, hy⟩ := Option.isSome_iff_exists.1 hs
              rw [hy]; rfl
          rcases List.mem_append.1 hmem with hmem | hmem
          · exact hgrow m (oldcase hmem)
          · simp at hmem; subst hmem
            obtain ⟨q, h1, h2⟩ := (hgids _ _).1 hm
            obtain ⟨q', h3, h4⟩ := (hgids _ _).1 hmine
            rw [h1] at h3; injection h3 with h3; subst h3
            have : m = (decl p).name := by rw [← h2, h4]
            subst this
            cases hk : i0.name2did.lookup (decl p).name with
            | some x => simp [hk]
            | none => simp [hk, lookup_append]
        · rw [if_neg hn] at hi
          rw [← hi] at hmem ⊢
          exact oldcase hmem
  · rw [if_neg h, List.append_nil]
    have hg := registerProp_idle (w := e.w) (p := p) h
    have hmk : (e.registerProp p).2.makers = e.makers := by
      unfold EWorld.registerProp
      simp only [hg, if_true]
    refine ⟨hw, ?_, ?_⟩
    · show (e.w.registerProp decl p).2.g.producers = _
      rw [hg, hmk]; exact he.makers
    · show Roster decl (e.w.registerProp decl p).2.g _ _
      rw [hg, hmk]; exact he.roster

end V11
