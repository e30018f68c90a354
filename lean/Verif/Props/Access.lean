import Verif.Lemmas.Access
import Verif.Props.RegistryDemo

/-!
# Getting at the tables of a universe: C66, C67, C68, and when universes can be made (C45)
-/

set_option linter.unusedSimpArgs false
set_option linter.unusedSectionVars false
set_option linter.unusedVariables false

namespace V11

variable {Ty : Type} [DecidableEq Ty] {V : Ty → Type} {P : Type} [DecidableEq P] {decl : P → PropDecl V}

/-- Different modules have different types: no registered table of that domain but `m` itself has `m`'s types. -/
def OwnTypes (tr : List (ROp decl × Bool)) (m : GTable) : Prop := ∀ t ∈ tablesOf tr m.domain, t.ty = m.ty → t = m

/-! ## C66 -/

/-- C66: a module gets its table of a universe exactly if the registry is alive, the universe has the domain, the
module is the one whose registration under that name came first, and the table's lock is not poisoned or the caller
does not mind. -/
theorem C66_open (ops : List (ROp decl)) (k : Nat) (m : GTable) (write tolerant : Bool) (hm : OwnTypes (World.history decl ops) m) :
    ((World.after decl ops).openTable k m write tolerant).1 = .ok () ↔
      (World.after decl ops).poisoned = false ∧ (World.after decl ops).hasDomain k m.domain ∧ m ∈ tablesOf (World.history decl ops) m.domain ∧
      (tolerant = true ∨ ¬ (World.after decl ops).dead k m.domain m.name) := by
  have L := ledger (decl := decl) (P := P) (V := V) ops
  constructor
  · intro h
    obtain ⟨hp, x, hx⟩ := openTable_found L.inv (Or.inl h)
    obtain ⟨h1, h2⟩ := hasTable_registered L hx
    obtain ⟨u, did, a1, a2, a3, a4⟩ := openTable_eq L.inv hp hx write tolerant
    rw [show (World.after decl ops).openTable k m write tolerant = _ from a4] at h
    cases hc : x.gt.convert m with
    | error p => rw [hc] at h; cases h
    | ok y =>
      rw [hc] at h
      simp only [] at h
      have hmx := hm _ h1 (convert_ty hc)
      refine ⟨hp, hasTable_hasDomain hx, by rw [← hmx]; rw [hmx] at h1 ⊢; exact h1, ?_⟩
      cases tolerant with
      | true => exact Or.inl rfl
      | false =>
        right
        rintro ⟨y, hy, hdead⟩
        have := hasTable_unique L.inv hx hy
        subst this
        rw [hdead] at h
        cases h
  · rintro ⟨hp, hd, hmem, ht⟩
    obtain ⟨x, hx, hgt⟩ := hasTable_of L hd hmem
    obtain ⟨u, did, a1, a2, a3, a4⟩ := openTable_eq L.inv hp hx write tolerant
    rw [show (World.after decl ops).openTable k m write tolerant = _ from a4, hgt, convert_self (tablesOf_build hmem)]
    simp only []
    rw [if_neg]
    intro hc
    simp only [Bool.and_eq_true, Bool.not_eq_true'] at hc
    rcases ht with ht | ht
    · rw [hc.2] at ht; cases ht
    · exact ht ⟨x, hx, hc.1⟩

/-- C66: reading never changes anything, whether it returns or panics; and writing that returns does not either. -/
theorem C66_harmless (ops : List (ROp decl)) (k : Nat) (m : GTable) (write tolerant : Bool)
    (h : write = false ∨ ((World.after decl ops).openTable k m write tolerant).1 = .ok ()) :
    ((World.after decl ops).openTable k m write tolerant).2 = World.after decl ops := by
  have L := ledger (decl := decl) (P := P) (V := V) ops
  by_contra hc
  obtain ⟨hp, x, hx⟩ := openTable_found L.inv (Or.inr hc)
  obtain ⟨u, did, a1, a2, a3, a4⟩ := openTable_eq L.inv hp hx write tolerant
  rw [show (World.after decl ops).openTable k m write tolerant = _ from a4] at hc h
  cases e : x.gt.convert m with
  | ok y =>
    rw [e] at hc
    simp only [] at hc
    split at hc <;> exact hc rfl
  | error p =>
    rw [e] at hc h
    simp only [] at hc h
    rcases h with rfl | h
    · exact hc rfl
    · cases h

/-- C66: two `table!`s with the same domain, name and columns both register, but locking the table of a universe
through the second for writing panics and poisons the lock for the first as well. -/
theorem C66_twin (ops : List (ROp decl)) (k : Nat) (m t : GTable) (tolerant : Bool)
    (ht : t ∈ tablesOf (World.history decl ops) m.domain) (hn : t.name = m.name) (hty : t.ty ≠ m.ty)
    (hp : (World.after decl ops).poisoned = false) (hd : (World.after decl ops).hasDomain k m.domain) :
    (∃ e, ((World.after decl ops).openTable k m true tolerant).1 = .error e) ∧
    ((World.after decl ops).openTable k m true tolerant).2.dead k t.domain t.name := by
  have L := ledger (decl := decl) (P := P) (V := V) ops
  have htd := mem_tables_domain ht
  obtain ⟨x, hx, hgt⟩ := hasTable_of L hd ht
  rw [hn] at hx
  obtain ⟨u, did, a1, a2, a3, a4⟩ := openTable_eq L.inv hp hx true tolerant
  rw [show (World.after decl ops).openTable k m true tolerant = _ from a4]
  obtain ⟨-, info, hl, rfl⟩ := getId_ok a2
  cases e : x.gt.convert m with
  | ok y => exact absurd (convert_ty e) (by rw [hgt]; exact hty)
  | error p =>
    refine ⟨⟨p, rfl⟩, x.poison, ?_, rfl⟩
    simp only [if_true]
    rw [hasTable_modTable L.inv a1 hl (f := TableInst.poison) (fun _ => rfl), htd, hn]
    exact ⟨x, hx, by simp⟩

/-- What one call does to the tables that are there: they stay, and locks that are poisoned stay so. -/
theorem step_tables {w : World P V} (h : WInv decl w) (op : ROp decl) {k : Nat} {d t : String} {x : TableInst} (hx : w.hasTable k d t x) :
    ∃ x', (w.step decl op).2.hasTable k d t x' ∧ x'.gt = x.gt ∧ (x.poisoned = true → x'.poisoned = true) := by
  obtain ⟨u, i, hk, hi, hn, ht⟩ := id hx
  obtain ⟨j, hj⟩ := domain_at hi
  -- a universe whose tables change like this is enough
  have key : ∀ u' : List (MaybeDomain V), (w.step decl op).2.unis[k]? = some u' →
      (∃ i' x', u'[j]? = some (.domain i') ∧ i'.name = d ∧ i'.tables.lookup t = some x' ∧ x'.gt = x.gt ∧ (x.poisoned = true → x'.poisoned = true)) →
      ∃ x', (w.step decl op).2.hasTable k d t x' ∧ x'.gt = x.gt ∧ (x.poisoned = true → x'.poisoned = true) := by
    rintro u' hu' ⟨i', x', b1, b2, b3, b4, b5⟩
    exact ⟨x', ⟨u', i', hu', List.mem_of_getElem? b1, b2, b3⟩, b4, b5⟩
  have same : (w.step decl op).2.unis[k]? = some u → ∃ x', (w.step decl op).2.hasTable k d t x' ∧ x'.gt = x.gt ∧ (x.poisoned = true → x'.poisoned = true) :=
    fun hu' => key u hu' ⟨i, x, hj, hn, ht, rfl, id⟩
  -- modifying one table
  have mod : ∀ (u0 : List (MaybeDomain V)) (did : Nat) (table : String) (f : TableInst → TableInst) (i0 : Instance V) (x0 : TableInst),
      (∀ y, (f y).gt = y.gt ∧ (y.poisoned = true → (f y).poisoned = true)) → u0[j]? = some (.domain i0) → i0.name = d → i0.tables.lookup t = some x0 →
      ∃ i' x', (modTable u0 did table f)[j]? = some (.domain i') ∧ i'.name = d ∧ i'.tables.lookup t = some x' ∧ x'.gt = x0.gt ∧ (x0.poisoned = true → x'.poisoned = true) := by
    intro u0 did table f i0 x0 hf h1 h2 h3
    unfold modTable
    rw [List.getElem?_modify, h1]
    by_cases e : did = j
    · refine ⟨i0.modTable table f, if t = table then f x0 else x0, by simp [e], h2, ?_, ?_, ?_⟩
      · rw [modTable_lookup, h3]; rfl
      · split
        · exact (hf _).1
        · rfl
      · split
        · exact (hf _).2
        · exact id
    · exact ⟨i0, x0, by simp [e], h2, h3, rfl, id⟩
  have reg : ∀ (w0 : World P V) (u0 : List (MaybeDomain V)) (r : Reg) (i0 : Instance V) (x0 : TableInst),
      u0[j]? = some (.domain i0) → i0.name = d → i0.tables.lookup t = some x0 →
      ∃ i' x', (w0.register u0 r).2[j]? = some (.domain i') ∧ i'.name = d ∧ i'.tables.lookup t = some x' ∧ x'.gt = x0.gt ∧ (x0.poisoned = true → x'.poisoned = true) := by
    intro w0 u0 r i0 x0 h1 h2 h3
    have hu0 : ∃ i' x', u0[j]? = some (.domain i') ∧ i'.name = d ∧ i'.tables.lookup t = some x' ∧ x'.gt = x0.gt ∧ (x0.poisoned = true → x'.poisoned = true) :=
      ⟨i0, x0, h1, h2, h3, rfl, id⟩
    unfold World.register
    cases w0.getId r.domain with
    | error p => exact hu0
    | ok did =>
      simp only []
      cases findTable u0 did r.table with
      | error p => exact hu0
      | ok t0 =>
        simp only []
        split
        · exact hu0
        · split
          · exact mod _ _ _ TableInst.poison _ _ (fun _ => ⟨rfl, fun _ => rfl⟩) h1 h2 h3
          · split
            · exact mod _ _ _ (fun t => { t with trackers := t.trackers ++ [r.tracker] }) _ _ (fun _ => ⟨rfl, id⟩) h1 h2 h3
            · exact mod _ _ _ TableInst.poison _ _ (fun _ => ⟨rfl, fun _ => rfl⟩) h1 h2 h3
  have regs : ∀ (w0 : World P V) (rs : List Reg) (u0 : List (MaybeDomain V)) (i0 : Instance V) (x0 : TableInst),
      u0[j]? = some (.domain i0) → i0.name = d → i0.tables.lookup t = some x0 →
      ∃ i' x', (w0.registerAll u0 rs).2[j]? = some (.domain i') ∧ i'.name = d ∧ i'.tables.lookup t = some x' ∧ x'.gt = x0.gt ∧ (x0.poisoned = true → x'.poisoned = true) := by
    intro w0 rs
    induction rs with
    | nil => intro u0 i0 x0 h1 h2 h3; exact ⟨i0, x0, h1, h2, h3, rfl, id⟩
    | cons r rs ih =>
      intro u0 i0 x0 h1 h2 h3
      unfold World.registerAll
      have hr := reg w0 u0 r i0 x0 h1 h2 h3
      rcases e : w0.register u0 r with ⟨p, u1⟩
      rw [e] at hr
      cases p with
      | some p => exact hr
      | none =>
        obtain ⟨i1, x1, c1, c2, c3, c4, c5⟩ := hr
        obtain ⟨i2, x2, d1, d2, d3, d4, d5⟩ := ih u1 i1 x1 c1 c2 c3
        exact ⟨i2, x2, d1, d2, d3, d4.trans c4, fun h => d5 (c5 h)⟩
  have touch : ∀ w' : World P V, (w' = w ∨ ∃ k0 u0 did table f, w.unis[k0]? = some u0 ∧
      (∀ y : TableInst, (f y).gt = y.gt ∧ (y.poisoned = true → (f y).poisoned = true)) ∧ w' = { w with unis := w.unis.set k0 (modTable u0 did table f) }) →
      (w.step decl op).2 = w' → ∃ x', (w.step decl op).2.hasTable k d t x' ∧ x'.gt = x.gt ∧ (x.poisoned = true → x'.poisoned = true) := by
    intro w' hw' e
    rcases hw' with rfl | ⟨k0, u0, did, table, f, h1, h2, rfl⟩
    · exact same (by rw [e]; exact hk)
    · by_cases ek : k0 = k
      · subst ek
        rw [hk] at h1
        injection h1 with h1
        subst h1
        refine key (modTable u did table f) ?_ (mod u did table f i x h2 hj hn ht)
        rw [e]
        show (w.unis.set k0 _)[k0]? = _
        rw [List.getElem?_set, if_pos rfl, if_pos (get_lt hk)]
      · refine same ?_
        rw [e]
        show (w.unis.set k0 _)[k]? = _
        rw [List.getElem?_set_ne ek]
        exact hk
  have cell : ∀ (k0 : Nat) (p : P) (v : V (decl p).ty), (w.step decl op).2 = (w.swap decl k0 p v).2 →
      ∃ x', (w.step decl op).2.hasTable k d t x' ∧ x'.gt = x.gt ∧ (x.poisoned = true → x'.poisoned = true) := by
    intro k0 p v e
    rcases (swap_step h k0 p v).2.2.2 with ⟨_, -, hu⟩ | ⟨u0, i0, old, h1, -, -, -, -, -, hu⟩
    · exact same (by rw [e, hu]; exact hk)
    · by_cases ek : k0 = k
      · subst ek
        rw [hk] at h1
        injection h1 with h1
        subst h1
        refine key (putCell u i0 ⟨_, v⟩) ?_ ?_
        · rw [e, hu, List.getElem?_set, if_pos rfl, if_pos (get_lt hk)]
        · unfold putCell
          rw [List.getElem?_modify, hj]
          by_cases ei : i0.domain = j
          · exact ⟨{ i with props := i.props.set i0.did ⟨_, v⟩ }, x, by simp [ei], hn, ht, rfl, id⟩
          · exact ⟨i, x, by simp [ei], hn, ht, rfl, id⟩
      · exact same (by rw [e, hu, List.getElem?_set_ne ek]; exact hk)
  cases op with
  | registerDomain n => exact same (by rw [show (w.step decl (.registerDomain n)).2.unis = w.unis from (registerDomain_step h n).2.2]; exact hk)
  | registerProp p => exact same (by rw [show (w.step decl (.registerProp p)).2.unis = w.unis from (registerProp_step h p).2.2]; exact hk)
  | registerTable t => exact same (by rw [show (w.step decl (.registerTable t)).2.unis = w.unis from (registerTable_step h t).2.2]; exact hk)
  | newUniverse ns =>
    rcases (newUniverse_step h ns).2.2 with e | ⟨u1, e⟩
    · exact same (by rw [show (w.step decl (.newUniverse ns)).2.unis = w.unis from e]; exact hk)
    · refine same ?_
      rw [show (w.step decl (.newUniverse ns)).2.unis = w.unis ++ [u1] from e, List.getElem?_append_left (get_lt hk)]
      exact hk
  | addDomain k0 n =>
    show ∃ x', (w.addDomain k0 n).2.hasTable k d t x' ∧ _
    change ∀ u' : List (MaybeDomain V), (w.addDomain k0 n).2.unis[k]? = some u' → _ at key
    change (w.addDomain k0 n).2.unis[k]? = some u → _ at same
    cases hk0 : w.unis[k0]? with
    | none =>
      refine same ?_
      unfold World.addDomain
      rw [hk0]; exact hk
    | some u0 =>
      by_cases hp : w.poisoned = true
      · refine same ?_
        unfold World.addDomain
        rw [hk0]
        simp only [World.synced]
        rw [if_pos hp]; exact hk
      · have hp : w.poisoned = false := by simpa using hp
        have hpad : ∀ (g : Globals V) (u1 : List (MaybeDomain V)) (w1 : World P V), w1.unis = (w.unis.set k0 (w.padded u0)).set k0 u1 →
            w1 = (w.addDomain k0 n).2 → (k0 = k → ∃ i' x', u1[j]? = some (.domain i') ∧ i'.name = d ∧ i'.tables.lookup t = some x' ∧ x'.gt = x.gt ∧
              (x.poisoned = true → x'.poisoned = true)) → ∃ x', (w.addDomain k0 n).2.hasTable k d t x' ∧ x'.gt = x.gt ∧ (x.poisoned = true → x'.poisoned = true) := by
          intro g u1 w1 e1 e2 e3
          subst e2
          by_cases ek : k0 = k
          · subst ek
            refine key u1 ?_ (e3 rfl)
            rw [e1, List.getElem?_set, if_pos rfl, if_pos (by simpa using get_lt hk)]
          · refine same ?_
            rw [e1, List.getElem?_set_ne ek, List.getElem?_set_ne ek]
            exact hk
        have hu0 : k0 = k → (w.padded u0)[j]? = some (.domain i) := by
          rintro rfl
          rw [hk] at hk0
          injection hk0 with hk0
          subst hk0
          exact padded_domain.2 hj
        have hset : ∀ u1 : List (MaybeDomain V), (w.unis.set k0 u1) = (w.unis.set k0 (w.padded u0)).set k0 u1 := by
          intro u1; rw [List.set_set]
        cases hl : w.g.domains.lookup n with
        | none =>
          refine hpad w.g (w.padded u0) _ ?_ rfl ?_
          · unfold World.addDomain
            rw [hk0]
            simp only []
            rw [synced_eq h hp hk0]
            simp only []
            have : ({ w with unis := w.unis.set k0 (w.padded u0) } : World P V).getId n = .error .noSuchDomain := by
              unfold World.getId
              rw [if_neg (by simp [hp])]
              simp only []
              rw [hl]
            rw [this]
            simp only []
            rw [List.set_set]
          · intro e; exact ⟨i, x, hu0 e, hn, ht, rfl, id⟩
        | some info =>
          by_cases hd : ∃ d', u0[info.id]? = some (.domain d')
          · obtain ⟨d', hd⟩ := hd
            refine hpad w.g (w.padded u0) _ ?_ rfl ?_
            · rw [addDomain_there h hp hk0 hl hd, List.set_set]
            · intro e; exact ⟨i, x, hu0 e, hn, ht, rfl, id⟩
          · obtain ⟨inst, w0, e0, a1, a2, a3, a4, a5, a6, a7, a8⟩ := addDomain_new h hp hk0 hl (fun d' h' => hd ⟨d', h'⟩)
            refine hpad w.g (w0.initDomain ((w.padded u0).set info.id (.domain inst)) n).2 _ ?_ rfl ?_
            · rw [a8, e0]
            · intro e
              have hne : info.id ≠ j := by
                intro e2
                refine hd ⟨i, ?_⟩
                rw [e2]
                exact padded_domain.1 (hu0 e)
              have hj2 : ((w.padded u0).set info.id (.domain inst))[j]? = some (.domain i) := by
                rw [List.getElem?_set_ne hne]; exact hu0 e
              unfold World.initDomain
              split
              · exact ⟨i, x, hj2, hn, ht, rfl, id⟩
              · split
                · exact regs _ _ _ _ _ hj2 hn ht
                · exact ⟨i, x, hj2, hn, ht, rfl, id⟩
                · exact ⟨i, x, hj2, hn, ht, rfl, id⟩
  | addProperties k0 =>
    refine same ?_
    show (w.addProperties k0).2.unis[k]? = some u
    rw [(addProperties_noop h k0).1]; exact hk
  | get k0 p => exact same (by rw [show (w.step decl (.get k0 p)).2.unis = w.unis from (get_step h k0 p).2.2.1]; exact hk)
  | set k0 p v => exact cell k0 p v (set_snd k0 p v)
  | swap k0 p v => exact cell k0 p v rfl
  | openTable k0 m b tol => exact touch _ (openTable_touch w k0 m b tol) rfl
  | panicWriting k0 m tol => exact touch _ (panicWriting_touch w k0 m tol) rfl
  | registerTracker k0 r => exact touch _ (registerTracker_touch w k0 r) rfl

/-- C66: a poisoned lock stays so, whatever the program does. -/
theorem C66_forever (ops more : List (ROp decl)) (k : Nat) (d t : String) (h : (World.after decl ops).dead k d t) :
    (World.after decl (ops ++ more)).dead k d t := by
  rw [show World.after decl (ops ++ more) = (World.after decl ops).run decl more from run_append _ _ _]
  have hw := (run_inv (decl := decl) (WInv.empty (P := P) (V := V)) ops).1
  change WInv decl (World.after decl ops) at hw
  generalize World.after decl ops = w at h hw
  induction more generalizing w with
  | nil => exact h
  | cons op more ih =>
    refine ih _ ?_ (step_inv hw op).1
    obtain ⟨x, hx, hd⟩ := h
    obtain ⟨x', a1, -, a3⟩ := step_tables hw op hx
    exact ⟨x', a1, a3 hd⟩

/-! ### What poisons a table's lock -/

/-- Registering this tracker on the table cannot work. -/
def Reg.wrong (r : Reg) (gt : GTable) : Prop := gt.ty ≠ r.ty ∨ r.consistent = false

theorem register_dead {w : World P V} {u : List (MaybeDomain V)} {r : Reg} {j : Nat} {t : String} {x' : TableInst}
    (hx : tableAt (w.register u r).2 j t = some x') :
    ∃ x, tableAt u j t = some x ∧ x'.gt = x.gt ∧ (x'.poisoned = true → x.poisoned = true ∨
      ((w.register u r).1 ≠ none ∧ w.getId r.domain = .ok j ∧ r.table = t ∧ r.wrong x.gt)) := by
  unfold World.register at hx ⊢
  cases hid : w.getId r.domain with
  | error p => rw [hid] at hx; exact ⟨x', hx, rfl, Or.inl⟩
  | ok did =>
    rw [hid] at hx
    simp only [] at hx ⊢
    cases ht : findTable u did r.table with
    | error p => rw [ht] at hx; exact ⟨x', hx, rfl, Or.inl⟩
    | ok y =>
      rw [ht] at hx
      simp only [] at hx ⊢
      have hy := findTable_tableAt.1 ht
      have poison : y.poisoned = false → r.wrong y.gt → tableAt (modTable u did r.table TableInst.poison) j t = some x' → ∀ p : Panic,
          ∃ x, tableAt u j t = some x ∧ x'.gt = x.gt ∧ (x'.poisoned = true → x.poisoned = true ∨
            (some p ≠ none ∧ (.ok did : R Nat) = .ok j ∧ r.table = t ∧ r.wrong x.gt)) := by
        intro hyp hw hx p
        rw [modTable_at] at hx
        obtain ⟨x, h1, rfl⟩ := Option.map_eq_some_iff.1 hx
        refine ⟨x, h1, by split <;> rfl, ?_⟩
        by_cases e : j = did ∧ t = r.table
        · obtain ⟨rfl, rfl⟩ := e
          rw [h1] at hy
          injection hy with hy
          subst hy
          exact fun _ => Or.inr ⟨by simp, rfl, rfl, hw⟩
        · rw [if_neg e]; exact Or.inl
      by_cases hp : y.poisoned = true
      · rw [if_pos hp] at hx; exact ⟨x', hx, rfl, Or.inl⟩
      · have hp' : y.poisoned = false := by simpa using hp
        rw [if_neg hp] at hx ⊢
        by_cases hty : y.gt.ty ≠ r.ty
        · rw [if_pos hty] at hx ⊢
          exact poison hp' (Or.inl hty) hx _
        · rw [if_neg hty] at hx ⊢
          by_cases hc : r.consistent = true
          · rw [if_pos hc] at hx ⊢
            rw [modTable_at] at hx
            obtain ⟨x, h1, rfl⟩ := Option.map_eq_some_iff.1 hx
            refine ⟨x, h1, by split <;> rfl, ?_⟩
            intro h; left
            split at h <;> exact h
          · rw [if_neg hc] at hx ⊢
            exact poison hp' (Or.inr (by simpa using hc)) hx _

theorem registerAll_dead {w : World P V} (rs : List Reg) {u : List (MaybeDomain V)} {j : Nat} {t : String} {x' : TableInst}
    (hx : tableAt (w.registerAll u rs).2 j t = some x') :
    ∃ x, tableAt u j t = some x ∧ x'.gt = x.gt ∧ (x'.poisoned = true → x.poisoned = true ∨
      ((w.registerAll u rs).1 ≠ none ∧ ∃ r ∈ rs, w.getId r.domain = .ok j ∧ r.table = t ∧ r.wrong x.gt)) := by
  induction rs generalizing u with
  | nil => exact ⟨x', hx, rfl, Or.inl⟩
  | cons r rs ih =>
    unfold World.registerAll at hx ⊢
    have hr := fun x' => register_dead (w := w) (u := u) (r := r) (j := j) (t := t) (x' := x')
    rcases e : w.register u r with ⟨p, u1⟩
    rw [e] at hx hr
    cases p with
    | some p =>
      obtain ⟨x, h1, h2, h3⟩ := hr _ hx
      exact ⟨x, h1, h2, fun h => (h3 h).imp id (fun h => ⟨h.1, r, by simp, h.2⟩)⟩
    | none =>
      simp only [] at hx ⊢
      obtain ⟨x1, h1, h2, h3⟩ := ih hx
      obtain ⟨x, b1, b2, b3⟩ := hr _ h1
      refine ⟨x, b1, h2.trans b2, ?_⟩
      intro h
      rcases h3 h with h | ⟨h4, r', h5, h6, h7, h8⟩
      · rcases b3 h with h | h
        · exact Or.inl h
        · exact absurd rfl h.1
      · exact Or.inr ⟨h4, r', by simp [h5], h6, h7, by rw [← b2]; exact h8⟩

theorem initDomain_dead {w : World P V} (hg : GInv w.g) {u : List (MaybeDomain V)} (hu : UOk w.g u) {n : String} {j : Nat} {t : String} {x' : TableInst}
    (hx : tableAt (w.initDomain u n).2 j t = some x') :
    ∃ x, tableAt u j t = some x ∧ x'.gt = x.gt ∧ (x'.poisoned = true → x.poisoned = true ∨
      ((w.initDomain u n).1 ≠ none ∧ ∃ r ∈ w.g.declared n, w.getId r.domain = .ok j ∧ r.table = t ∧ r.wrong x.gt)) := by
  unfold World.initDomain at hx ⊢
  cases hid : w.getId n with
  | error p => rw [hid] at hx; exact ⟨x', hx, rfl, Or.inl⟩
  | ok did =>
    rw [hid] at hx
    simp only [] at hx ⊢
    cases hd : u[did]? with
    | none => rw [hd] at hx; exact ⟨x', hx, rfl, Or.inl⟩
    | some m =>
      rw [hd] at hx
      cases m with
      | unset _ => exact ⟨x', hx, rfl, Or.inl⟩
      | domain d =>
        simp only [] at hx ⊢
        obtain ⟨-, info, hl, rfl⟩ := getId_ok hid
        obtain ⟨info', hi⟩ := hu.inst _ _ hd
        have hn : d.name = n := hg.id_inj hi.look hl (by rw [hi.id])
        have hdecl : d.inits = w.g.declared n := by
          rw [inits_eq hg hi]
          unfold Globals.declared
          rw [← hn, hi.look]
        rw [hdecl] at hx ⊢
        exact registerAll_dead _ hx

theorem initDomains_dead {w : World P V} (hg : GInv w.g) (names : List String) {u : List (MaybeDomain V)} (hu : UOk w.g u) {j : Nat} {t : String} {x' : TableInst}
    (h : (w.initDomains u names).1 = none) (hx : tableAt (w.initDomains u names).2 j t = some x') :
    ∃ x, tableAt u j t = some x ∧ x'.gt = x.gt ∧ (x'.poisoned = true → x.poisoned = true) := by
  induction names generalizing u with
  | nil => exact ⟨x', hx, rfl, id⟩
  | cons n names ih =>
    have hd := fun x' => initDomain_dead hg hu (n := n) (j := j) (t := t) (x' := x')
    have hi := (initDomain_inv hg hu n).1
    unfold World.initDomains at h hx
    rcases e : w.initDomain u n with ⟨p, u1⟩
    rw [e] at hx hd h hi
    cases p with
    | some p => cases h
    | none =>
      simp only [] at hx h hi
      obtain ⟨x1, a1, a2, a3⟩ := ih hi h hx
      obtain ⟨x, b1, b2, b3⟩ := hd _ a1
      refine ⟨x, b1, a2.trans b2, fun h => ?_⟩
      rcases b3 (a3 h) with h | h
      · exact h
      · exact absurd rfl h.1

/-- Tables by place. -/
theorem hasTable_at {w : World P V} (h : WInv decl w) {k : Nat} {u : List (MaybeDomain V)} (hk : w.unis[k]? = some u) {d t : String} {x : TableInst} :
    w.hasTable k d t x ↔ ∃ j, w.g.did2name[j]? = some d ∧ tableAt u j t = some x := by
  rw [hasTable_uTable hk]
  have hu := h.unis u (List.mem_of_getElem? hk)
  constructor
  · rintro ⟨i, h1, rfl, h3⟩
    obtain ⟨j, hj⟩ := domain_at h1
    obtain ⟨info, hi⟩ := hu.inst _ _ hj
    exact ⟨j, hi.name, by unfold tableAt; rw [hj]; exact h3⟩
  · rintro ⟨j, h1, h2⟩
    unfold tableAt at h2
    split at h2
    · rename_i i hj
      obtain ⟨info, hi⟩ := hu.inst _ _ hj
      rw [hi.name] at h1
      injection h1 with h1
      exact ⟨i, List.mem_of_getElem? hj, h1, h2⟩
    · cases h2

theorem getId_name {w : World P V} (h : GInv w.g) {n : String} {j : Nat} (hid : w.getId n = .ok j) : w.g.did2name[j]? = some n := by
  obtain ⟨-, info, hl, rfl⟩ := getId_ok hid
  exact h.ids _ _ hl

/-- If a domain's list of tables was extended but not changed. -/
theorem tableAt_padded {w : World P V} {u : List (MaybeDomain V)} (j : Nat) (t : String) : tableAt (w.padded u) j t = tableAt u j t := by
  have key : ∀ x, tableAt (w.padded u) j t = some x ↔ tableAt u j t = some x := by
    intro x
    constructor
    · intro h
      unfold tableAt at h
      split at h
      · rename_i d hd
        unfold tableAt
        rw [padded_domain.1 hd]
        exact h
      · cases h
    · intro h
      unfold tableAt at h
      split at h
      · rename_i d hd
        unfold tableAt
        rw [padded_domain.2 hd]
        exact h
      · cases h
  exact Option.ext key

/-- C66: only these calls poison a table's lock, and only by panicking. -/
theorem C66_cause (ops : List (ROp decl)) (op : ROp decl) (k : Nat) (d t : String) (h : ¬ (World.after decl ops).dead k d t)
    (h' : ((World.after decl ops).step decl op).2.dead k d t) :
    (∃ e, ((World.after decl ops).step decl op).1 = .error e) ∧ Kills (World.history decl ops) k d t op := by
  have L := ledger (decl := decl) (P := P) (V := V) ops
  change Ledger (World.after decl ops) (World.history decl ops) at L
  have hbuild := fun d t => tablesOf_build (ops := ops) (d := d) (t := t)
  generalize World.history decl ops = tr at L hbuild ⊢
  generalize World.after decl ops = w at h h' L ⊢
  have hw := L.inv
  obtain ⟨x', hx', hdead⟩ := h'
  have same : ∀ w' : World P V, w'.unis = w.unis → ¬ w'.dead k d t := by
    rintro w' e ⟨x, ⟨u, i, hk, hr⟩, hd⟩
    rw [e] at hk
    exact h ⟨x, ⟨u, i, hk, hr⟩, hd⟩
  have opened : ∀ (k0 : Nat) (m : GTable) (b tol : Bool), (w.openTable k0 m b tol).2.hasTable k d t x' →
      (∃ e, (w.openTable k0 m b tol).1 = .error e) ∧ k0 = k ∧ b = true ∧ m.domain = d ∧ m.name = t ∧ m ∉ tablesOf tr d := by
    intro k0 m b tol hx'
    have hne : (w.openTable k0 m b tol).2 ≠ w := by
      intro e; rw [e] at hx'; exact h ⟨x', hx', hdead⟩
    obtain ⟨hp, x, hx⟩ := openTable_found hw (Or.inr hne)
    obtain ⟨u, did, a1, a2, a3, a4⟩ := openTable_eq hw hp hx b tol
    rw [a4] at hx' hne ⊢
    obtain ⟨-, info, hl, rfl⟩ := getId_ok a2
    cases e : x.gt.convert m with
    | ok y => rw [e] at hne; simp only [] at hne; split at hne <;> exact absurd rfl hne
    | error p =>
      rw [e] at hx' hne
      simp only [] at hx' hne ⊢
      cases b with
      | false => exact absurd rfl hne
      | true =>
        simp only [if_true] at hx'
        rw [hasTable_modTable hw a1 hl (f := TableInst.poison) (fun _ => rfl)] at hx'
        obtain ⟨x0, b1, b2⟩ := hx'
        by_cases ec : k = k0 ∧ d = m.domain ∧ t = m.name
        · obtain ⟨rfl, rfl, rfl⟩ := ec
          refine ⟨⟨p, rfl⟩, rfl, rfl, rfl, rfl, ?_⟩
          intro hm
          obtain ⟨y, hy, rfl⟩ := hasTable_of L (hasTable_hasDomain hx) hm
          rw [hasTable_unique hw hx hy, convert_self (hbuild _ _ hm)] at e
          cases e
        · rw [if_neg ec] at b2
          subst b2
          exact absurd ⟨x', b1, hdead⟩ h
  have cell : ∀ (k0 : Nat) (p : P) (v : V (decl p).ty), ¬ (w.swap decl k0 p v).2.dead k d t := by
    rintro k0 p v ⟨y, ⟨u', i', hk, hi, hn, ht⟩, hd⟩
    rcases (swap_step hw k0 p v).2.2.2 with ⟨_, -, hu⟩ | ⟨u0, i0, old, h1, -, -, -, -, -, hu⟩
    · rw [hu] at hk
      exact h ⟨y, ⟨u', i', hk, hi, hn, ht⟩, hd⟩
    · rw [hu] at hk
      by_cases ek : k0 = k
      · subst ek
        rw [List.getElem?_set, if_pos rfl, if_pos (get_lt h1)] at hk
        injection hk with hk
        subst hk
        obtain ⟨j, hj⟩ := domain_at hi
        unfold putCell at hj
        rw [List.getElem?_modify] at hj
        cases e : u0[j]? with
        | none => rw [e] at hj; cases hj
        | some m =>
          rw [e] at hj
          simp only [Option.map_eq_map, Option.map_some, Option.some.injEq] at hj
          cases m with
          | unset n => exfalso; split at hj <;> cases hj
          | domain i2 =>
            refine h ⟨y, ⟨u0, i2, h1, List.mem_of_getElem? e, ?_, ?_⟩, hd⟩
            · split at hj <;> (injection hj with hj; rw [← hn, ← hj])
            · split at hj <;> (injection hj with hj; rw [← ht, ← hj])
      · rw [List.getElem?_set_ne ek] at hk
        exact h ⟨y, ⟨u', i', hk, hi, hn, ht⟩, hd⟩
  cases op with
  | registerDomain n => exact absurd ⟨x', hx', hdead⟩ (same _ (registerDomain_step hw n).2.2)
  | registerProp p => exact absurd ⟨x', hx', hdead⟩ (same _ (registerProp_step hw p).2.2)
  | registerTable t => exact absurd ⟨x', hx', hdead⟩ (same _ (registerTable_step hw t).2.2)
  | newUniverse ns =>
    exfalso
    replace hx' : (w.newUniverse ns).2.hasTable k d t x' := hx'
    unfold World.newUniverse at hx'
    by_cases hp : w.poisoned = true
    · rw [if_pos hp] at hx'; exact h ⟨x', hx', hdead⟩
    · rw [if_neg hp] at hx'
      have hfresh : ∀ (k : Nat) (d : Instance V), (w.g.did2name.map (MaybeDomain.unset (V := V)))[k]? = some (.domain d) →
          ∀ p ∈ d.tables, p.2.trackers = [] ∧ p.2.poisoned = false := by
        intro k d hk
        rw [List.getElem?_map] at hk
        cases e : w.g.did2name[k]? with
        | none => rw [e] at hk; cases hk
        | some m => rw [e] at hk; simp at hk
      have hinv := getDomains_inv hw.g (unset_ok (g := w.g)) (by simp) ns
      cases e : w.g.getDomains (w.g.did2name.map .unset) ns with
      | error p => rw [e] at hx'; exact h ⟨x', hx', hdead⟩
      | ok ug =>
        obtain ⟨u, g'⟩ := ug
        rw [e] at hx' hinv
        simp only [] at hx' hinv
        obtain ⟨c1, c2, c3, -⟩ := hinv
        have hi := fun j h => initDomains_dead (w := ({ w with g := g' } : World P V)) c1 ns c3 (j := j) (t := t) (x' := x') h
        rcases e2 : ({ w with g := g' } : World P V).initDomains u ns with ⟨p, u1⟩
        rw [e2] at hx' hi
        cases p with
        | some p => exact same _ rfl ⟨x', hx', hdead⟩
        | none =>
          obtain ⟨u', i', hk, hm, hn, ht⟩ := hx'
          replace hk : (w.unis ++ [u1])[k]? = some u' := hk
          by_cases hlt : k < w.unis.length
          · rw [List.getElem?_append_left hlt] at hk
            exact h ⟨x', ⟨u', i', hk, hm, hn, ht⟩, hdead⟩
          · rw [List.getElem?_append_right (by omega)] at hk
            have : u' = u1 := by
              have h0 : k - w.unis.length = 0 := by
                have := get_lt hk
                simpa using this
              rw [h0] at hk
              injection hk with hk
              exact hk.symm
            subst this
            obtain ⟨j, hj⟩ := domain_at hm
            obtain ⟨x, b1, -, b3⟩ := hi j rfl (by unfold tableAt; simp only []; rw [hj]; exact ht)
            have := b3 hdead
            unfold tableAt at b1
            split at b1
            · rename_i i2 hi2
              have := (getDomains_empty hw.g ns hfresh e j i2 hi2 _ (lookup_mem b1)).2
              simp only [] at this
              rw [this] at b3
              exact absurd (b3 hdead) (by simp)
            · cases b1
  | addDomain k0 n =>
    replace hx' : (w.addDomain k0 n).2.hasTable k d t x' := hx'
    show (∃ e, (w.addDomain k0 n).1 = .error e) ∧ k0 = k ∧ ∃ r ∈ declaredBy tr n, r.domain = d ∧ r.table = t ∧ r.misfits tr
    have hinv' := (addDomain_step hw k0 n).1
    cases hk0 : w.unis[k0]? with
    | none =>
      refine absurd ⟨x', hx', hdead⟩ (same _ ?_)
      unfold World.addDomain
      rw [hk0]
    | some u0 =>
      by_cases hp : w.poisoned = true
      · refine absurd ⟨x', hx', hdead⟩ (same _ ?_)
        unfold World.addDomain
        rw [hk0]
        simp only [World.synced]
        rw [if_pos hp]
      · have hp : w.poisoned = false := by simpa using hp
        have pad : (w.addDomain k0 n).2 ≠ { w with unis := w.unis.set k0 (w.padded u0) } := by
          intro e
          rw [e] at hx' hinv'
          by_cases ek : k0 = k
          · subst ek
            rw [hasTable_at hinv' (u := w.padded u0) (by show (w.unis.set k0 _)[k0]? = _; rw [List.getElem?_set, if_pos rfl, if_pos (get_lt hk0)])] at hx'
            obtain ⟨j, b1, b2⟩ := hx'
            rw [tableAt_padded] at b2
            exact h ⟨x', (hasTable_at hw hk0).2 ⟨j, b1, b2⟩, hdead⟩
          · obtain ⟨u', i', hk, hr⟩ := hx'
            replace hk : (w.unis.set k0 (w.padded u0))[k]? = some u' := hk
            rw [List.getElem?_set_ne ek] at hk
            exact h ⟨x', ⟨u', i', hk, hr⟩, hdead⟩
        cases hl : w.g.domains.lookup n with
        | none =>
          exfalso
          apply pad
          unfold World.addDomain
          rw [hk0]
          simp only []
          rw [synced_eq hw hp hk0]
          simp only []
          have : ({ w with unis := w.unis.set k0 (w.padded u0) } : World P V).getId n = .error .noSuchDomain := by
            unfold World.getId
            rw [if_neg (by simp [hp])]
            simp only []
            rw [hl]
          rw [this]
        | some info =>
          by_cases hd : ∃ d', u0[info.id]? = some (.domain d')
          · obtain ⟨d', hd⟩ := hd
            exact absurd (by rw [addDomain_there hw hp hk0 hl hd]) pad
          · obtain ⟨inst, w0, e0, a1, a2, a3, a4, a5, a6, a7, a8⟩ := addDomain_new hw hp hk0 hl (fun d' h' => hd ⟨d', h'⟩)
            by_cases ek : k0 = k
            · subst ek
              rw [a8] at hx' hinv'
              rw [hasTable_at hinv' (u := (w0.initDomain ((w.padded u0).set info.id (.domain inst)) n).2)
                (by show (w0.unis.set k0 _)[k0]? = _; rw [List.getElem?_set, if_pos rfl, if_pos (by rw [e0]; simpa using get_lt hk0)])] at hx'
              obtain ⟨j, b1, b2⟩ := hx'
              have hdn : w0.g.did2name = w.g.did2name := by rw [e0]; rfl
              replace b1 : w.g.did2name[j]? = some d := by rw [← hdn]; exact b1
              obtain ⟨x, c1, c2, c3⟩ := initDomain_dead a4 a6 b2
              have hxj : info.id ≠ j ∧ tableAt u0 j t = some x ∨ info.id = j ∧ inst.tables.lookup t = some x := by
                by_cases e : info.id = j
                · right
                  refine ⟨e, ?_⟩
                  unfold tableAt at c1
                  rw [← e, List.getElem?_set, if_pos rfl, if_pos a3] at c1
                  exact c1
                · left
                  refine ⟨e, ?_⟩
                  rw [← tableAt_padded (w := w)]
                  unfold tableAt at c1 ⊢
                  rw [List.getElem?_set_ne e] at c1
                  exact c1
              have hxg : x.gt ∈ tablesOf tr d ∧ x.gt.name = t := by
                have hx1 : uTable ((w.padded u0).set info.id (.domain inst)) d t x := by
                  unfold tableAt at c1
                  split at c1
                  · rename_i i2 hi2
                    obtain ⟨info2, hok⟩ := a6.inst _ _ hi2
                    refine ⟨i2, List.mem_of_getElem? hi2, ?_, c1⟩
                    have := hok.name
                    rw [hdn, b1] at this
                    injection this with this
                    exact this.symm
                  · cases c1
                obtain ⟨info2, f1, f2⟩ := uTable_registered a6 hx1
                have hl2 : ∃ info3, w.g.domains.lookup d = some info3 ∧ info3.tables = info2.tables := by
                  have h1 := SameG.lock w.g n
                  have h2 := h1.doms d
                  rw [e0] at f1
                  rw [f1] at h2
                  cases e : w.g.domains.lookup d with
                  | none => rw [e] at h2; cases h2
                  | some info3 =>
                    rw [e] at h2
                    simp only [Option.map_some, Option.some.injEq, Prod.mk.injEq] at h2
                    exact ⟨info3, rfl, h2.2.symm⟩
                obtain ⟨info3, g1, g2⟩ := hl2
                rw [← g2, L.tabs d info3 g1, lookup_tables (l := tablesOf _ _) (firsts_nodup _)] at f2
                exact f2
              rcases c3 hdead with hpo | ⟨f1, r, f2, f3, f4, f5⟩
              · exfalso
                rcases hxj with ⟨e, hxj⟩ | ⟨e, hxj⟩
                · exact h ⟨x, (hasTable_at hw hk0).2 ⟨j, b1, hxj⟩, hpo⟩
                · have := (a2 _ (lookup_mem hxj)).2
                  simp only [] at this
                  rw [this] at hpo; cases hpo
              · have hrd : r.domain = d := by
                  have := getId_name a4 f3
                  rw [hdn, b1] at this
                  injection this with this
                  exact this.symm
                refine ⟨?_, rfl, r, ?_, hrd, f4, x.gt, by rw [hrd]; exact hxg.1, by rw [f4]; exact hxg.2, f5⟩
                · rw [a7]
                  cases e : (w0.initDomain ((w.padded u0).set info.id (.domain inst)) n).1 with
                  | none => exact absurd e f1
                  | some p => exact ⟨p, rfl⟩
                · have hdecl : w0.g.declared n = declaredBy tr n := by
                    rw [← declared_eq L n]
                    unfold Globals.declared
                    have h1 := SameG.lock w.g n
                    have h2 := h1.doms n
                    rw [hl] at h2 ⊢
                    rw [e0]
                    simp only []
                    cases e : (w.g.update n (fun i => { i with locked := true })).domains.lookup n with
                    | none => rw [e] at h2; cases h2
                    | some i2 =>
                      rw [e] at h2
                      simp only [Option.map_some, Option.some.injEq, Prod.mk.injEq] at h2
                      simp only [DomainInfo.declared, h2.2]
                  rw [← hdecl]; exact f2
            · exfalso
              rw [a8] at hx'
              obtain ⟨u', i', hk, hr⟩ := hx'
              replace hk : (w0.unis.set k0 _)[k]? = some u' := hk
              rw [List.getElem?_set_ne ek, e0] at hk
              replace hk : (w.unis.set k0 _)[k]? = some u' := hk
              rw [List.getElem?_set_ne ek] at hk
              exact h ⟨x', ⟨u', i', hk, hr⟩, hdead⟩
  | addProperties k0 =>
    refine absurd ⟨x', hx', hdead⟩ (same _ ?_)
    show (w.addProperties k0).2.unis = w.unis
    rw [(addProperties_noop hw k0).1]
  | get k0 p => exact absurd ⟨x', hx', hdead⟩ (same _ (get_step hw k0 p).2.2.1)
  | set k0 p v =>
    replace hx' : (w.set decl k0 p v).2.hasTable k d t x' := hx'
    rw [set_snd] at hx'
    exact absurd ⟨x', hx', hdead⟩ (cell k0 p v)
  | swap k0 p v => exact absurd ⟨x', hx', hdead⟩ (cell k0 p v)
  | openTable k0 m b tol => exact opened k0 m b tol hx'
  | panicWriting k0 m tol =>
    replace hx' : (w.panicWriting k0 m tol).2.hasTable k d t x' := hx'
    show (∃ e, (w.panicWriting k0 m tol).1 = .error e) ∧ k0 = k ∧ m.domain = d ∧ m.name = t
    rw [panicWriting_eq] at hx' ⊢
    have ho := opened k0 m true tol
    cases e : (w.openTable k0 m true tol).1 with
    | error p =>
      rw [e] at hx'
      obtain ⟨-, h1, -, h2, h3, -⟩ := ho hx'
      exact ⟨⟨p, rfl⟩, h1, h2, h3⟩
    | ok y =>
      rw [e] at hx'
      simp only [] at hx' ⊢
      cases hk : w.unis[k0]? with
      | none => rw [hk] at hx'; exact absurd ⟨x', hx', hdead⟩ h
      | some u =>
        rw [hk] at hx'
        cases hid : w.getId m.domain with
        | error p => rw [hid] at hx'; exact absurd ⟨x', hx', hdead⟩ h
        | ok did =>
          rw [hid] at hx'
          simp only [] at hx' ⊢
          obtain ⟨-, info, hl, rfl⟩ := getId_ok hid
          rw [hasTable_modTable hw hk hl (f := TableInst.poison) (fun _ => rfl)] at hx'
          obtain ⟨x0, b1, b2⟩ := hx'
          by_cases ec : k = k0 ∧ d = m.domain ∧ t = m.name
          · obtain ⟨rfl, rfl, rfl⟩ := ec
            exact ⟨⟨_, rfl⟩, rfl, rfl, rfl⟩
          · rw [if_neg ec] at b2
            subst b2
            exact absurd ⟨x', b1, hdead⟩ h
  | registerTracker k0 r =>
    replace hx' : (w.registerTracker k0 r).2.hasTable k d t x' := hx'
    show (∃ e, (w.registerTracker k0 r).1 = .error e) ∧ k0 = k ∧ r.domain = d ∧ r.table = t ∧ r.misfits tr
    have hinv' := (Touch.inv hw (registerTracker_touch w k0 r)).1
    have hgeq := (Touch.inv hw (registerTracker_touch w k0 r)).2.2.1
    cases hk0 : w.unis[k0]? with
    | none =>
      unfold World.registerTracker at hx'
      rw [hk0] at hx'
      exact absurd ⟨x', hx', hdead⟩ h
    | some u =>
      have hun : (w.registerTracker k0 r).2.unis = w.unis.set k0 (w.register u r).2 := by
        unfold World.registerTracker
        rw [hk0]
        simp only []
        rcases w.register u r with ⟨p, u1⟩
        cases p <;> rfl
      by_cases ek : k0 = k
      · subst ek
        rw [hasTable_at hinv' (u := (w.register u r).2) (by rw [hun, List.getElem?_set, if_pos rfl, if_pos (get_lt hk0)])] at hx'
        obtain ⟨j, b1, b2⟩ := hx'
        rw [hgeq] at b1
        obtain ⟨x, c1, c2, c3⟩ := register_dead b2
        have hx := (hasTable_at hw hk0).2 ⟨j, b1, c1⟩
        rcases c3 hdead with hpo | ⟨f1, f2, f3, f4⟩
        · exact absurd ⟨x, hx, hpo⟩ h
        · have hrd : r.domain = d := by
            have := getId_name hw.g f2
            rw [b1] at this
            injection this with this
            exact this.symm
          obtain ⟨g1, g2⟩ := hasTable_registered L hx
          refine ⟨?_, rfl, hrd, f3, x.gt, by rw [hrd]; exact g1, by rw [f3]; exact g2, f4⟩
          unfold World.registerTracker
          rw [hk0]
          simp only []
          rcases e : w.register u r with ⟨p, u1⟩
          rw [e] at f1
          cases p with
          | none => exact absurd rfl f1
          | some p => exact ⟨p, rfl⟩
      · exfalso
        obtain ⟨u', i', hk, hr⟩ := hx'
        rw [hun, List.getElem?_set_ne ek] at hk
        exact h ⟨x', ⟨u', i', hk, hr⟩, hdead⟩

end V11
