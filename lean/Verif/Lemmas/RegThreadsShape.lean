import Verif.Lemmas.RegThreadsSys

/-!
# Calls of several threads: what a step does to the log, and that calls end
-/

set_option linter.unusedSimpArgs false
set_option linter.unusedSectionVars false
set_option linter.unusedVariables false

namespace V11

variable {Ty : Type} [DecidableEq Ty] {V : Ty → Type} {P : Type} [DecidableEq P] {decl : P → PropDecl V} {ι : Type} [DecidableEq ι]

/-- How far a phase is from the end of the call. -/
def RtPhase.left : RtPhase V → Nat × Nat × Nat
  | .idle => (8, 0, 0)
  | .begun => (7, 0, 0)
  | .syncing => (6, 0, 0)
  | .resolved => (5, 0, 0)
  | .synced => (4, 0, 0)
  | .located _ => (3, 0, 0)
  | .building _ t => (2, (t.filter Sum.isLeft).length, t.length)
  | .done _ => (1, 0, 0)

/-- One number is smaller, and those before it are the same. -/
def Nearer (a b : Nat × Nat × Nat) : Prop := a.1 < b.1 ∨ (a.1 = b.1 ∧ (a.2.1 < b.2.1 ∨ (a.2.1 = b.2.1 ∧ a.2.2 < b.2.2)))

/-- The call has that phase. -/
def Fitting (op : ROp decl) : RtPhase V → Prop
  | .syncing => op.uses.isSome = true
  | .resolved => op.uses.isSome = true
  | .synced => ∃ k n, op = .addDomain k n
  | .located _ => op.tableDomain.isSome = true ∨ ∃ k n, op = .addDomain k n
  | .building _ _ => (∃ ns, op = .newUniverse ns) ∨ ∃ k n, op = .addDomain k n
  | _ => True

/-- What one step inside a call does. -/
structure Shape (s : RtSys ι decl) (i : ι) (op : ROp decl) (ph ph' : RtPhase V) (evs : List (RtEv ι decl)) (s' : RtSys ι decl) : Prop where
  th : s'.th = Function.update s.th i { s.th i with phase := ph' }
  log : s'.log = s.log ++ evs
  near : Nearer ph'.left ph.left
  what : evs = [] ∨ evs = [.effect i op] ∨ evs = [.lapse i op] ∨ ∃ k p, op.on = some k ∧ op.uses = some p ∧ evs = [.bound i k p]
  storing : s'.storing = s.storing ∨ (s.storing = none ∧ s'.storing = none) ∨
    (s.storing = none ∧ ∃ p, s'.storing = some (i, p) ∧ s.w.idx p = none ∧ (evs = [.effect i (.registerProp p)] ∨ ∃ k, op.uses = some p ∧ evs = [.bound i k p]))
  names : s'.w.g.did2name = s.w.g.did2name ∨ ∃ n, op = .registerDomain n ∧ evs = [.effect i op] ∧ s'.w.g.did2name = s.w.g.did2name ++ [n]
  lapse : evs = [.lapse i op] → (∃ p j, op.uses = some p ∧ s.storing = some (j, p)) ∨
    (∃ k n u did, op = .addDomain k n ∧ ph = .synced ∧ s.w.getId n = .ok did ∧ s.w.unis[k]? = some u ∧ u[did]? = none)
  sync : ∀ k n, op = .addDomain k n → ph' = .synced → evs = [] ∧ ∃ u, s'.w.unis[k]? = some u ∧ u.length = s'.w.g.did2name.length
  fit : Fitting op ph'

theorem update_names' (g : Globals V) (n : String) (f : DomainInfo → DomainInfo) : (g.update n f).did2name = g.did2name := rfl

theorem resolve_names (w : World P V) (p : P) : (w.resolve decl p).2.g = w.g := by
  unfold World.resolve World.syncAlias
  split
  · rfl
  · split
    · rfl
    · split
      · rfl
      · split
        · rfl
        · split <;> rfl

theorem syncAlias_names (w : World P V) (p : P) : (w.syncAlias decl p).2.g = w.g := by
  unfold World.syncAlias
  split
  · rfl
  · split
    · rfl
    · split
      · rfl
      · split <;> rfl

theorem get_names (w : World P V) (k : Nat) (p : P) : (w.get decl k p).2.g = w.g := by
  unfold World.get
  have := resolve_names (decl := decl) w p
  split
  · rfl
  · rcases e : w.resolve decl p with ⟨r, w1⟩
    rw [e] at this
    cases r with
    | error e => exact this
    | ok i =>
      simp only []
      split <;> exact this

theorem swap_names (w : World P V) (k : Nat) (p : P) (x : V (decl p).ty) : (w.swap decl k p x).2.g = w.g := by
  unfold World.swap
  have := resolve_names (decl := decl) w p
  split
  · rfl
  · rcases e : w.resolve decl p with ⟨r, w1⟩
    rw [e] at this
    cases r with
    | error e => exact this
    | ok i =>
      simp only []
      split
      · exact this
      · split <;> exact this

theorem set_names (w : World P V) (k : Nat) (p : P) (x : V (decl p).ty) : (w.set decl k p x).2.g = w.g := by
  rw [set_snd]; exact swap_names w k p x

theorem registerProp_names (w : World P V) (p : P) : (w.registerProp decl p).2.g.did2name = w.g.did2name := by
  unfold World.registerProp
  split
  · rfl
  · split
    · rfl
    · simp only []
      split
      · rfl
      · split
        · rfl
        · split <;> rfl

theorem registerTable_names (w : World P V) (t : GTable) : (w.registerTable t).2.g.did2name = w.g.did2name := by
  unfold World.registerTable
  split
  · rfl
  · split
    · rfl
    · split
      · rfl
      · split
        · rfl
        · split
          · rfl
          · split <;> rfl

theorem registerDomain_names (w : World P V) (n : String) : (w.registerDomain n).2.g.did2name = w.g.did2name ∨ (w.registerDomain n).2.g.did2name = w.g.did2name ++ [n] := by
  unfold World.registerDomain
  split
  · exact Or.inl rfl
  · split
    · exact Or.inl rfl
    · split
      · exact Or.inl rfl
      · exact Or.inr rfl

theorem addProperties_names (w : World P V) (k : Nat) : (w.addProperties k).2.g = w.g := by
  unfold World.addProperties
  split
  · rfl
  · split
    · rfl
    · split <;> rfl

section
variable {s s' : RtSys ι decl} {i : ι} {op : ROp decl} {ph : RtPhase V} {see : Seen}

theorem shape_goto {ph' : RtPhase V} {w : World P V} (hw : w.g.did2name = s.w.g.did2name) (hn : Nearer ph'.left ph.left)
    (hs : ∀ k n, op = .addDomain k n → ph' = .synced → ∃ u, w.unis[k]? = some u ∧ u.length = w.g.did2name.length)
    (hfit : Fitting op ph') :
    Shape s i op ph ph' [] (({ s with w := w } : RtSys ι decl).goto i ph') :=
  ⟨rfl, by simp [RtSys.goto], hn, Or.inl rfl, Or.inl rfl, Or.inl hw, by simp, fun k n h1 h2 => ⟨rfl, hs k n h1 h2⟩, hfit⟩

theorem shape_settle {out : R (Given V)} {w : World P V} (hw : w.g.did2name = s.w.g.did2name) (hn : 1 < ph.left.1) :
    Shape s i op ph (.done out) [.effect i op] (s.settle i op out w) :=
  ⟨rfl, rfl, Or.inl hn, Or.inr (Or.inl rfl), Or.inl rfl, Or.inl hw, by simp, by simp, trivial⟩

theorem shape_lapse {e : Panic} (hn : 1 < ph.left.1) (hl : (∃ p j, op.uses = some p ∧ s.storing = some (j, p)) ∨
    (∃ k n u did, op = .addDomain k n ∧ ph = .synced ∧ s.w.getId n = .ok did ∧ s.w.unis[k]? = some u ∧ u[did]? = none)) :
    Shape s i op ph (.done (.error e)) [.lapse i op] ((s.note (.lapse i op)).goto i (.done (.error e))) :=
  ⟨rfl, rfl, Or.inl hn, Or.inr (Or.inr (Or.inl rfl)), Or.inl rfl, Or.inl rfl, fun _ => hl, by simp, trivial⟩

theorem useProp_shape {k : Nat} {p : P} (hon : op.on = some k) (hu : op.uses = some p) (hnm : (s.w.step decl op).2.g.did2name = s.w.g.did2name)
    (h : s.useProp i see op k p ph = some s') : ∃ ph' evs, Shape s i op ph ph' evs s' := by
  have hna : ∀ k n, op ≠ .addDomain k n := by
    rintro k n rfl
    cases hu
  cases ph with
  | begun =>
    simp only [RtSys.useProp] at h
    have hfit : op.uses.isSome = true := by rw [hu]; rfl
    have hg : ∀ ph', Nearer (RtPhase.left (V := V) ph') (7, 0, 0) → Fitting op ph' → Shape s i op .begun ph' [] (s.goto i ph') :=
      fun ph' hn hf => shape_goto (w := s.w) rfl hn (fun k n h => absurd h (hna k n)) hf
    cases e : s.w.idx p with
    | none => rw [e] at h; injection h with h; subst h; exact ⟨_, _, hg _ (Or.inl (by simp [RtPhase.left])) hfit⟩
    | some ix =>
      rw [e] at h
      simp only [] at h
      by_cases hst : s.storing.any (fun x => decide (x.2 = p)) = true
      · rw [if_pos hst] at h
        cases see with
        | whole => injection h with h; subst h; exact ⟨_, _, hg _ (Or.inl (by simp [RtPhase.left])) hfit⟩
        | unset => injection h with h; subst h; exact ⟨_, _, hg _ (Or.inl (by simp [RtPhase.left])) hfit⟩
        | torn =>
          simp only [] at h
          cases ed : (s.w.unis[k]?).bind (fun u => domAt u ix.domain) with
          | none => rw [ed] at h; injection h with h; subst h; exact ⟨_, _, hg _ (Or.inl (by simp [RtPhase.left])) hfit⟩
          | some d =>
            rw [ed] at h; injection h with h; subst h
            refine ⟨_, _, shape_lapse (by simp [RtPhase.left]) (Or.inl ?_)⟩
            cases es : s.storing with
            | none => rw [es] at hst; cases hst
            | some x =>
              obtain ⟨j, q⟩ := x
              rw [es] at hst
              have : q = p := by simpa using hst
              subst this
              exact ⟨q, j, hu, rfl⟩
      · rw [if_neg hst] at h; injection h with h; subst h; exact ⟨_, _, hg _ (Or.inl (by simp [RtPhase.left])) hfit⟩
  | syncing =>
    simp only [RtSys.useProp] at h
    by_cases hst : s.storing.isSome = true
    · rw [if_pos hst] at h; cases h
    · rw [if_neg hst] at h
      have hnone : s.storing = none := by cases e : s.storing with | none => rfl | some x => rw [e] at hst; exact absurd rfl hst
      have hnm' := syncAlias_names (decl := decl) s.w p
      rcases e : s.w.syncAlias decl p with ⟨r, v'⟩
      rw [e] at h hnm'
      cases r with
      | ok ix =>
        injection h with h; subst h
        refine ⟨.resolved, [.bound i k p], ⟨rfl, rfl, Or.inl (by simp [RtPhase.left]), Or.inr (Or.inr (Or.inr ⟨k, p, hon, hu, rfl⟩)), ?_, Or.inl (by show v'.g.did2name = _; rw [hnm']), by simp, by simp, by show op.uses.isSome = true; rw [hu]; rfl⟩⟩
        cases ei : s.w.idx p with
        | some x => exact Or.inr (Or.inl ⟨hnone, rfl⟩)
        | none => exact Or.inr (Or.inr ⟨hnone, p, rfl, ei, Or.inr ⟨k, hu, rfl⟩⟩)
      | error er =>
        injection h with h; subst h
        exact ⟨_, _, shape_settle (by rw [hnm']) (by simp [RtPhase.left])⟩
  | resolved =>
    simp only [RtSys.useProp] at h
    injection h with h
    subst h
    exact ⟨_, _, shape_settle hnm (by simp [RtPhase.left])⟩
  | idle => cases h
  | synced => cases h
  | located d => cases h
  | building u t => cases h
  | done o => cases h

theorem useTable_shape {k : Nat} {dom : String} {call : List (MaybeDomain V) → Nat → R Unit × List (MaybeDomain V)} (ht : op.tableDomain.isSome = true)
    (h : s.useTable i op k dom call ph = some s') : ∃ ph' evs, Shape s i op ph ph' evs s' := by
  cases ph with
  | begun =>
    simp only [RtSys.useTable] at h
    by_cases hst : s.storing.isSome = true
    · rw [if_pos hst] at h; cases h
    · rw [if_neg hst] at h
      cases e : s.w.getId dom with
      | error er => rw [e] at h; injection h with h; subst h; exact ⟨_, _, shape_settle rfl (by simp [RtPhase.left])⟩
      | ok did => rw [e] at h; injection h with h; subst h; exact ⟨_, _, shape_goto (w := s.w) rfl (Or.inl (show 3 < 7 by decide)) (by simp) (Or.inl ht)⟩
  | located did =>
    simp only [RtSys.useTable] at h
    cases e : s.w.unis[k]? with
    | none => rw [e] at h; cases h
    | some u => rw [e] at h; injection h with h; subst h; exact ⟨_, _, shape_settle rfl (show 1 < 3 by decide)⟩
  | idle => cases h
  | syncing => cases h
  | resolved => cases h
  | synced => cases h
  | building u t => cases h
  | done o => cases h

theorem build_shape {fin : Option Panic → List (MaybeDomain V) → R (Given V) × World P V} {u : List (MaybeDomain V)} {t : List (String ⊕ Reg)}
    (hf : ∀ e u, (fin e u).2.g = s.w.g) (hfit : (∃ ns, op = .newUniverse ns) ∨ ∃ k n, op = .addDomain k n) (h : s.build i op fin u t = some s') : ∃ ph' evs, Shape s i op (.building u t) ph' evs s' := by
  cases t with
  | nil => simp only [RtSys.build] at h; injection h with h; subst h; exact ⟨_, _, shape_settle (by rw [hf]) (show 1 < 2 by decide)⟩
  | cons x t =>
    simp only [RtSys.build] at h
    by_cases hst : s.storing.isSome = true
    · rw [if_pos hst] at h; cases h
    · rw [if_neg hst] at h
      rcases e : s.w.buildOne u t x with ⟨q, u', t'⟩
      rw [e] at h
      cases q with
      | some p => injection h with h; subst h; exact ⟨_, _, shape_settle (by rw [hf]) (show 1 < 2 by decide)⟩
      | none =>
        injection h with h
        subst h
        refine ⟨_, _, shape_goto (w := s.w) rfl (Or.inr ⟨rfl, ?_⟩) (by simp) hfit⟩
        cases x with
        | inr r =>
          simp only [World.buildOne] at e
          injection e with e1 e2
          injection e2 with e2 e3
          subst e3
          exact Or.inr ⟨by simp [RtPhase.left], by simp [RtPhase.left]⟩
        | inl n =>
          simp only [World.buildOne] at e
          cases eg : s.w.getId n with
          | error p => rw [eg] at e; cases e
          | ok did =>
            rw [eg] at e
            simp only [] at e
            cases em : u[did]? with
            | none => rw [em] at e; cases e
            | some m =>
              rw [em] at e
              cases m with
              | unset m => cases e
              | domain d =>
                simp only [] at e
                injection e with e1 e2
                injection e2 with e2 e3
                subst e3
                refine Or.inl ?_
                have : ((d.inits.map Sum.inr : List (String ⊕ Reg)).filter Sum.isLeft) = [] := by
                  rw [List.filter_eq_nil_iff]
                  intro x hx
                  rw [List.mem_map] at hx
                  obtain ⟨r, -, rfl⟩ := hx
                  simp
                show ((d.inits.map Sum.inr ++ t).filter Sum.isLeft).length < ((Sum.inl n :: t).filter Sum.isLeft).length
                rw [List.filter_append, this, List.nil_append, List.filter_cons_of_pos rfl]
                simp

theorem useNew_shape {ns : List String} (h : s.useNew i ns ph = some s') : ∃ ph' evs, Shape s i (.newUniverse ns) ph ph' evs s' := by
  cases ph with
  | begun =>
    simp only [RtSys.useNew] at h
    by_cases hst : s.storing.isSome = true
    · rw [if_pos hst] at h; cases h
    · rw [if_neg hst] at h
      by_cases hp : s.w.poisoned = true
      · rw [if_pos hp] at h
        injection h with h; subst h; exact ⟨_, _, shape_settle rfl (by simp [RtPhase.left])⟩
      · rw [if_neg hp] at h
        cases e : s.w.g.getDomains (s.w.g.did2name.map .unset) ns with
        | error er => rw [e] at h; injection h with h; subst h; exact ⟨_, _, shape_settle rfl (by simp [RtPhase.left])⟩
        | ok x =>
          obtain ⟨u, g⟩ := x
          rw [e] at h; injection h with h; subst h
          refine ⟨_, _, shape_goto (w := { s.w with g := g }) ?_ (Or.inl (show 2 < 7 by decide)) (by simp) (Or.inl ⟨_, rfl⟩)⟩
          show g.did2name = _
          rw [getDomains_g e]; rfl
  | building u t =>
    simp only [RtSys.useNew] at h
    exact build_shape (fun e u => by cases e <;> rfl) (Or.inl ⟨_, rfl⟩) h
  | idle => cases h
  | syncing => cases h
  | resolved => cases h
  | synced => cases h
  | located d => cases h
  | done o => cases h

theorem useAdd_shape {k : Nat} {n : String} (h : s.useAdd i k n ph = some s') : ∃ ph' evs, Shape s i (.addDomain k n) ph ph' evs s' := by
  cases ph with
  | begun =>
    simp only [RtSys.useAdd] at h
    by_cases hst : s.storing.isSome = true
    · rw [if_pos hst] at h; cases h
    · rw [if_neg hst] at h
      cases e : s.w.unis[k]? with
      | none => rw [e] at h; cases h
      | some u =>
        rw [e] at h
        simp only [] at h
        cases e2 : s.w.synced u with
        | error er => rw [e2] at h; injection h with h; subst h; exact ⟨_, _, shape_settle rfl (by simp [RtPhase.left])⟩
        | ok x =>
          rw [e2] at h; injection h with h; subst h
          refine ⟨_, _, shape_goto (w := { s.w with unis := s.w.unis.set k x }) rfl (Or.inl (by simp [RtPhase.left])) ?_ ⟨_, _, rfl⟩⟩
          intro k' n' hop _
          injection hop with hop1 hop2
          subst hop1
          have hx : x.length = s.w.g.did2name.length := by
            unfold World.synced at e2
            split at e2
            · cases e2
            · split at e2
              · injection e2 with e2
                rw [← e2]
                simp
                omega
              · cases e2
          exact ⟨x, by rw [List.getElem?_set_self (get_lt e)], hx⟩
  | synced =>
    simp only [RtSys.useAdd] at h
    by_cases hst : s.storing.isSome = true
    · rw [if_pos hst] at h; cases h
    · rw [if_neg hst] at h
      cases e : s.w.unis[k]? with
      | none => rw [e] at h; cases h
      | some u =>
        rw [e] at h
        simp only [] at h
        cases e2 : s.w.getId n with
        | error er => rw [e2] at h; injection h with h; subst h; exact ⟨_, _, shape_settle rfl (by simp [RtPhase.left])⟩
        | ok did =>
          rw [e2] at h
          simp only [] at h
          cases e3 : u[did]? with
          | none => rw [e3] at h; injection h with h; subst h; exact ⟨_, _, shape_lapse (by simp [RtPhase.left]) (Or.inr ⟨k, n, u, did, rfl, rfl, e2, e, e3⟩)⟩
          | some m =>
            rw [e3] at h
            simp only [] at h
            split at h
            · injection h with h; subst h; exact ⟨_, _, shape_settle rfl (by simp [RtPhase.left])⟩
            · injection h with h; subst h; exact ⟨_, _, shape_goto (w := s.w) rfl (Or.inl (show 3 < 4 by decide)) (by simp) (Or.inr ⟨_, _, rfl⟩)⟩
  | located did =>
    simp only [RtSys.useAdd] at h
    by_cases hst : s.storing.isSome = true
    · rw [if_pos hst] at h; cases h
    · rw [if_neg hst] at h
      cases e : s.w.unis[k]? with
      | none => rw [e] at h; cases h
      | some u =>
        rw [e] at h
        simp only [] at h
        by_cases hp : s.w.poisoned = true
        · rw [if_pos hp] at h
          injection h with h; subst h; exact ⟨_, _, shape_settle rfl (show 1 < 3 by decide)⟩
        · rw [if_neg hp] at h
          cases e2 : s.w.g.instantiate n with
          | error er => rw [e2] at h; injection h with h; subst h; exact ⟨_, _, shape_settle rfl (show 1 < 3 by decide)⟩
          | ok x =>
            obtain ⟨inst, g⟩ := x
            rw [e2] at h; injection h with h; subst h
            refine ⟨_, _, shape_goto (w := { s.w with g := g }) ?_ (Or.inl (show 2 < 3 by decide)) (by simp) (Or.inr ⟨_, _, rfl⟩)⟩
            show g.did2name = _
            rw [instantiate_g e2]; rfl
  | building u t =>
    simp only [RtSys.useAdd] at h
    exact build_shape (fun e u => by cases e <;> rfl) (Or.inr ⟨_, _, rfl⟩) h
  | idle => cases h
  | syncing => cases h
  | resolved => cases h
  | done o => cases h

theorem call_shape (hnd : ∀ o, ph ≠ .done o) (h : s.call i see ph op = some s') : ∃ ph' evs, Shape s i op ph ph' evs s' := by
  have hleft : 1 < ph.left.1 := by cases ph <;> first | exact absurd rfl (hnd _) | simp [RtPhase.left]
  cases op with
  | registerDomain n =>
    simp only [RtSys.call] at h
    by_cases hst : s.storing.isSome = true
    · rw [if_pos hst] at h; cases h
    · rw [if_neg hst] at h; injection h with h; subst h
      refine ⟨_, _, ⟨rfl, rfl, Or.inl hleft, Or.inr (Or.inl rfl), Or.inl rfl, ?_, by simp, by simp, trivial⟩⟩
      rcases registerDomain_names s.w n with h | h
      · exact Or.inl h
      · exact Or.inr ⟨n, rfl, rfl, h⟩
  | registerTable n =>
    simp only [RtSys.call] at h
    by_cases hst : s.storing.isSome = true
    · rw [if_pos hst] at h; cases h
    · rw [if_neg hst] at h; injection h with h; subst h; exact ⟨_, _, shape_settle (registerTable_names _ _) hleft⟩
  | addProperties n =>
    simp only [RtSys.call] at h
    by_cases hst : s.storing.isSome = true
    · rw [if_pos hst] at h; cases h
    · rw [if_neg hst] at h; injection h with h; subst h; exact ⟨_, _, shape_settle (congrArg _ (addProperties_names _ _)) hleft⟩
  | registerProp p =>
    simp only [RtSys.call, RtSys.useReg] at h
    by_cases hst : s.storing.isSome = true
    · rw [if_pos hst] at h; cases h
    · rw [if_neg hst] at h; injection h with h; subst h
      have hnone : s.storing = none := by cases e : s.storing with | none => rfl | some x => rw [e] at hst; exact absurd rfl hst
      refine ⟨.done (s.w.given decl (.registerProp p)), [.effect i (.registerProp p)], ⟨rfl, rfl, Or.inl hleft, Or.inr (Or.inl rfl), ?_, Or.inl (registerProp_names _ _), by simp, by simp, trivial⟩⟩
      simp only []
      split
      · rename_i hc
        simp only [Bool.and_eq_true] at hc
        have hc1 : s.w.idx p = none := by simpa using hc.1
        exact Or.inr (Or.inr ⟨hnone, p, rfl, hc1, Or.inl rfl⟩)
      · exact Or.inr (Or.inl ⟨hnone, rfl⟩)
  | newUniverse ns => exact useNew_shape h
  | addDomain k n => exact useAdd_shape h
  | get k p => exact useProp_shape rfl rfl (congrArg _ (get_names _ _ _)) h
  | set k p x => exact useProp_shape rfl rfl (congrArg _ (set_names _ _ _ _)) h
  | swap k p x => exact useProp_shape rfl rfl (congrArg _ (swap_names _ _ _ _)) h
  | openTable k m b t => exact useTable_shape rfl h
  | panicWriting k m t => exact useTable_shape rfl h
  | registerTracker k r => exact useTable_shape rfl h

end
end V11
