import Verif.Lemmas.GuardsHeld
import Verif.Props.Cascade
import Verif.Props.Threads

/-!
# A flush and the guards its thread has: C86
-/

set_option linter.unusedSectionVars false
set_option linter.unusedVariables false

namespace V11
variable {T : Type} [DecidableEq T] {S : T → Schema} [LS : ∀ t, LawfulSchema (S t)] {K : Type} [LinearOrder K]
  {key : (t : T) → Row (S t) → K} {cfg : Cfg S} {rank : T → Nat}

/-- C86: a flush that returns, for whatever tables, event and handlers, has given up the guard it was called on and no other. -/
theorem C86_gives_up_its_guard {n : Nat} {p : T} {w : W (S p)} {ev : Event} {env env' : Env S} (h : flush cfg n p w ev env = .ok env') :
    (∀ t, env'.reads t = env.reads t) ∧ env'.writer p = false ∧ ∀ t, t ≠ p → env'.writer t = env.writer t := by
  obtain ⟨h1, h2⟩ := guards_flushWith (needy_doFlush cfg n) h
  rw [h1, h2]
  exact ⟨fun _ => rfl, Function.update_self .., fun t ht => Function.update_of_ne ht _ _⟩

/-- C86: `live_flush`, `select_rows` and `select_all` leave the thread with the guards it had. -/
theorem C86_keeps_guards {n : Nat} {p : T} {w w' : W (S p)} {ev : Event} {sel : Select (List Nat)} {env env' : Env S}
    (h : liveFlush cfg n p w ev env = .ok (w', env') ∨ readSelect cfg n p ev sel env = .ok env') (t : T) :
    env'.reads t = env.reads t ∧ env'.writer t = env.writer t := by
  rcases h with h | h
  · unfold liveFlush at h
    split at h
    · injection h with h; injection h with e1 e2; subst e2; exact ⟨rfl, rfl⟩
    · obtain ⟨⟨ch, env1⟩, h1, h⟩ := bind_ok h
      simp only [] at h
      have hx : ∃ x, env' = env1.put p x := by
        split at h
        · obtain ⟨x, -, h⟩ := bind_ok h
          injection h with h; injection h with e1 e2; exact ⟨x, e2.symm⟩
        · injection h with h; injection h with e1 e2; exact ⟨_, e2.symm⟩
      obtain ⟨x, rfl⟩ := hx
      have := (needy_doFlush cfg n _ _ _ _ _ _ _ _ h1).1
      exact ⟨congrFun this.1 t, congrFun this.2 t⟩
  · unfold readSelect at h
    obtain ⟨x, -, h⟩ := bind_ok h
    obtain ⟨⟨ch, env1⟩, h1, h⟩ := bind_ok h
    injection h with h; subst h
    have := (needy_doFlush cfg n _ _ _ _ _ _ _ _ h1).1
    exact ⟨congrFun this.1 t, congrFun this.2 t⟩

/-- C86: a flush of something that returned was made by a thread that had no write guard on any table that depends,
directly or not, on the flushed one; nor, if the event's handler deletes, a read guard. Otherwise it waits for itself. -/
theorem C86_needs {n : Nat} {p : T} {w : W (S p)} {ev : Event} {env env' : Env S} (h : flush cfg n p w ev env = .ok env')
    (hc : w.changes.isEmpty = false) {c : T} (hd : DependsOn cfg c p) (hcp : c ≠ p) :
    env.writer c = false ∧ (cfg.handlers[ev.id]? = some .delete → env.reads c = 0) := by
  unfold flush flushWith at h
  rw [if_neg (by simp [hc])] at h
  simp only [] at h
  obtain ⟨⟨ch, env1⟩, h1, -⟩ := bind_ok h
  have h2 := (needy_doFlush cfg n _ _ _ _ _ _ _ _ h1).2
  have hh : ∃ hd, cfg.handler ev = .ok hd := by
    cases n with
    | zero => cases h1
    | succ n =>
      unfold doFlush at h1
      split at h1
      · cases h1
      · obtain ⟨hd, hh, -⟩ := bind_ok h1; exact ⟨hd, hh⟩
  obtain ⟨hd', hh⟩ := hh
  obtain ⟨a, b⟩ := h2 hd' hh c hd
  have a : Function.update env.writer p false c = false := a
  rw [Function.update_of_ne hcp] at a
  refine ⟨a, fun hdel => b ?_⟩
  unfold Cfg.handler at hh
  rw [hdel] at hh
  injection hh with hh
  exact hh.symm

/-- C86: the same of `live_flush`, which keeps its own guard meanwhile, and of `select_rows` and `select_all`. -/
theorem C86_live_needs {n : Nat} {p : T} {w w' : W (S p)} {ev : Event} {sel : Select (List Nat)} {env env' : Env S}
    (h : (liveFlush cfg n p w ev env = .ok (w', env') ∧ w.changes.isEmpty = false) ∨ readSelect cfg n p ev sel env = .ok env')
    {c : T} (hd : DependsOn cfg c p) :
    env.writer c = false ∧ (cfg.handlers[ev.id]? = some .delete → env.reads c = 0) := by
  have fin : ∀ {pu de sel} {env0 : Env S} {r}, env0.reads = env.reads → env0.writer = env.writer →
      doFlush cfg n p ev pu de sel env0 = .ok r → env.writer c = false ∧ (cfg.handlers[ev.id]? = some .delete → env.reads c = 0) := by
    intro pu de sel env0 r e1 e2 h1
    obtain ⟨ch, env1⟩ := r
    have h2 := (needy_doFlush cfg n _ _ _ _ _ _ _ _ h1).2
    have hh : ∃ hd, cfg.handler ev = .ok hd := by
      cases n with
      | zero => cases h1
      | succ n =>
        unfold doFlush at h1
        split at h1
        · cases h1
        · obtain ⟨hd, hh, -⟩ := bind_ok h1; exact ⟨hd, hh⟩
    obtain ⟨hd', hh⟩ := hh
    obtain ⟨a, b⟩ := h2 hd' hh c hd
    rw [← e1, ← e2]
    refine ⟨a, fun hdel => b ?_⟩
    unfold Cfg.handler at hh
    rw [hdel] at hh
    injection hh with hh
    exact hh.symm
  rcases h with ⟨h, hc⟩ | h
  · unfold liveFlush at h
    rw [if_neg (by simp [hc])] at h
    obtain ⟨r, h1, -⟩ := bind_ok h
    exact fin (env0 := env.put p w.tbl) rfl rfl h1
  · unfold readSelect at h
    obtain ⟨x, -, h⟩ := bind_ok h
    obtain ⟨r, h1, -⟩ := bind_ok h
    exact fin rfl rfl h1

open Classical in
/-- A ranking for which exactly the dependants of `p` are below `p`. -/
noncomputable def rankFor (cfg : Cfg S) (rank : T → Nat) (p t : T) : Nat :=
  if DependsOn cfg t p then rank t else if t = p then rank p else rank p + 1 + rank t

theorem DependsOn.rank_lt (hac : Acyclic cfg rank) {t p : T} (h : DependsOn cfg t p) : rank t < rank p := by
  induction h with
  | direct hfk => exact hac _ _ hfk
  | step hfk _ ih => exact lt_trans ih (hac _ _ hfk)

theorem DependsOn.down {t q p : T} {fk : FK S} (h : DependsOn cfg q p) (hfk : IsFK cfg q fk) : DependsOn cfg fk.child p := by
  induction h with
  | direct hfk' => exact .step hfk' (.direct hfk)
  | step hfk' _ ih => exact .step hfk' (ih hfk)

theorem rankFor_self (hac : Acyclic cfg rank) (p : T) : rankFor cfg rank p p = rank p := by
  unfold rankFor
  rw [if_neg (fun h => absurd (h.rank_lt hac) (lt_irrefl _)), if_pos rfl]

theorem rankFor_lt (hac : Acyclic cfg rank) {p t : T} (h : rankFor cfg rank p t < rankFor cfg rank p p) : DependsOn cfg t p := by
  rw [rankFor_self hac] at h
  unfold rankFor at h
  split at h
  · assumption
  · split at h <;> omega

theorem acyclic_rankFor (hac : Acyclic cfg rank) (p : T) : Acyclic cfg (rankFor cfg rank p) := by
  intro q fk hfk
  have h0 := hac q fk hfk
  unfold rankFor
  by_cases hq : DependsOn cfg q p
  · rw [if_pos (hq.down (t := q) hfk), if_pos hq]; exact h0
  · rw [if_neg hq]
    by_cases hqp : q = p
    · subst hqp
      rw [if_pos (.direct hfk), if_pos rfl]; exact h0
    · rw [if_neg hqp]
      by_cases hc : DependsOn cfg fk.child p
      · rw [if_pos hc]
        have := hc.rank_lt hac
        omega
      · rw [if_neg hc]
        split <;> omega

/-- C86: a thread that has the write guard of `p` and any guards on other tables, and flushes a removal with marked rows. It
returns exactly if none of the other guards is on a table that depends on `p`. Then the cascade is the usual one. -/
theorem C86_removal_iff {ev : Event} (hst : Standard cfg) (hac : Acyclic cfg rank) (hc : ev.isCreation = false)
    (hr : ev.isRemoval = true) (hh : cfg.handlers[ev.id]? = some .delete) {n : Nat} {p : T} (hn : rank p < n)
    (hp : (S p).kind = .consistent) {w : W (S p)} {env : Env S} (hl : env.reads p = 0)
    (hrd : Ready key cfg (Function.update env.tbl p w.tbl)) {rows : List Nat} (hw : w.changes = .these rows)
    (hne : rows ≠ []) (hpd : (w.pushed && w.delete) = false) (ht : Tame cfg rows) (hlt : ∀ i ∈ rows, i < w.tbl.len) :
    ((∃ env', flush cfg n p w ev env = .ok env') ↔ ∀ c, DependsOn cfg c p → env.writer c = false ∧ env.reads c = 0) ∧
    ∀ env', flush cfg n p w ev env = .ok env' → Ready key cfg env'.tbl ∧ Cascaded cfg (Function.update env.tbl p w.tbl) env'.tbl p rows := by
  have hce : w.changes.isEmpty = false := by rw [hw]; simp [Select.isEmpty, hne]
  have needs : ∀ env', flush cfg n p w ev env = .ok env' → ∀ c, DependsOn cfg c p → env.writer c = false ∧ env.reads c = 0 := by
    intro env' h c hd
    have hcp : c ≠ p := by rintro rfl; exact absurd (hd.rank_lt hac) (lt_irrefl _)
    obtain ⟨a, b⟩ := C86_needs h hce hd hcp
    exact ⟨a, b hh⟩
  have suff : (∀ c, DependsOn cfg c p → env.writer c = false ∧ env.reads c = 0) → ∃ env', flush cfg n p w ev env = .ok env' ∧
      Ready key cfg env'.tbl ∧ Cascaded cfg (Function.update env.tbl p w.tbl) env'.tbl p rows := by
    intro hfree
    have hac' := acyclic_rankFor hac p
    obtain ⟨rows', env1, a1, a2, a3⟩ := doFlush_ok (key := key) hst hac' hc hh n p (by rw [rankFor_self hac]; exact hn)
      w.pushed w.delete rows (env.unlock p w.tbl) hpd ht (by rw [unlock_tbl]; exact hrd) (by
        intro t htl
        have hd := rankFor_lt hac htl
        have htp : t ≠ p := by rintro rfl; exact absurd (hd.rank_lt hac) (lt_irrefl _)
        refine ⟨(hfree t hd).2, ?_⟩
        show Function.update env.writer p false t = false
        rw [Function.update_of_ne htp]
        exact (hfree t hd).1)
    obtain ⟨x, b1, b2, b3⟩ := Post.cascaded hst hac' hp (by rw [unlock_tbl]; exact hrd) a3 a2 (by
      intro i hi; rw [unlock_tbl]; simpa using hlt i hi)
    have hlk := lock_ok (env := env1) (t := p) (by rw [a3.reads]; exact hl) (by
      rw [a3.writer]; exact Function.update_self ..)
    refine ⟨Env.unlock { env1 with writer := Function.update env1.writer p true } p x, ?_, ?_, ?_⟩
    · unfold flush flushWith
      rw [if_neg (by simp [hce])]
      simp only []
      rw [hw, a1, okBind]
      simp only []
      have hne' : (Select.these rows').isEmpty = false := by
        cases rows' with
        | nil => exact absurd (a2.symm.eq_nil) hne
        | cons => rfl
      rw [if_pos (by simp [hr, hne'])]
      rw [hlk, okBind]
      simp only [W.lock]
      rw [b1, okBind]
    · exact b2
    · rw [unlock_tbl] at b3; exact b3
  refine ⟨⟨fun ⟨env', h⟩ => needs env' h, fun h => ?_⟩, ?_⟩
  · obtain ⟨env', h1, -⟩ := suff h; exact ⟨env', h1⟩
  · intro env' h
    obtain ⟨env2, h1, h2⟩ := suff (needs env' h)
    rw [h] at h1
    injection h1 with h1; subst h1
    exact h2

/-- C86: an event whose handler does nothing, with anything marked: read guards do no harm. -/
theorem C86_null_iff {ev : Event} (hse : Searchable cfg) (hac : Acyclic cfg rank) (hc : ev.isRemoval = false)
    (hh : cfg.handlers[ev.id]? = some .null) {n : Nat} {p : T} (hn : rank p < n) {w : W (S p)} {env : Env S}
    (hrd : Ready key cfg (Function.update env.tbl p w.tbl)) (hce : w.changes.isEmpty = false) (hpd : (w.pushed && w.delete) = false) :
    ((∃ env', flush cfg n p w ev env = .ok env') ↔ ∀ c, DependsOn cfg c p → env.writer c = false) ∧
    ∀ env', flush cfg n p w ev env = .ok env' → env'.tbl = Function.update env.tbl p w.tbl := by
  have needs : ∀ env', flush cfg n p w ev env = .ok env' → ∀ c, DependsOn cfg c p → env.writer c = false := by
    intro env' h c hd
    have hcp : c ≠ p := by rintro rfl; exact absurd (hd.rank_lt hac) (lt_irrefl _)
    exact (C86_needs h hce hd hcp).1
  have suff : (∀ c, DependsOn cfg c p → env.writer c = false) → ∃ env', flush cfg n p w ev env = .ok env' ∧
      env'.tbl = Function.update env.tbl p w.tbl := by
    intro hfree
    obtain ⟨sel', env1, a1, a2, a3⟩ := doFlushNull_ok (key := key) hse (acyclic_rankFor hac p) (by simp [hc]) hh n p
      (by rw [rankFor_self hac]; exact hn) w.pushed w.delete w.changes (env.unlock p w.tbl) hpd (by rw [unlock_tbl]; exact hrd) (by
        intro t htl
        have hd := rankFor_lt hac htl
        have htp : t ≠ p := by rintro rfl; exact absurd (hd.rank_lt hac) (lt_irrefl _)
        show Function.update env.writer p false t = false
        rw [Function.update_of_ne htp]
        exact hfree t hd)
    refine ⟨env1, ?_, ?_⟩
    · unfold flush flushWith
      rw [if_neg (by simp [hce])]
      simp only []
      rw [a1, okBind]
      simp only [hc, Bool.false_and, Bool.false_eq_true, if_false]
    · rw [a3.tbl, unlock_tbl]
  refine ⟨⟨fun ⟨env', h⟩ => needs env' h, fun h => ?_⟩, ?_⟩
  · obtain ⟨env', h1, -⟩ := suff h; exact ⟨env', h1⟩
  · intro env' h
    obtain ⟨env2, h1, h2⟩ := suff (needs env' h)
    rw [h] at h1
    injection h1 with h1; subst h1
    exact h2

/-! ### The hypotheses are met -/

theorem uniDepends {c p : Fin 3} : DependsOn uniCfg c p ↔ (p = 0 ∧ (c = 1 ∨ c = 2)) ∨ (p = 1 ∧ c = 2) := by
  constructor
  · intro h
    induction h with
    | direct hfk => rcases uniIsFK.1 hfk with ⟨rfl, rfl⟩ | ⟨rfl, rfl⟩ <;> decide
    | step hfk _ ih =>
      rcases uniIsFK.1 hfk with ⟨rfl, rfl⟩ | ⟨rfl, rfl⟩
      · rcases ih with ⟨h, -⟩ | ⟨-, rfl⟩
        · cases h
        · decide
      · rcases ih with ⟨h, -⟩ | ⟨h, -⟩ <;> cases h
  · rintro (⟨rfl, rfl | rfl⟩ | ⟨rfl, rfl⟩)
    · exact .direct (fk := uniFK01) (uniIsFK.2 (by simp))
    · exact .step (fk := uniFK01) (uniIsFK.2 (by simp)) (.direct (p := (1 : Fin 3)) (fk := uniFK12) (uniIsFK.2 (by simp)))
    · exact .direct (fk := uniFK12) (uniIsFK.2 (by simp))

/-- A write guard on the children, with children 0 and 1 marked. -/
def uniMarked : W (UniS 1) := { W.lock (uniTbl 1) with changes := .these [0, 1], delete := true }

/-- The thread has table 1 for writing, and guards on others. -/
def uniHaving (reads : Fin 3 → Nat) (writer : Fin 3 → Bool) : Env UniS := { uniEnv with reads := reads, writer := writer }

/-- The thread flushes table 1, which table 2 depends on and which depends on table 0. Whatever guards it has, it returns exactly
if none is on table 2. -/
example (reads : Fin 3 → Nat) (writer : Fin 3 → Bool) (h1 : reads 1 = 0) :
    (∃ env', flush uniCfg 3 1 uniMarked evDelete (uniHaving reads writer) = .ok env') ↔ writer 2 = false ∧ reads 2 = 0 := by
  have h := (C86_removal_iff (key := uniKey) uniStandard uniAcyclic (ev := evDelete) rfl rfl rfl (n := 3) (p := 1) (by decide) rfl
    (w := uniMarked) (env := uniHaving reads writer) h1 (by
      show Ready uniKey uniCfg (Function.update uniTbl 1 (uniTbl 1))
      rw [Function.update_eq_self]; exact uniReady) rfl (by decide) rfl (fun _ => by decide) (by decide)).1
  rw [h]
  constructor
  · intro h; exact h 2 (uniDepends.2 (by decide))
  · intro h c hc
    rcases uniDepends.1 hc with ⟨h, -⟩ | ⟨-, rfl⟩
    · cases h
    · exact h

example : uniMarked = { W.lock (uniTbl 1) with changes := uniMarked.changes, delete := true } ∧
    ((W.lock (uniTbl 1)).steps (uniKey 1) [.delete 0, .delete 1]).map (fun w => (w.changes, w.delete, w.pushed)) =
      .ok (uniMarked.changes, uniMarked.delete, uniMarked.pushed) := ⟨rfl, by rfl⟩

/-- With table 0 for writing as well: the flush returns and table 0 stays locked; with table 2 for reading: it hangs. -/
example : uniDump (flush uniCfg 3 1 uniMarked evDelete (uniHaving (fun _ => 0) (fun t => decide (t ≠ 2)))) =
      some [[some (10, 0), some (11, 0), some (12, 0), none], [none, none, some (2, 22), none], [some (2, 33), none, none, none, none]] ∧
    (flush uniCfg 3 1 uniMarked evDelete (uniHaving (fun _ => 0) (fun t => decide (t ≠ 2)))).map (fun e => (e.writer 0, e.writer 1)) =
      .ok (true, false) ∧
    (flush uniCfg 3 1 uniMarked evDelete (uniHaving (fun t => if t = 2 then 1 else 0) (fun t => decide (t = 1)))).map (fun _ => ()) =
      .error .deadlock ∧
    (flush uniCfg 3 1 { uniMarked with delete := false } evCreate
      (uniHaving (fun t => if t = 2 then 1 else 0) (fun t => decide (t = 1)))).map (fun e => (e.reads 2, e.writer 1)) = .ok (1, false) :=
  ⟨by decide, by rfl, by rfl, by rfl⟩

end V11
