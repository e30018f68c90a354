import Verif.Props.Integrity

/-!
# More about flushing: C58–C61

Reading locks, `live_flush`, dependants that cannot lose rows, events nobody handles.
-/

set_option linter.unusedSimpArgs false
set_option linter.unusedSectionVars false
set_option linter.unusedVariables false

namespace V11
variable {T : Type} [DecidableEq T] {S : T → Schema} [LS : ∀ t, LawfulSchema (S t)]
variable {K : Type} [LinearOrder K] {key : (t : T) → Row (S t) → K} {cfg : Cfg S} {rank : T → Nat}

/-! ## C58 -/

/-- C58: `t::read(universe).select_rows(universe, removal event, rows)` removes everything that
(transitively) references `rows`, in all other tables, as a deletion of `rows` would — but keeps `rows`
themselves: the table is untouched. -/
theorem C58_read_select_spares_rows {ev : Event} (hst : Standard cfg) (hac : Acyclic cfg rank)
    (hc : ev.isCreation = false) (hh : cfg.handlers[ev.id]? = some .delete) {n : Nat} {p : T}
    (hn : rank p < n) (hp : (S p).kind = .consistent) {env : Env S} (hu : Unlocked env) (hrd : Ready key cfg env.tbl)
    (rows : List Nat) (hl : ∀ i ∈ rows, i < (env.tbl p).len) (ht : Tame cfg rows) :
    ∃ env', readSelect cfg n p ev (.these rows) env = .ok env' ∧ Unlocked env' ∧ Ready key cfg env'.tbl ∧
      env'.tbl p = env.tbl p ∧ ∃ x, Cascaded cfg env.tbl (Function.update env'.tbl p x) p rows := by
  obtain ⟨rows', env1, a1, a2, a3⟩ := doFlush_ok (key := key) hst hac hc hh n p hn false false rows env rfl ht hrd (hu.free _)
  obtain ⟨x, b1, b2, b3⟩ := Post.cascaded hst hac hp hrd a3 a2 hl
  refine ⟨env1, ?_, ⟨by rw [a3.reads]; exact hu.1, by rw [a3.writer]; exact hu.2⟩, a3.ready, a3.same p (le_refl _), x, b3⟩
  unfold readSelect Env.peek
  rw [if_neg (by simp [hu.2 p]), okBind, a1, okBind]

/-- C58 applies: children 0 and 1 of parent 0 go, parent 0 stays. -/
example : uniDump (readSelect uniCfg 3 0 evDelete (.these [0]) uniEnv) =
    some [[some (10, 0), some (11, 0), some (12, 0), none], [none, none, some (2, 22), none],
      [some (2, 33), none, none, none, none]] := by decide

/-! ## C59, C61 -/

/-- If telling the trackers succeeded, the handler was run successfully for every foreign_auto tracker. -/
theorem doFlush_ran {n : Nat} {p : T} {ev : Event} {pushed delete : Bool} {sel : Select (List Nat)} {env : Env S}
    {r : Select (List Nat) × Env S} (h : doFlush cfg n p ev pushed delete sel env = .ok r) {fk : FK S} (hfk : IsFK cfg p fk) :
    ∃ hd sel' m e1 e2, cfg.handler ev = .ok hd ∧ handlerRun (doFlush cfg m) hd fk.child ev sel' e1 = .ok e2 := by
  cases n with
  | zero => cases h
  | succ n =>
    unfold doFlush at h
    split at h
    · cases h
    · cases eh : cfg.handler ev with
      | error q => rw [eh] at h; cases h
      | ok hd =>
        rw [eh, okBind] at h
        cases ef : (cfg.trackers p).foldlM (flushStep (doFlush cfg n) p ev hd) ⟨sel, sel.isAll, env⟩ with
        | error q => rw [ef] at h; cases h
        | ok st =>
          obtain ⟨t, t', ht⟩ := foldlM_ok_mem ef hfk
          unfold flushStep at ht
          rw [if_neg (by simp [Tracker.considers])] at ht
          simp only [] at ht
          generalize (if (!t.sorted && (Tracker.auto fk).sort) = true then
            ({ sel := t.sel.sort, sorted := true, env := t.env } : FlushSt S) else t) = t1 at ht
          cases et : trackerHandle (doFlush cfg n) p (.auto fk) ev t1.sel hd t1.env with
          | error q => rw [et] at ht; cases ht
          | ok env1 =>
            unfold trackerHandle at et
            simp only [] at et
            cases e1 : t1.env.peek fk.child with
            | error q => rw [e1] at et; cases et
            | ok x =>
              rw [e1, okBind] at et
              cases e2 : fk.select x t1.sel with
              | error q => rw [e2] at et; cases et
              | ok s2 =>
                rw [e2, okBind] at et
                exact ⟨hd, s2, n, t1.env, env1, rfl, et⟩

/-- `flush` with something to tell told the trackers. -/
theorem flush_ran {n : Nat} {p : T} {w : W (S p)} {ev : Event} {env env' : Env S} (hw : w.changes.isEmpty = false)
    (h : flush cfg n p w ev env = .ok env') : ∃ e r, doFlush cfg n p ev w.pushed w.delete w.changes e = .ok r := by
  unfold flush flushWith at h
  rw [if_neg (by simp [hw])] at h
  simp only [] at h
  cases e : doFlush cfg n p ev w.pushed w.delete w.changes (env.unlock p w.tbl) with
  | error q => rw [e] at h; cases h
  | ok r => exact ⟨_, r, e⟩

/-- C59: if a table has a foreign_auto dependant that is neither consistent nor sorted (append, bag, list),
then a flush of it with an event the delete handler serves never returns once anything is marked — even if no
row of the dependant references a marked row. -/
theorem C59_unremovable_dependant {ev : Event} {p : T} {fk : FK S} (hfk : IsFK cfg p fk)
    (hk : (S fk.child).kind ≠ .consistent ∧ (S fk.child).kind ≠ .sorted)
    (hh : cfg.handlers[ev.id]? = some .delete) (n : Nat) (w : W (S p)) (env : Env S) (hw : w.changes.isEmpty = false) :
    ∀ env', flush cfg n p w ev env ≠ .ok env' := by
  intro env' h
  obtain ⟨e, r, h1⟩ := flush_ran hw h
  obtain ⟨hd, sel, m, e1, e2, h2, h3⟩ := doFlush_ran h1 hfk
  have : hd = .delete := by
    unfold Cfg.handler at h2; rw [hh] at h2; injection h2 with h2; exact h2.symm
  subst this
  unfold handlerRun handlerNeedsSort at h3
  simp only [] at h3
  cases hp : e1.peek fk.child with
  | error q => rw [hp] at h3; cases h3
  | ok x =>
    rw [hp, okBind, okBind] at h3
    unfold handlerHandle at h3
    simp only [] at h3
    rw [hp, okBind] at h3
    unfold tableRemoveRows at h3
    cases hkk : (S fk.child).kind <;> simp_all
    all_goals cases h3

/-- C61: an event without a handler (the default for events that neither create nor remove) panics as soon as
the table has a foreign_auto dependant, whatever is in it. -/
theorem C61_unhandled_event {ev : Event} {p : T} {fk : FK S} (hfk : IsFK cfg p fk)
    (hh : cfg.handlers[ev.id]? = some .panicking) (n : Nat) (w : W (S p)) (env : Env S) (hw : w.changes.isEmpty = false) :
    ∀ env', flush cfg n p w ev env ≠ .ok env' := by
  intro env' h
  obtain ⟨e, r, h1⟩ := flush_ran hw h
  obtain ⟨hd, sel, m, e1, e2, h2, h3⟩ := doFlush_ran h1 hfk
  have : hd = .panicking := by
    unfold Cfg.handler at h2; rw [hh] at h2; injection h2 with h2; exact h2.symm
  subst this
  cases h3

/-- C61: but without dependants, the same flush is fine: only the observers are told, and nothing is removed
unless the event is a removal. -/
theorem C61_unhandled_event_harmless {ev : Event} {p : T} (hob : ∀ tr ∈ cfg.trackers p, ∃ o, tr = .observer o)
    (hh : cfg.handlers[ev.id]? = some .panicking) (hr : ev.isRemoval = false) (n : Nat) (w : W (S p))
    (env : Env S) (hl : Holding env p) (hpd : (w.pushed && w.delete) = false) :
    ∃ env', flush cfg (n + 1) p w ev env = .ok env' ∧ Unlocked env' ∧ env'.tbl = Function.update env.tbl p w.tbl := by
  by_cases he : w.changes.isEmpty = true
  · refine ⟨env.unlock p w.tbl, ?_, hl.unlock _, rfl⟩
    unfold flush flushWith; rw [if_pos he]
  · have hu := hl.unlock w.tbl
    have loop : ∀ (ts : List (Tracker S)), (∀ tr ∈ ts, ∃ o, tr = .observer o) → ∀ st : FlushSt S, Unlocked st.env →
        ∃ st', ts.foldlM (flushStep (doFlush cfg n) p ev .panicking) st = .ok st' ∧ Unlocked st'.env ∧ st'.env.tbl = st.env.tbl := by
      intro ts
      induction ts with
      | nil => intro _ st hu; exact ⟨st, rfl, hu, rfl⟩
      | cons tr ts ih =>
        intro hts st hu
        obtain ⟨o, rfl⟩ := hts tr (by simp)
        have h1 : ∃ st1, flushStep (doFlush cfg n) p ev .panicking st (.observer o) = .ok st1 ∧ Unlocked st1.env ∧ st1.env.tbl = st.env.tbl := by
          unfold flushStep
          split
          · exact ⟨st, rfl, hu, rfl⟩
          · simp only [trackerHandle]
            by_cases hs : (!st.sorted && (Tracker.observer (S := S) o).sort) = true
            · simp only [if_pos hs]; exact ⟨_, rfl, hu, rfl⟩
            · simp only [if_neg hs]; exact ⟨_, rfl, hu, rfl⟩
        obtain ⟨st1, f1, f2, f3⟩ := h1
        obtain ⟨st2, g1, g2, g3⟩ := ih (fun tr h => hts tr (by simp [h])) st1 f2
        refine ⟨st2, ?_, g2, by rw [g3, f3]⟩
        rw [List.foldlM_cons, f1, okBind, g1]
    obtain ⟨st', l1, l2, l3⟩ := loop (cfg.trackers p) hob ⟨w.changes, w.changes.isAll, env.unlock p w.tbl⟩ hu
    refine ⟨st'.env, ?_, l2, l3⟩
    unfold flush flushWith
    rw [if_neg he]
    simp only [doFlush]
    rw [if_neg (by simp [hpd, hr])]
    have : cfg.handler ev = .ok .panicking := by unfold Cfg.handler; rw [hh]
    rw [this, okBind, l1, okBind, okBind]
    simp [hr]

/-- An event nobody handles. -/
def evUpdate : Event := ⟨0, false, false⟩

/-- C61 applies: table 0 has a dependant, table 2 has none. -/
example : uniDump (session uniCfg 3 uniKey 0 [.select 0] evUpdate uniEnv) = none ∧
    uniDump (session uniCfg 3 uniKey 2 [.select 0] evUpdate uniEnv) = uniDump (.ok uniEnv) ∧
    IsFK uniCfg 0 uniFK01 ∧ uniCfg.handlers[evUpdate.id]? = some .panicking :=
  ⟨by decide, by decide, uniIsFK.2 (Or.inl ⟨rfl, rfl⟩), rfl⟩

/-! ## C60 -/

/-- C60: `live_flush` of deletions does to all tables what `flush` does, keeps the lock, and leaves it
with nothing to flush. -/
theorem C60_live_flush_cascades {ev : Event} (hst : Standard cfg) (hac : Acyclic cfg rank)
    (hr : ev.isRemoval = true) (hc : ev.isCreation = false) (hh : cfg.handlers[ev.id]? = some .delete) {n : Nat} {p : T}
    (hn : rank p < n) (hp : (S p).kind = .consistent) {env : Env S} (hl : Holding env p) (hrd : Ready key cfg env.tbl)
    (rows : List Nat) (hl' : ∀ i ∈ rows, (env.tbl p).contains i = true) (ht : Tame cfg rows) :
    ∃ w w' env', (W.lock (env.tbl p)).steps (key p) (rows.map .delete) = .ok w ∧
      liveFlush cfg n p w ev env = .ok (w', env') ∧ Holding env' p ∧
      w'.tbl = env'.tbl p ∧ w'.changes.isEmpty = true ∧ w'.pushed = false ∧ (rows ≠ [] → w'.delete = false) ∧
      Ready key cfg env'.tbl ∧ Cascaded cfg env.tbl env'.tbl p rows := by
  obtain ⟨w, hw⟩ := steps_delete_ok (key := key p) hp (W.lock (env.tbl p)) rows hl'
  have hfm : (rows.map (LOp.delete (S := S p))).filterMap LOp.mark = rows := by
    rw [List.filterMap_map]
    have : (LOp.mark ∘ (LOp.delete (S := S p))) = some := rfl
    rw [this, List.filterMap_some]
  obtain ⟨b1, b2⟩ := steps_marks (rows := []) hp rfl (rows.map .delete) (by simp [LOp.mark]) hw
  rw [hfm, List.nil_append] at b2
  have hb := steps_book hp _ hw
  have hpu : w.pushed = false := by
    rw [hb.pushed]
    have : (rows.map (LOp.delete (S := S p))).any LOp.adds = false := by
      rw [List.any_eq_false]; intro op hop
      obtain ⟨i, -, rfl⟩ := List.mem_map.1 hop
      simp [LOp.adds]
    rw [this]; rfl
  have b1' : w.tbl = env.tbl p := b1
  have hput : (env.put p w.tbl) = env := by
    unfold Env.put; rw [b1', Function.update_eq_self]
  have hlt : ∀ i ∈ rows, i < (env.tbl p).len := by
    intro i hi
    have := hl' i hi
    unfold Tbl.contains at this
    rw [if_pos hp] at this
    simp only [Bool.and_eq_true, decide_eq_true_eq] at this
    exact this.1
  by_cases he : rows = []
  · subst he
    have hww : w = W.lock (env.tbl p) := by
      injection hw with hw; exact hw.symm
    subst hww
    refine ⟨_, W.lock (env.tbl p), env, rfl, rfl, hl, rfl, rfl, rfl, fun h => absurd rfl h, hrd, ?_⟩
    have hnd : ∀ t i, ¬ Doomed cfg env.tbl p [] t i := by
      intro t i h
      induction h with
      | seed h => cases h
      | step _ _ _ _ ih => exact ih
    refine ⟨fun t _ i hd => absurd hd (hnd t i), fun _ _ _ _ => rfl, ?_, fun _ _ _ => rfl⟩
    intro t _
    refine ⟨fun _ => true, fun r => ⟨fun h => (by cases h), ?_⟩, ?_⟩
    · rintro ⟨q, fk, k, -, -, hd⟩; exact absurd hd (hnd q k)
    · intro L hL; rw [List.filter_eq_self.2 (by simp)]; exact hL
  · have hfree : FreeBelow rank env (rank p) := by
      intro t ht
      refine ⟨hl.1 t, ?_⟩
      rw [hl.2 t]
      have : t ≠ p := by rintro rfl; omega
      simp [this]
    obtain ⟨rows', env1, a1, a2, a3⟩ := doFlush_ok (key := key) hst hac hc hh n p hn w.pushed w.delete rows env (by simp [hpu]) ht hrd hfree
    obtain ⟨x, c1, c2, c3⟩ := Post.cascaded hst hac hp hrd a3 a2 hlt
    have hsame : env1.tbl p = env.tbl p := a3.same p (le_refl _)
    refine ⟨w, W.lock x, env1.put p x, hw, ?_, ⟨?_, ?_⟩, ?_, rfl, rfl, fun _ => rfl, c2, c3⟩
    · unfold liveFlush
      have : w.changes.isEmpty = false := by rw [b2]; simp [Select.isEmpty, he]
      rw [if_neg (by simp [this]), hput, b2, a1, okBind]
      simp only []
      have hne' : (Select.these rows').isEmpty = false := by
        cases rows' with
        | nil => exact absurd (a2.symm.eq_nil) he
        | cons => rfl
      rw [if_pos (by simp [hr, hne'])]
      rw [show w.tbl.removeSel (.these rows') = .ok x by rw [b1', ← hsame]; exact c1, okBind]
    · show ∀ t, env1.reads t = 0
      rw [a3.reads]; exact hl.1
    · show ∀ t, env1.writer t = _
      rw [a3.writer]; exact hl.2
    · show x = Function.update env1.tbl p x p
      simp

/-- C60 applies: the same deletion as in C29, under a lock that is kept. -/
def liveDemo : R (Env UniS) := do
  let (w, env) ← uniEnv.lock 0
  let w ← w.steps (uniKey 0) [.delete 0, .delete 1]
  let (w, env) ← liveFlush uniCfg 3 0 w evDelete env
  let w ← w.steps (uniKey 0) [.push (uniRow 0 99 0)]
  flush uniCfg 3 0 w evCreate env

example : uniDump liveDemo =
    some [[some (99, 0), none, some (12, 0), none], [none, none, some (2, 22), none], [some (2, 33), none, none, none, none]] := by decide

end V11
