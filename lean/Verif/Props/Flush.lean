import Verif.Lemmas.Session
import Verif.Lemmas.Observers
import Verif.Props.DemoUni

/-!
# Flushing one table: C06, C07, C08, C27, C28

`session cfg n key p ops ev env` is `let mut x = p::write(universe); …ops…; x.flush(universe, ev)` with a
stack that allows `n` nested flushes.
-/

set_option linter.unusedSimpArgs false
set_option linter.unusedSectionVars false
set_option linter.unusedVariables false

namespace V11
variable {T : Type} [DecidableEq T] {S : T → Schema} [LS : ∀ t, LawfulSchema (S t)]
variable {K : Type} [LinearOrder K] {key : (t : T) → Row (S t) → K} {cfg : Cfg S} {rank : T → Nat}

/-- A session whose calls only mark rows, up to the flush. -/
theorem session_marks {p : T} (hp : (S p).kind = .consistent) {env : Env S} (hu : Unlocked env) {ops : List (LOp (S p))}
    (hm : ∀ op ∈ ops, op.mark.isSome = true) {w : W (S p)} (hs : (W.lock (env.tbl p)).steps (key p) ops = .ok w) :
    ∃ env1, Holding env1 p ∧ env1.tbl = env.tbl ∧ env1.log = env.log ∧ w.tbl = env.tbl p ∧ w.pushed = false ∧
      w.changes = .these (ops.filterMap LOp.mark) ∧ ∀ cfg n ev, session cfg n key p ops ev env = flush cfg n p w ev env1 := by
  obtain ⟨env1, a1, a2, a3, a4⟩ := unlocked_lock hu p
  obtain ⟨b1, b2⟩ := steps_marks (rows := []) hp rfl ops hm hs
  have hb := steps_book hp ops hs
  refine ⟨env1, a2, a3, a4, b1, ?_, by simpa using b2, ?_⟩
  · rw [hb.pushed]
    have : ops.any LOp.adds = false := by
      rw [List.any_eq_false]
      intro op hop
      have := hm op hop
      cases op <;> simp_all [LOp.mark, LOp.adds]
    simp [this, W.lock]
  · intro cfg n ev
    unfold session
    rw [a1, okBind]
    simp only []
    rw [hs, okBind]

/-! ## C06 -/

/-- C06: in a flush with a removal event exactly the marked rows of the table go — whether marked once or
several times — and all others keep their values. -/
theorem C06_flush_removes_exactly {ev : Event} (hst : Standard cfg) (hac : Acyclic cfg rank)
    (hr : ev.isRemoval = true) (hc : ev.isCreation = false) (hh : cfg.handlers[ev.id]? = some .delete) {n : Nat} {p : T}
    (hn : rank p < n) (hp : (S p).kind = .consistent) {env : Env S} (hu : Unlocked env) (hrd : Ready key cfg env.tbl)
    (ops : List (LOp (S p))) (hm : ∀ op ∈ ops, op.mark.isSome = true) (w : W (S p))
    (hs : (W.lock (env.tbl p)).steps (key p) ops = .ok w) (ht : Tame cfg (ops.filterMap LOp.mark))
    (hlt : ∀ i ∈ ops.filterMap LOp.mark, i < (env.tbl p).len) :
    ∃ env', session cfg n key p ops ev env = .ok env' ∧ Unlocked env' ∧
      ∀ i, (env'.tbl p).view i = if i ∈ ops.filterMap LOp.mark then none else (env.tbl p).view i := by
  obtain ⟨env1, a1, a2, a3, a4, a5, a6, a7⟩ := session_marks hp hu hm hs
  rw [a7]
  have hup : Function.update env1.tbl p w.tbl = env.tbl := by rw [a2, a4, Function.update_eq_self]
  by_cases he : ops.filterMap LOp.mark = []
  · rw [he] at a6 ⊢
    refine ⟨_, flush_nothing a6, a1.unlock _, ?_⟩
    intro i
    rw [unlock_tbl, hup]; simp
  · obtain ⟨env2, env', b1, b2, b3, b4, -, -⟩ := flush_removal hst hac hc hr hh hn hp a1 (by rw [hup]; exact hrd) a6 he (by simp [a5]) ht
      (by rw [a4]; exact hlt)
    rw [hup] at b4
    refine ⟨env', b1, b2, ?_⟩
    intro i
    by_cases hi : i ∈ ops.filterMap LOp.mark
    · rw [if_pos hi]; exact b4.gone p hp i (Doomed.seed hi)
    · rw [if_neg hi]
      refine b4.kept p hp i ?_
      intro hd
      rcases doomed_rank hac hd with ⟨-, h⟩ | h
      · exact hi h
      · omega

/-- C06: with an event that removes nothing (and whose handler does nothing), no row of any table changes,
even if rows were marked for deletion. -/
theorem C06_other_events_remove_nothing {ev : Event} (hse : Searchable cfg) (hac : Acyclic cfg rank)
    (hr : ev.isRemoval = false) (hh : cfg.handlers[ev.id]? = some .null) {n : Nat} {p : T}
    (hn : rank p < n) (hp : (S p).kind = .consistent) {env : Env S} (hu : Unlocked env) (hrd : Ready key cfg env.tbl)
    (ops : List (LOp (S p))) (hm : ∀ op ∈ ops, op.mark.isSome = true) (w : W (S p))
    (hs : (W.lock (env.tbl p)).steps (key p) ops = .ok w) :
    ∃ env', session cfg n key p ops ev env = .ok env' ∧ Unlocked env' ∧ env'.tbl = env.tbl := by
  obtain ⟨env1, a1, a2, a3, a4, a5, a6, a7⟩ := session_marks hp hu hm hs
  rw [a7]
  have hup : Function.update env1.tbl p w.tbl = env.tbl := by rw [a2, a4, Function.update_eq_self]
  obtain ⟨env', b1, b2, b3, -⟩ := flush_null hse hac hr hh hn a1 (by rw [hup]; exact hrd) (by simp [a5])
  exact ⟨env', b1, b2, by rw [b3, hup]⟩

/-- C06: on a table no other table depends on this holds for every event, whatever its handler. -/
theorem C06_any_event_without_dependants {ev : Event} {h : Handler} (hh : cfg.handlers[ev.id]? = some h)
    (hb : (ev.isCreation && ev.isRemoval) = false) (n : Nat) {p : T} (hp : (S p).kind = .consistent)
    (hts : ∀ tr ∈ cfg.trackers p, ∃ o, tr = .observer o) {env : Env S} (hu : Unlocked env)
    (hrd : ∀ t, Reach (key t) true (env.tbl t))
    (ops : List (LOp (S p))) (hm : ∀ op ∈ ops, op.mark.isSome = true) (w : W (S p))
    (hs : (W.lock (env.tbl p)).steps (key p) ops = .ok w) (hlt : ∀ i ∈ ops.filterMap LOp.mark, i < (env.tbl p).len) :
    ∃ env', session cfg (n + 1) key p ops ev env = .ok env' ∧ Unlocked env' ∧ (∀ t, t ≠ p → env'.tbl t = env.tbl t) ∧
      ∀ i, (env'.tbl p).view i =
        if ev.isRemoval = true ∧ i ∈ ops.filterMap LOp.mark then none else (env.tbl p).view i := by
  obtain ⟨env1, a1, a2, a3, a4, a5, a6, a7⟩ := session_marks hp hu hm hs
  rw [a7]
  have hup : Function.update env1.tbl p w.tbl = env.tbl := by rw [a2, a4, Function.update_eq_self]
  have hu1 := a1.unlock w.tbl
  by_cases he : ops.filterMap LOp.mark = []
  · rw [he] at a6 ⊢
    refine ⟨_, flush_nothing a6, a1.unlock _, ?_, ?_⟩
    · intro t ht; rw [unlock_tbl, hup]
    · intro i
      rw [unlock_tbl, hup]; simp
  · have hemp : w.changes.isEmpty = false := by
      rw [a6]; simp only [Select.isEmpty, List.isEmpty_eq_false_iff]; exact he
    obtain ⟨sel', env2, b1, b2, b3⟩ := doFlushObs_ok (rank := fun _ => 0) hh hb n p hts w.pushed w.delete (by simp [a5]) w.changes (env1.unlock p w.tbl)
    have hu2 : Unlocked env2 := by
      refine ⟨?_, ?_⟩
      · rw [b3.reads]; exact hu1.1
      · rw [b3.writer]; exact hu1.2
    have ht2 : env2.tbl = env.tbl := by rw [b3.tbl, unlock_tbl, hup]
    unfold flush flushWith
    rw [if_neg (by simp [hemp])]
    simp only []
    rw [b1, okBind]
    simp only []
    obtain ⟨rows', hrows', hperm⟩ : ∃ rows', sel' = .these rows' ∧ rows'.Perm (ops.filterMap LOp.mark) := by
      rw [a6] at b2
      cases sel' with
      | all => exact absurd b2 (by simp [SelPerm])
      | these r => exact ⟨r, rfl, b2⟩
    subst hrows'
    have hne' : (Select.these rows').isEmpty = false := by
      cases rows' with
      | nil => exact absurd (hperm.symm.eq_nil) he
      | cons => rfl
    by_cases hrm : ev.isRemoval = true
    · rw [if_pos (by simp [hrm, hne'])]
      obtain ⟨env3, c1, c2⟩ := unlock_unlocked hu2 p
      rw [c1, okBind]
      simp only [W.lock]
      obtain ⟨L, hL⟩ := (hrd p).wf
      have hall : ∀ i ∈ rows', i < L.length := by
        intro i hi; rw [← hL.len]; exact hlt i (hperm.mem_iff.1 hi)
      obtain ⟨x, e1, e2, e3⟩ := hL.deleteLoop hp rows' hall
      have hrmv : (env2.tbl p).removeSel (.these rows') = .ok x := by
        rw [ht2]; unfold Tbl.removeSel; simp only []; rw [hL.len]; exact e1
      rw [hrmv, okBind, c2]
      refine ⟨_, rfl, hu2, ?_, ?_⟩
      · intro t ht
        show Function.update env2.tbl p x t = _
        rw [Function.update_of_ne ht, ht2]
      · intro i
        show (Function.update env2.tbl p x p).view i = _
        simp only [Function.update_self]
        rw [e3.view, hL.view]
        by_cases hi : i ∈ ops.filterMap LOp.mark
        · rw [if_pos ((e2 i).2 (Or.inl (hperm.mem_iff.2 hi))), if_pos ⟨hrm, hi⟩]
        · rw [if_neg (c := ev.isRemoval = true ∧ _) (fun h => hi h.2)]
          have : i ∈ x.free ↔ i ∈ (env.tbl p).free := by
            rw [e2, hperm.mem_iff]
            exact ⟨fun h => h.resolve_left hi, Or.inr⟩
          simp only [this]
    · rw [if_neg (by simp [hrm])]
      refine ⟨env2, rfl, hu2, fun t _ => by rw [ht2], ?_⟩
      intro i
      rw [ht2, if_neg (by simp [hrm])]

/-- C06: a flush with nothing to flush calls no tracker, changes no row and cannot fail, whatever the event
and the universe. -/
theorem C06_nothing_marked {ev : Event} (cfg : Cfg S) (n : Nat) (p : T) (hp : (S p).kind = .consistent) (env : Env S)
    (hu : Unlocked env) (ops : List (LOp (S p))) (hno : ∀ op ∈ ops, op.touches = false) (w : W (S p))
    (hs : (W.lock (env.tbl p)).steps (key p) ops = .ok w) :
    ∃ env', session cfg n key p ops ev env = .ok env' ∧ env'.log = env.log ∧ Unlocked env' ∧
      env'.tbl = Function.update env.tbl p w.tbl := by
  obtain ⟨env1, a1, a2, a3, a4⟩ := unlocked_lock hu p
  have hb := steps_book hp ops hs
  have he : w.changes.isEmpty = true := by
    rw [hb.empty]
    have : ops.any LOp.touches = false := by rw [List.any_eq_false]; simpa using hno
    simp [this, W.lock, Select.isEmpty]
  refine ⟨env1.unlock p w.tbl, ?_, a4, a2.unlock _, by rw [unlock_tbl, a3]⟩
  unfold session
  rw [a1, okBind]
  simp only []
  rw [hs, okBind]
  unfold flush flushWith
  rw [if_pos he]

/-- C06 applies: parent 1 is selected and parent 0 deleted twice; the removal event takes both, the creation event nothing. -/
example : Standard uniCfg ∧ Acyclic uniCfg uniRank ∧ Unlocked uniEnv ∧ Ready uniKey uniCfg uniEnv.tbl ∧
    (∃ w, (W.lock (uniEnv.tbl 0)).steps (uniKey 0) [.delete 0, .select 1, .delete 0] = .ok w) ∧
    Tame uniCfg [0, 1, 0] ∧
    uniDump (session uniCfg 3 uniKey 0 [.delete 0, .select 1, .delete 0] evDelete uniEnv) =
      some [[none, none, some (12, 0), none], [none, none, some (2, 22), none], [some (2, 33), none, none, none, none]] ∧
    uniDump (session uniCfg 3 uniKey 0 [.delete 0, .select 1, .delete 0] evCreate uniEnv) = uniDump (.ok uniEnv) := by
  refine ⟨uniStandard, uniAcyclic, uniUnlocked, uniReady, ⟨_, rfl⟩, ?_, by decide, by decide⟩
  rintro ⟨p, fk, h, hk, hb⟩
  rcases uniIsFK.1 h with ⟨rfl, rfl⟩ | ⟨rfl, rfl⟩
  · cases hk
  · cases hb

/-! ## C07 -/

/-- C07: if rows were both added and deleted under one lock, `flush` panics. This is so in every universe —
whatever the trackers, handlers and contents, also if the first tracker would itself panic — so nothing is told
and nothing removed before. -/
theorem C07_no_interleaving (cfg : Cfg S) (n : Nat) {p : T} (hp : (S p).kind = .consistent) (t : Tbl (S p))
    (ops : List (LOp (S p))) (w : W (S p)) (hs : (W.lock t).steps (key p) ops = .ok w)
    (ha : ∃ op ∈ ops, op.adds = true) (hd : ∃ op ∈ ops, op.deletes = true) (ev : Event) (env : Env S) :
    flush cfg (n + 1) p w ev env = .error .interleaved := by
  have hb := steps_book hp ops hs
  have h1 : ops.any LOp.adds = true := List.any_eq_true.2 ha
  have h2 : ops.any LOp.deletes = true := List.any_eq_true.2 hd
  have h3 : ops.any LOp.touches = true := by
    obtain ⟨op, hop, h⟩ := ha
    refine List.any_eq_true.2 ⟨op, hop, ?_⟩
    cases op <;> simp_all [LOp.adds, LOp.touches]
  have hp' : w.pushed = true := by rw [hb.pushed, h1]; simp
  have hd' : w.delete = true := by rw [hb.delete, h2]; simp
  have he : w.changes.isEmpty = false := by rw [hb.empty, h3]; simp
  unfold flush flushWith
  rw [if_neg (by simp [he])]
  simp only []
  unfold doFlush
  rw [if_pos (by simp [hp', hd'])]
  rfl

/-- C07: likewise an event that claims to be both a creation and a removal, unless there is nothing to flush. -/
theorem C07_no_contradictory_event (cfg : Cfg S) (n : Nat) (p : T) (w : W (S p)) (ev : Event) (env : Env S)
    (hr : ev.isRemoval = true) (hc : ev.isCreation = true) (he : w.changes.isEmpty = false) :
    flush cfg (n + 1) p w ev env = .error .interleaved := by
  unfold flush flushWith
  rw [if_neg (by simp [he])]
  simp only []
  unfold doFlush
  rw [if_pos (by simp [hr, hc])]
  rfl

/-- C07: conversely a lock under which rows were only added, or only deleted, is not refused for that reason. -/
theorem C07_otherwise_accepted {p : T} (hp : (S p).kind = .consistent) (t : Tbl (S p)) (ops : List (LOp (S p))) (w : W (S p))
    (hs : (W.lock t).steps (key p) ops = .ok w) (h : (∀ op ∈ ops, op.adds = false) ∨ ∀ op ∈ ops, op.deletes = false) {ev : Event}
    {hd : Handler} (hh : cfg.handlers[ev.id]? = some hd) (hb : (ev.isCreation && ev.isRemoval) = false) (n : Nat)
    (hts : ∀ tr ∈ cfg.trackers p, ∃ o, tr = .observer o) (env : Env S) (hl : Holding env p) (he : ev.isRemoval = false) :
    ∃ env', flush cfg (n + 1) p w ev env = .ok env' := by
  have hbk := steps_book hp ops hs
  have hpd : (w.pushed && w.delete) = false := by
    rw [hbk.pushed, hbk.delete]
    rcases h with h | h
    · have : ops.any LOp.adds = false := by rw [List.any_eq_false]; simpa using h
      simp [this, W.lock]
    · have : ops.any LOp.deletes = false := by rw [List.any_eq_false]; simpa using h
      simp [this, W.lock]
  unfold flush flushWith
  by_cases hemp : w.changes.isEmpty = true
  · rw [if_pos hemp]; exact ⟨_, rfl⟩
  · rw [if_neg hemp]
    simp only []
    obtain ⟨sel', env2, b1, b2, b3⟩ := doFlushObs_ok (rank := fun _ => 0) hh hb n p hts w.pushed w.delete hpd w.changes (env.unlock p w.tbl)
    rw [b1, okBind]
    simp only []
    rw [if_neg (by simp [he])]
    exact ⟨_, rfl⟩

/-- C07 applies: a push and a delete of another row. -/
example : ∃ w, (W.lock (uniTbl 0)).steps (uniKey 0) [.push (uniRow 0 13 0), .delete 1] = .ok w ∧
    flush uniCfg 3 0 w evDelete uniEnv = .error .interleaved :=
  ⟨_, rfl, by rfl⟩

/-! ## C08 -/

/-- C08: after any sequence of calls, dropping the write lock of a consistent table panics iff one of them
left something to flush. -/
theorem C08_drop_panics_iff {S : Schema} [LS : LawfulSchema S] {key : Row S → K} (hk : S.kind = .consistent) (t : Tbl S) (ops : List (LOp S)) (w : W S)
    (hs : (W.lock t).steps key ops = .ok w) :
    (w.drop = .error .unflushed ↔ ∃ op ∈ ops, op.touches = true) ∧
    (w.drop = .ok w.tbl ↔ ∀ op ∈ ops, op.touches = false) := by
  have hb := steps_book hk ops hs
  have he : w.changes.isEmpty = !(ops.any LOp.touches) := by rw [hb.empty]; simp [W.lock, Select.isEmpty]
  unfold W.drop
  rw [he]
  by_cases h : ops.any LOp.touches = true
  · rw [h]
    have h' := List.any_eq_true.1 h
    refine ⟨⟨fun _ => h', fun _ => by simp [hk]⟩, ⟨fun hx => ?_, fun hx => ?_⟩⟩
    · simp [hk] at hx
    · obtain ⟨op, ho, ht⟩ := h'
      rw [hx op ho] at ht; cases ht
  · rw [Bool.not_eq_true] at h
    have h' := List.any_eq_false.1 h
    rw [h]
    refine ⟨⟨fun hx => ?_, ?_⟩, ⟨fun _ op ho => by simpa using h' op ho, fun _ => by simp⟩⟩
    · simp at hx
    · rintro ⟨op, ho, ht⟩
      exact absurd ht (h' op ho)

/-- C08: dropping the write lock of any other kind of table never panics. -/
theorem C08_drop_other_kinds {S : Schema} (hk : S.kind ≠ .consistent) (w : W S) : w.drop = .ok w.tbl := by
  unfold W.drop; rw [if_neg (fun h => hk h.1)]

/-- C08: after `live_flush` the lock is as good as new: only later calls count. -/
theorem C08_drop_after_live_flush {p : T} (hp : (S p).kind = .consistent) (cfg : Cfg S) (n : Nat) (w w1 : W (S p)) (ev : Event) (env env' : Env S)
    (hf : liveFlush cfg n p w ev env = .ok (w1, env')) (hne : w.changes.isEmpty = false) (ops : List (LOp (S p))) (w' : W (S p))
    (hs : w1.steps (key p) ops = .ok w') :
    (w'.drop = .error .unflushed ↔ ∃ op ∈ ops, op.touches = true) ∧
    (w'.drop = .ok w'.tbl ↔ ∀ op ∈ ops, op.touches = false) := by
  have : w1 = W.lock w1.tbl := by
    unfold liveFlush at hf
    rw [if_neg (by simp [hne])] at hf
    cases e : doFlush cfg n p ev w.pushed w.delete w.changes (env.put p w.tbl) with
    | error q => rw [e] at hf; cases hf
    | ok y =>
      obtain ⟨sel, env2⟩ := y
      rw [e, okBind] at hf
      simp only [] at hf
      split at hf
      · cases e2 : w.tbl.removeSel sel with
        | error q => rw [e2] at hf; cases hf
        | ok x =>
          rw [e2, okBind] at hf
          injection hf with hf; injection hf with h1 h2
          rw [← h1]; rfl
      · rw [okBind] at hf
        injection hf with hf; injection hf with h1 h2
        rw [← h1]; rfl
  rw [this] at hs
  exact C08_drop_panics_iff hp w1.tbl ops w' hs

/-- C08 applies: an edit alone may be dropped, a selection may not. -/
example : (∃ w, (W.lock (uniTbl 0)).steps (uniKey 0) [.set 1 0 (5 : Nat), .pushArray []] = .ok w ∧ w.drop = .ok w.tbl) ∧
    (∃ w, (W.lock (uniTbl 0)).steps (uniKey 0) [.set 1 0 (5 : Nat), .select 2] = .ok w ∧ w.drop = .error .unflushed) :=
  ⟨⟨_, rfl, rfl⟩, ⟨_, rfl, rfl⟩⟩

/-! ## C27 -/

/-- C27: `push` and `delete` on a consistent table put exactly the pushed or deleted id on the change list. -/
theorem C27_changes_recorded {S : Schema} [LS : LawfulSchema S] (hk : S.kind = .consistent) (w w' : W S) :
    (∀ row i, w.push row = .ok (w', i) → w'.changes = w.changes.push i) ∧
    (∀ i, w.deleteRow i = .ok w' → w'.changes = w.changes.push i) := by
  refine ⟨?_, ?_⟩
  · intro row i h
    unfold W.push at h
    cases hf : w.tbl.free with
    | nil =>
      rw [hf] at h
      simp only [W.pushEnd] at h
      cases e : w.tbl.pushOnly row with
      | error p => rw [e] at h; cases h
      | ok x =>
        rw [e, okBind] at h
        injection h with h; injection h with h1 h2
        subst h1 h2
        unfold W.eventAdd; rw [if_pos hk]
    | cons old rest =>
      rw [hf] at h
      simp only [] at h
      unfold W.eventAdd at h
      rw [if_pos hk] at h
      simp only [] at h
      cases e : ({ w.tbl with free := BSet.erase old (old :: rest) } : Tbl S).swapOutRow old row with
      | error p => rw [e] at h; cases h
      | ok x =>
        rw [e, okBind] at h
        injection h with h; injection h with h1 h2
        subst h1 h2
        rfl
  · intro i h
    simp only [W.deleteRow] at h
    rw [hk] at h
    simp only [] at h
    cases e : w.tbl.check i with
    | error p => rw [e] at h; cases h
    | ok x =>
      rw [e, okBind] at h; injection h with h; subst h
      have hx : x = i := by
        unfold Tbl.check at e
        split at e
        · cases e
        · split at e
          · cases e
          · injection e with e; exact e.symm
      subst hx
      unfold W.eventDel; rw [if_pos hk]

/-- C27: when rows are deleted, each interested tracker of the table is called exactly once, in
registration order, with exactly the marked rows (ascending if it asks), while the table still has them. -/
theorem C27_trackers_told_removal {ev : Event} (hst : Standard cfg) (hac : Acyclic cfg rank)
    (hr : ev.isRemoval = true) (hc : ev.isCreation = false) (hh : cfg.handlers[ev.id]? = some .delete) {n : Nat} {p : T}
    (hn : rank p < n) (hp : (S p).kind = .consistent) {env : Env S} (hu : Unlocked env) (hrd : Ready key cfg env.tbl)
    (ops : List (LOp (S p))) (hm : ∀ op ∈ ops, op.mark.isSome = true) (hne : ops ≠ []) (w : W (S p))
    (hs : (W.lock (env.tbl p)).steps (key p) ops = .ok w) (ht : Tame cfg (ops.filterMap LOp.mark))
    (hlt : ∀ i ∈ ops.filterMap LOp.mark, i < (env.tbl p).len) :
    ∃ env' new, session cfg n key p ops ev env = .ok env' ∧ env'.log = env.log ++ new ∧
      List.Forall₂ (fun (o : Observer) (c : Call S) => c.name = o.name ∧ c.event = ev ∧
        (∃ rs, c.sel = .these rs ∧ rs.Perm (ops.filterMap LOp.mark) ∧ (o.sort = true → rs.Pairwise (· ≤ ·))) ∧
        c.seen p = env.tbl p) (observers ev (cfg.trackers p)) (new.filter (fun c => c.table = p)) := by
  obtain ⟨env1, a1, a2, a3, a4, a5, a6, a7⟩ := session_marks hp hu hm hs
  rw [a7]
  have hup : Function.update env1.tbl p w.tbl = env.tbl := by rw [a2, a4, Function.update_eq_self]
  have he : ops.filterMap LOp.mark ≠ [] := by
    cases ops with
    | nil => exact absurd rfl hne
    | cons op ops =>
      obtain ⟨i, hi⟩ := Option.isSome_iff_exists.1 (hm op (by simp))
      rw [List.filterMap_cons, hi]; simp
  obtain ⟨env2, env', b1, b2, b3, b4, b5, b6⟩ := flush_removal hst hac hc hr hh hn hp a1 (by rw [hup]; exact hrd) a6 he (by simp [a5]) ht
    (by rw [a4]; exact hlt)
  obtain ⟨new, n1, n2, -⟩ := b5.log
  refine ⟨env', new, b1, ?_, ?_⟩
  · rw [b6, n1, ← a3]; rfl
  · refine n2.imp ?_
    rintro o c ⟨c1, c2, c3, c4⟩
    refine ⟨c1, c2, c3, ?_⟩
    rw [c4, unlock_tbl, hup]

/-- C27: the same for an event whose handler does nothing — creations, say — and any change list; the
trackers see the universe with the changes. -/
theorem C27_trackers_told_creation {ev : Event} (hse : Searchable cfg) (hac : Acyclic cfg rank)
    (hr : ev.isRemoval = false) (hh : cfg.handlers[ev.id]? = some .null) {n : Nat} {p : T}
    (hn : rank p < n) {w : W (S p)} {env : Env S} (hl : Holding env p)
    (hrd : Ready key cfg (Function.update env.tbl p w.tbl)) (hpd : (w.pushed && w.delete) = false)
    (he : w.changes.isEmpty = false) :
    ∃ env' new, flush cfg n p w ev env = .ok env' ∧ env'.log = env.log ++ new ∧
      List.Forall₂ (fun (o : Observer) (c : Call S) => c.name = o.name ∧ c.event = ev ∧ SelPerm c.sel w.changes ∧
        (o.sort = true → SelSorted c.sel) ∧ c.seen = Function.update env.tbl p w.tbl)
        (observers ev (cfg.trackers p)) (new.filter (fun c => c.table = p)) := by
  obtain ⟨env', b1, -, -, -, b4⟩ := flush_null hse hac hr hh hn hl hrd hpd
  obtain ⟨new, n1, n2, -⟩ := (b4 he).log
  exact ⟨env', new, b1, n1, n2⟩

/-- C27: the same when the table is cleared: the trackers get the selection "everything". -/
theorem C27_trackers_told_clear {ev : Event} (hst : Standard cfg) (hac : Acyclic cfg rank)
    (hr : ev.isRemoval = true) (hc : ev.isCreation = false) (hh : cfg.handlers[ev.id]? = some .delete) {n : Nat} {p : T}
    (hn : rank p < n) {w : W (S p)} {env : Env S} (hl : Holding env p)
    (hrd : ∀ t, Reach (key t) false (Function.update env.tbl p w.tbl t)) (hw : w.changes = .all)
    (hpd : (w.pushed && w.delete) = false) :
    ∃ env' new, flush cfg n p w ev env = .ok env' ∧ env'.log = env.log ++ new ∧
      List.Forall₂ (fun (o : Observer) (c : Call S) => c.name = o.name ∧ c.event = ev ∧ c.sel = .all ∧ c.seen p = w.tbl)
        (observers ev (cfg.trackers p)) (new.filter (fun c => c.table = p)) := by
  obtain ⟨env1, env', b1, -, -, -, -, b6, b7⟩ := flush_clear hst hac hc hr hh hn hl hrd hw hpd
  obtain ⟨new, n1, n2, -⟩ := b6.log
  refine ⟨env', new, b1, by rw [b7, n1]; rfl, ?_⟩
  refine n2.imp ?_
  rintro o c ⟨c1, c2, c3, c4⟩
  refine ⟨c1, c2, c3, ?_⟩
  rw [c4, unlock_tbl]; simp

/-- What the observers were told. -/
def uniLog (r : R (Env UniS)) : Option (List (Fin 3 × Select (List Nat) × List (Option (Nat × Nat)))) :=
  match r with
  | .ok e => some (e.log.map fun c => (c.table, c.sel, uniView (c.seen c.table) 4))
  | .error _ => none

/-- C27 applies: parents 2 and 0 are deleted; the observer of table 0 asked for ascending rows, and sees them. -/
example : (uniLog (session uniCfg 3 uniKey 0 [.delete 2, .delete 0] evDelete uniEnv)).map (fun l => l.filter (fun c => c.1 = 0)) =
    some [(0, .these [0, 2], [some (10, 0), some (11, 0), some (12, 0), none])] := by rfl

/-! ## C28 -/

/-- C28: trackers can only be attached to consistent tables, where they are appended; other tables' trackers
are not affected. -/
theorem C28_register_tracker (cfg : Cfg S) (p : T) (tr : Tracker S) :
    ((S p).kind ≠ .consistent → cfg.register p tr = .error .trackerOnInconsistent) ∧
    ((S p).kind = .consistent → ∃ cfg', cfg.register p tr = .ok cfg' ∧ cfg'.trackers p = cfg.trackers p ++ [tr] ∧
      (∀ q, q ≠ p → cfg'.trackers q = cfg.trackers q) ∧ cfg'.handlers = cfg.handlers) := by
  unfold Cfg.register
  refine ⟨fun h => by rw [if_neg h], fun h => ?_⟩
  rw [if_pos h]
  exact ⟨_, rfl, by simp, fun q hq => by simp [Function.update_of_ne hq], rfl⟩

/-- C28: so after any history of registrations that succeeded, a table that has trackers is consistent, and each
table has exactly those registered on it, in that order. -/
theorem C28_registration_histories (regs : List (T × Tracker S)) (cfg cfg' : Cfg S)
    (h : regs.foldlM (fun c r => Cfg.register c r.1 r.2) cfg = .ok cfg') :
    (∀ p, cfg'.trackers p = cfg.trackers p ++ (regs.filter (fun r => r.1 = p)).map Prod.snd) ∧
    ((∀ p, cfg.trackers p ≠ [] → (S p).kind = .consistent) → ∀ p, cfg'.trackers p ≠ [] → (S p).kind = .consistent) := by
  induction regs generalizing cfg with
  | nil => injection h with h; subst h; exact ⟨by simp, id⟩
  | cons r regs ih =>
    rw [List.foldlM_cons] at h
    by_cases hk : (S r.1).kind = .consistent
    · obtain ⟨cfg1, e1, e2, e3, e4⟩ := (C28_register_tracker cfg r.1 r.2).2 hk
      rw [e1, okBind] at h
      obtain ⟨i1, i2⟩ := ih cfg1 h
      refine ⟨?_, ?_⟩
      · intro p
        rw [i1]
        by_cases hp : r.1 = p
        · subst hp; rw [e2]; simp
        · rw [e3 p (Ne.symm hp)]; simp [hp]
      · intro h0
        refine i2 ?_
        intro p hp
        by_cases e : p = r.1
        · rw [e]; exact hk
        · rw [e3 p e] at hp; exact h0 p hp
    · rw [(C28_register_tracker cfg r.1 r.2).1 hk] at h; cases h

/-- C28 applies: a second observer on table 0; none on the sorted table 2. -/
example : ((uniCfg.register 0 (.observer uniObs)).toOption.map fun c => (c.trackers 0).length) = some 3 ∧
    (uniCfg.register 2 (.observer uniObs)).isOk = false := by decide

end V11
