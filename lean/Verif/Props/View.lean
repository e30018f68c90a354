import Verif.Model.View
import Verif.Props.Live
import Verif.Props.Events

/-!
# C99: `w.as_read().select_rows(…)`
-/

set_option linter.unusedSimpArgs false
set_option linter.unusedSectionVars false
set_option linter.unusedVariables false

namespace V11

section
variable {T : Type} [DecidableEq T] {S : T → Schema} [LS : ∀ t, LawfulSchema (S t)] {cfg : Cfg S} {rank : T → Nat}

/-- What selecting through `w.as_read()` did, against what selecting through `t::read(universe)` would have done once the write lock
`w` was released: the same panic, or the same tables and the same calls of trackers; and `w` is still locked, shows what it showed, and
has the same rows marked. -/
def SameSelect (p : T) (w : W (S p)) (view : R (W (S p) × Env S)) (gone : R (Env S)) : Prop :=
  (∀ q, view = .error q ↔ gone = .error q) ∧
  ∀ w' env', view = .ok (w', env') → w' = w ∧ env'.tbl p = w.tbl ∧ Holding env' p ∧
    ∃ env'', gone = .ok env'' ∧ env''.tbl = env'.tbl ∧ env''.log = env'.log ∧ Unlocked env''

theorem view_core {D : Prop} {n : Nat} {p : T} {w : W (S p)} {ev : Event} {sel : Select (List Nat)} {env : Env S} (hl : Holding env p)
    (hf : LiveFn D p w.tbl (doFlush cfg n) p) :
    (D ∧ viewSelect cfg n p w ev sel env = .error .deadlock) ∨
      SameSelect p w (viewSelect cfg n p w ev sel env) (readSelect cfg n p ev sel (env.unlock p w.tbl)) := by
  have hun : Unlocked (env.unlock p w.tbl) := hl.unlock w.tbl
  have hlk : (env.put p w.tbl).Locked p w.tbl := ⟨by show env.writer p = true; rw [hl.2]; simp, by simp [Env.put]⟩
  have hsh : (env.put p w.tbl).shed p = env.unlock p w.tbl := rfl
  have key := hf ev false false sel (env.put p w.tbl) hlk
  rw [hsh] at key
  have hback := sim_doFlush cfg (fun _ => none) n p ev false false sel (env.put p w.tbl)
  unfold viewSelect readSelect Env.peek
  rw [if_neg (by rw [hun.2 p]; simp), okBind]
  cases ed : doFlush cfg n p ev false false sel (env.put p w.tbl) with
  | error q =>
    rw [ed] at key
    rcases key with ⟨hd, e⟩ | ⟨e, -⟩
    · left; exact ⟨hd, by rw [e]; rfl⟩
    · right
      rw [e]
      refine ⟨fun q' => ?_, fun w' env' h => by cases h⟩
      show (Except.error q : R _) = _ ↔ (Except.error q : R _) = _
      constructor <;> (intro h; injection h with h; subst h; rfl)
  | ok r =>
    obtain ⟨changes, e1⟩ := r
    rw [ed] at key
    rcases key with ⟨hd, e⟩ | ⟨e, hlk1⟩
    · cases e
    right
    obtain ⟨b1, b2, -⟩ := hback changes e1 ed
    have hlk1 := hlk1 (changes, e1) rfl
    simp only [] at hlk1
    rw [e]
    refine ⟨fun q => ⟨fun h => (by cases h), fun h => (by cases h)⟩, ?_⟩
    intro w' env' h
    injection h with h; injection h with h1 h2; subst h1 h2
    have hold : Holding e1 p := ⟨fun t => by rw [b1]; exact hl.1 t, fun t => by rw [b2]; exact hl.2 t⟩
    refine ⟨rfl, hlk1.2, hold, e1.shed p, rfl, rfl, rfl, ⟨fun t => hold.1 t, fun t => ?_⟩⟩
    by_cases ht : t = p
    · subst ht; simp [Env.shed]
    · rw [shed_writer ht, hold.2]; simp [ht]

/-- C99: whatever is selected and marked, whatever the event and the graph, selecting through `as_read` does what selecting through a
read lock would do, panics included, and leaves the write lock as it was; or it waits for that lock for ever. -/
theorem C99_select_or_deadlock (n : Nat) (p : T) (w : W (S p)) (ev : Event) (sel : Select (List Nat)) (env : Env S) (hl : Holding env p) :
    viewSelect cfg n p w ev sel env = .error .deadlock ∨
      SameSelect p w (viewSelect cfg n p w ev sel env) (readSelect cfg n p ev sel (env.unlock p w.tbl)) := by
  rcases view_core (cfg := cfg) (n := n) (w := w) (ev := ev) (sel := sel) hl
    (live_doFlush (D := True) (ok := fun _ => True) (fun _ _ _ _ => ⟨trivial, fun _ => trivial⟩) n p trivial) with h | h
  · exact Or.inl h.2
  · exact Or.inr h

/-- C99: in an acyclic graph it never waits. -/
theorem C99_same_as_read (hac : Acyclic cfg rank) (n : Nat) (p : T) (w : W (S p)) (ev : Event) (sel : Select (List Nat)) (env : Env S)
    (hl : Holding env p) :
    SameSelect p w (viewSelect cfg n p w ev sel env) (readSelect cfg n p ev sel (env.unlock p w.tbl)) := by
  rcases view_core (cfg := cfg) (n := n) (w := w) (ev := ev) (sel := sel) hl
    (live_doFlush (D := False) (ok := fun t => rank t ≤ rank p)
      (fun t fk ht hfk => ⟨by have := hac t fk hfk; omega, fun e => by have := hac t fk hfk; rw [e] at this; omega⟩) n p (le_refl _)) with h | h
  · exact h.1.elim
  · exact h

/-- C99: on a table with a cycle among its dependants it never returns, whatever is selected. -/
theorem C99_cycle_never_returns (cfg : Cfg S) (p : T) (h : ReachesCycle cfg p) (n : Nat) (w : W (S p)) (ev : Event)
    (sel : Select (List Nat)) (env : Env S) : ∀ r, viewSelect cfg n p w ev sel env ≠ .ok r := by
  intro r he
  unfold viewSelect at he
  cases e : doFlush cfg n p ev false false sel (env.put p w.tbl) with
  | error q => rw [e] at he; cases he
  | ok r' => exact C31_depth_needed cfg n p (path_reaches h n) ev false false sel _ r' e

/-- C99: with a table that depends on itself it deadlocks where selecting through a read lock would have gone on: the observers
registered before are called, and then the dependants are looked up in the table that is locked. -/
theorem C99_self_reference_deadlocks {ev : Event} {p : T} {obs : List Observer} {fk : FK S} {rest : List (Tracker S)}
    (htr : cfg.trackers p = obs.map .observer ++ .auto fk :: rest) (hfk : fk.child = p) (hev : (ev.isRemoval && ev.isCreation) = false)
    (hh : ev.id < cfg.handlers.length) (n : Nat) (w : W (S p)) (sel : Select (List Nat)) (env : Env S) (hl : Holding env p) :
    viewSelect cfg (n + 1) p w ev sel env = .error .deadlock := by
  unfold viewSelect doFlush
  rw [if_neg (by rw [hev]; simp)]
  have hhd : cfg.handler ev = .ok cfg.handlers[ev.id] := by
    unfold Cfg.handler; rw [List.getElem?_eq_getElem hh]
  rw [hhd, okBind, htr]
  have hw : ∀ (obs : List Observer) (st : FlushSt S), st.env.writer p = true →
      (obs.map Tracker.observer ++ Tracker.auto fk :: rest).foldlM (flushStep (doFlush cfg n) p ev cfg.handlers[ev.id]) st = .error .deadlock := by
    intro obs
    induction obs with
    | nil =>
      intro st hst
      rw [List.map_nil, List.nil_append, List.foldlM_cons]
      unfold flushStep
      rw [if_neg (by simp [Tracker.considers])]
      simp only []
      generalize hs : (if (!st.sorted && (Tracker.auto fk).sort) = true then ({ st with sel := st.sel.sort, sorted := true } : FlushSt S) else st) = st1
      have h1 : st1.env = st.env := by rw [← hs]; split <;> rfl
      unfold trackerHandle Env.peek
      simp only []
      rw [if_pos (by rw [h1, hfk]; exact hst)]
      rfl
    | cons o obs ih =>
      intro st hst
      rw [List.map_cons, List.cons_append, List.foldlM_cons]
      unfold flushStep
      by_cases ho : (Tracker.observer o : Tracker S).considers ev = false
      · rw [if_pos ho, okBind]; exact ih st hst
      · rw [if_neg ho]
        simp only []
        generalize hs : (if (!st.sorted && (Tracker.observer o : Tracker S).sort) = true then ({ st with sel := st.sel.sort, sorted := true } : FlushSt S) else st) = st1
        have h1 : st1.env = st.env := by rw [← hs]; split <;> rfl
        simp only [trackerHandle, okBind]
        exact ih _ (by show st1.env.writer p = true; rw [h1]; exact hst)
  rw [hw obs _ (by show env.writer p = true; rw [hl.2]; simp)]
  rfl

end

section
variable {T : Type} [DecidableEq T] {S : T → Schema} [LS : ∀ t, LawfulSchema (S t)] [LV : ∀ t, LeavesSchema (S t)] {K : Type} [LinearOrder K]
  {key : (t : T) → Row (S t) → K} {cfg : Cfg S} {rank : T → Nat}

/-- C99: `w.as_read().select_rows(removal event, rows)` removes everything that transitively references `rows`, in all other tables;
the table itself stays as it is. What `w` had marked for deletion before is still marked: flushing `w` afterwards removes exactly these
rows and what references them. -/
theorem C99_then_flush {ev : Event} (hst : Standard cfg) (hac : Acyclic cfg rank) (hc : ev.isCreation = false)
    (hr : ev.isRemoval = true) (hh : cfg.handlers[ev.id]? = some .delete) {n : Nat} {p : T} (hn : rank p < n)
    (hp : (S p).kind = .consistent) {w : W (S p)} {env : Env S} (hl : Holding env p)
    (hrd : Ready key cfg (Function.update env.tbl p w.tbl))
    (rows : List Nat) (hlr : ∀ i ∈ rows, i < w.tbl.len) (htr : Tame cfg rows)
    {marks : List Nat} (hw : w.changes = .these marks) (hne : marks ≠ []) (hpd : (w.pushed && w.delete) = false)
    (hlm : ∀ i ∈ marks, i < w.tbl.len) (htm : Tame cfg marks) :
    ∃ env1 env2, viewSelect cfg n p w ev (.these rows) env = .ok (w, env1) ∧ Holding env1 p ∧ env1.tbl p = w.tbl ∧
      (∃ x, Cascaded cfg (Function.update env.tbl p w.tbl) (Function.update env1.tbl p x) p rows) ∧
      flush cfg n p w ev env1 = .ok env2 ∧ Unlocked env2 ∧ Ready key cfg env2.tbl ∧ Cascaded cfg env1.tbl env2.tbl p marks := by
  have hun : Unlocked (env.unlock p w.tbl) := hl.unlock w.tbl
  have htb : (env.unlock p w.tbl).tbl p = w.tbl := by simp [unlock_tbl]
  obtain ⟨envr, r1, r2, r3, r4, x, r5⟩ := C58_read_select_spares_rows (key := key) hst hac hc hh hn hp hun (by rw [unlock_tbl]; exact hrd) rows
    (by rw [htb]; exact hlr) htr
  obtain ⟨s1, s2⟩ := C99_same_as_read hac n p w ev (.these rows) env hl
  cases ev' : viewSelect cfg n p w ev (.these rows) env with
  | error q => rw [(s1 q).1 ev'] at r1; cases r1
  | ok r =>
    obtain ⟨w', env1⟩ := r
    obtain ⟨c1, c2, c3, env'', c4, c5, c6, c7⟩ := s2 w' env1 ev'
    subst c1
    rw [c4] at r1; injection r1 with r1; subst r1
    have hself : Function.update env1.tbl p w'.tbl = env1.tbl := by rw [← c2, Function.update_eq_self]
    obtain ⟨-, env2, d1, d2, d3, d4, -, -⟩ := flush_removal (key := key) (w := w') hst hac hc hr hh hn hp c3
      (by rw [hself, ← c5]; exact r3) hw hne hpd htm hlm
    rw [hself] at d4
    refine ⟨env1, env2, rfl, c3, c2, ⟨x, ?_⟩, d1, d2, d3, d4⟩
    rw [← c5]; rw [unlock_tbl] at r5; exact r5

end

/-! ## Concrete cases -/

/-- Table 0 locked, row 1 marked for deletion; row 0 selected through `as_read`: the rows that refer to row 0 go and row 0 stays; row 1
goes with the flush. -/
example : ∃ w, ((W.lock (uniTbl 0)).steps (uniKey 0) [.delete 1]).toOption = some w ∧
    (viewSelect uniCfg 3 0 w evDelete (.these [0]) uniHeld).toOption.map (fun r => uniDump (.ok r.2)) =
      some (uniDump (readSelect uniCfg 3 0 evDelete (.these [0]) uniEnv)) ∧
    uniDump (viewSelect uniCfg 3 0 w evDelete (.these [0]) uniHeld >>= fun r => flush uniCfg 3 0 r.1 evDelete r.2) =
      some [[some (10, 0), none, some (12, 0), none], [none, none, some (2, 22), none], [some (2, 33), none, none, none, none]] := by
  exact ⟨_, rfl, by decide +kernel, by decide +kernel⟩

/-- A table that depends on itself. -/
example : viewSelect ownCfg 3 0 (W.lock (ringEnv.tbl 0)) evCreate (.these [0]) { ringEnv with writer := fun t => decide (t = 0) } = .error .deadlock :=
  C99_self_reference_deadlocks (obs := []) (fk := ringFK 0) (rest := []) rfl rfl rfl (by decide) 2 _ _ _ ⟨fun _ => rfl, fun _ => rfl⟩

end V11
