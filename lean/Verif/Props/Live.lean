import Verif.Lemmas.Live
import Verif.Props.Integrity
import Verif.Props.Cycle

/-!
# C60: `live_flush` against `flush`, for every change list and every event
-/

set_option linter.unusedSimpArgs false
set_option linter.unusedSectionVars false
set_option linter.unusedVariables false

namespace V11
variable {T : Type} [DecidableEq T] {S : T → Schema} {cfg : Cfg S} {rank : T → Nat}

/-- What `live_flush` did, against what `flush` would have done: the same panic, or the same tables and the same calls of
trackers, where `live_flush` still has its lock, which shows the table and has nothing to flush, and `flush` has released it. -/
def SameFlush (p : T) (live : R (W (S p) × Env S)) (gone : R (Env S)) : Prop :=
  (∀ q, live = .error q ↔ gone = .error q) ∧
  ∀ w' env', live = .ok (w', env') → ∃ env'', gone = .ok env'' ∧ env''.tbl = Function.update env'.tbl p w'.tbl ∧ env''.log = env'.log ∧
    Holding env' p ∧ Unlocked env'' ∧ w'.changes.isEmpty = true

theorem live_core {D : Prop} {n : Nat} {p : T} {w : W (S p)} {ev : Event} {env : Env S} (hl : Holding env p)
    (hf : LiveFn D p w.tbl (doFlush cfg n) p) :
    (D ∧ liveFlush cfg n p w ev env = .error .deadlock) ∨ SameFlush p (liveFlush cfg n p w ev env) (flush cfg n p w ev env) := by
  have hun : Unlocked (env.unlock p w.tbl) := by
    refine ⟨fun t => hl.1 t, fun t => ?_⟩
    by_cases ht : t = p
    · subst ht; simp [Env.unlock]
    · simp only [Env.unlock, Function.update_of_ne ht, Env.put]
      rw [hl.2]; simp [ht]
  unfold liveFlush flush flushWith
  by_cases he : w.changes.isEmpty = true
  · right
    rw [if_pos he, if_pos he]
    refine ⟨fun q => ⟨fun h => (by cases h), fun h => (by cases h)⟩, ?_⟩
    intro w' env' h
    injection h with h; injection h with h1 h2; subst h1 h2
    exact ⟨_, rfl, rfl, rfl, hl, hun, he⟩
  · rw [if_neg he, if_neg he]
    have hlk : (env.put p w.tbl).Locked p w.tbl := ⟨by show env.writer p = true; rw [hl.2]; simp, by simp [Env.put]⟩
    have hsh : (env.put p w.tbl).shed p = env.unlock p w.tbl := rfl
    have key := hf ev w.pushed w.delete w.changes (env.put p w.tbl) hlk
    rw [hsh] at key
    -- the locks are given back
    have hback := sim_doFlush cfg (fun _ => none) n p ev w.pushed w.delete w.changes (env.put p w.tbl)
    cases ed : doFlush cfg n p ev w.pushed w.delete w.changes (env.put p w.tbl) with
    | error q =>
      rw [ed] at key
      rcases key with ⟨hd, e⟩ | ⟨e, -⟩
      · left; exact ⟨hd, by rw [e]; rfl⟩
      · right
        simp only [e]
        refine ⟨fun q' => ?_, fun w' env' h => by cases h⟩
        show (Except.error q : R _) = _ ↔ (Except.error q : R _) = _
        constructor <;> (intro h; injection h with h; subst h; rfl)
    | ok r =>
      obtain ⟨changes, e1⟩ := r
      rw [ed] at key
      rcases key with ⟨hd, e⟩ | ⟨e, hlk1⟩
      · cases e
      right
      obtain ⟨b1, b2, -⟩ := hback changes e1 ed
      have hlk1 := hlk1 (changes, e1) rfl
      simp only [] at hlk1
      simp only [e, Except.map, okBind]
      have hold : Holding e1 p := ⟨fun t => by rw [b1]; exact hl.1 t, fun t => by rw [b2]; exact hl.2 t⟩
      have hput : ∀ x, Holding (e1.put p x) p := fun x => hold
      have hunl : Unlocked (e1.shed p) := by
        refine ⟨fun t => hold.1 t, fun t => ?_⟩
        by_cases ht : t = p
        · subst ht; simp [Env.shed]
        · rw [shed_writer ht, hold.2]; simp [ht]
      by_cases hb : (ev.isRemoval && !changes.isEmpty) = true
      · rw [if_pos hb, if_pos hb]
        have hlock : (e1.shed p).lock p = .ok (W.lock w.tbl, e1) := by
          unfold Env.lock
          rw [if_neg (by rw [hunl.1, hunl.2]; simp)]
          have h1 : (e1.shed p).tbl p = w.tbl := hlk1.2
          rw [h1]
          congr 2
          unfold Env.shed
          simp only [Function.update_idem]
          rw [← hlk1.1, Function.update_eq_self]
        rw [hlock, okBind]
        simp only []
        show SameFlush p (w.tbl.removeSel changes >>= _) (w.tbl.removeSel changes >>= _)
        cases ex : w.tbl.removeSel changes with
        | error q =>
          refine ⟨fun q' => ?_, fun w' env' h => by cases h⟩
          show (Except.error q : R _) = _ ↔ (Except.error q : R _) = _
          constructor <;> (intro h; injection h with h; subst h; rfl)
        | ok x =>
          rw [okBind, okBind]
          refine ⟨fun q => ⟨fun h => (by cases h), fun h => (by cases h)⟩, ?_⟩
          intro w' env' h
          injection h with h; injection h with h1 h2; subst h1 h2
          refine ⟨_, rfl, ?_, rfl, hput x, ?_, rfl⟩
          · simp [Env.unlock, Env.put, W.lock]
          · refine ⟨fun t => hold.1 t, fun t => ?_⟩
            by_cases ht : t = p
            · subst ht; simp [Env.unlock]
            · simp only [Env.unlock, Function.update_of_ne ht, Env.put]
              rw [hold.2]; simp [ht]
      · rw [if_neg hb, if_neg hb]
        refine ⟨fun q => ⟨fun h => (by cases h), fun h => (by cases h)⟩, ?_⟩
        intro w' env' h
        injection h with h; injection h with h1 h2; subst h1 h2
        refine ⟨_, rfl, ?_, rfl, hput w.tbl, hunl, rfl⟩
        show e1.tbl = _
        simp only [Env.put, W.lock, Function.update_idem]
        rw [← hlk1.2, Function.update_eq_self]

/-- C60: whatever is marked, whatever the event and the graph: `live_flush` does what `flush` would do, the same panic
included, or deadlocks, waiting for the lock it keeps. -/
theorem C60_live_or_deadlock (n : Nat) (p : T) (w : W (S p)) (ev : Event) (env : Env S) (hl : Holding env p) :
    liveFlush cfg n p w ev env = .error .deadlock ∨ SameFlush p (liveFlush cfg n p w ev env) (flush cfg n p w ev env) := by
  rcases live_core (cfg := cfg) (n := n) (w := w) (ev := ev) hl
    (live_doFlush (D := True) (ok := fun _ => True) (fun _ _ _ _ => ⟨trivial, fun _ => trivial⟩) n p trivial) with h | h
  · exact Or.inl h.2
  · exact Or.inr h

/-- C60: in an acyclic graph it does exactly what `flush` does. -/
theorem C60_same_as_flush (hac : Acyclic cfg rank) (n : Nat) (p : T) (w : W (S p)) (ev : Event) (env : Env S) (hl : Holding env p) :
    SameFlush p (liveFlush cfg n p w ev env) (flush cfg n p w ev env) := by
  rcases live_core (cfg := cfg) (n := n) (w := w) (ev := ev) hl
    (live_doFlush (D := False) (ok := fun t => rank t ≤ rank p)
      (fun t fk ht hfk => ⟨by have := hac t fk hfk; omega, fun e => by have := hac t fk hfk; rw [e] at this; omega⟩) n p (le_refl _)) with h | h
  · exact h.1.elim
  · exact h

/-! ## Concrete cases -/

/-- The demo universe with table 0 locked and the rows 0 and 1 marked. -/
def uniHeld : Env UniS := { uniEnv with writer := fun t => decide (t = 0) }

example : Holding uniHeld 0 := ⟨fun _ => rfl, fun _ => rfl⟩

example : ∃ w', ((W.lock (uniTbl 0)).steps (uniKey 0) [.delete 0, .delete 1]).toOption = some w' ∧
    (liveFlush uniCfg 3 0 w' evDelete uniHeld).toOption.map (fun r => (uniView r.1.tbl 3, uniDump (.ok r.2))) =
      some ([none, none, some (12, 0)], uniDump (flush uniCfg 3 0 w' evDelete uniHeld)) := by
  exact ⟨_, rfl, by decide +kernel⟩

/-- A table whose rows refer to rows of the same table. -/
def ownCfg : Cfg RingS where
  trackers t := if t = 0 then [.auto (ringFK 0)] else []
  handlers := [.panicking, .null, .delete]

/-- With a table that depends on itself `live_flush` deadlocks at once: the dependants are looked up in the table, which is
locked. (`flush` never returns either, C31.) -/
example : liveFlush ownCfg 3 0 ((W.lock (ringEnv.tbl 0)).select 0) evCreate { ringEnv with writer := fun t => decide (t = 0) } = .error .deadlock := rfl

end V11
