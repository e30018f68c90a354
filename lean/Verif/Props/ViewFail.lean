import Verif.Model.ViewFail
import Verif.Props.View
import Verif.Props.Caught

/-!
# C100: a panic in `w.as_read().select_rows(…)`
-/

set_option linter.unusedSimpArgs false
set_option linter.unusedSectionVars false
set_option linter.unusedVariables false

namespace V11

section
variable {T : Type} [DecidableEq T] {S : T → Schema} [LS : ∀ t, LawfulSchema (S t)] [LV : ∀ t, LeavesSchema (S t)] {K : Type} [LinearOrder K]
  {key : (t : T) → Row (S t) → K}

theorem unflushed_lock {t : T} (x : Tbl (S t)) : ¬ HasChanges (W.lock x) := by
  rintro ⟨-, h⟩; cases h

/-- C100: with no poisoned lock and no panicking tracker it is the one of C99; a panic ends the process if there is something to flush. -/
theorem C100_agrees (cfg : Cfg S) (n : Nat) (t : T) (w : W (S t)) (ev : Event) (sel : Select (List Nat)) (e : PEnv S) (hb : ∀ t, e.bad t = false) :
    (∀ w' env', viewSelect cfg n t w ev sel e.env = .ok (w', env') →
      gViewSelect cfg (fun _ => none) n t w ev sel e = some ({ e with env := env' }, .ok w')) ∧
    ∀ p, viewSelect cfg n t w ev sel e.env = .error p →
      (p.isEnd = false → HasChanges w → gViewSelect cfg (fun _ => none) n t w ev sel e = none) ∧
      (¬ (p.isEnd = false ∧ HasChanges w) → ∃ e', gViewSelect cfg (fun _ => none) n t w ev sel e = some (e', .error p)) := by
  have hT := ties_doFlush cfg (fun _ => none) n t ev false false sel { e with env := e.env.put t w.tbl } hb
  unfold viewSelect
  cases hd : doFlush cfg n t ev false false sel (e.env.put t w.tbl) with
  | error q =>
    rw [errBind]
    refine ⟨fun w' env' h => (by cases h), fun p h => ?_⟩
    injection h with h; subst h
    have hq := hT.err q hd (fun _ => rfl)
    rcases view_cases cfg (fun _ => none) n t w ev sel e with ⟨e1, c, h1, h2⟩ | ⟨e1, p, h1, h2, h3⟩ | ⟨e1, p, h1, h2, h3, h4⟩
    · rw [h1] at hq; cases hq
    · rw [h1] at hq; injection hq with hq; subst hq
      refine ⟨fun a b => ?_, fun _ => ⟨_, h3⟩⟩
      rcases h2 with h2 | h2
      · rw [a] at h2; cases h2
      · exact absurd b h2
    · rw [h1] at hq; injection hq with hq; subst hq
      exact ⟨fun _ _ => h4, fun c => absurd ⟨h2, h3⟩ c⟩
  | ok r =>
    obtain ⟨c, env1⟩ := r
    rw [okBind]
    refine ⟨fun w' env' h => ?_, fun p h => by cases h⟩
    injection h with h; injection h with h1 h2; subst h1; subst h2
    obtain ⟨-, -, new, -, b⟩ := hT.ok c env1 hd
    rw [outcome_never (fun _ => rfl)] at b
    unfold gViewSelect
    rw [b]
    rfl

/-- C100: it ends the process exactly if the lock has something to flush and the same call would have panicked with nothing to flush. -/
theorem C100_aborts_iff (cfg : Cfg S) (boom : Boom S) (n : Nat) (t : T) (w : W (S t)) (ev : Event) (sel : Select (List Nat)) (e : PEnv S) :
    gViewSelect cfg boom n t w ev sel e = none ↔
      (S t).kind = .consistent ∧ w.changes.isEmpty = false ∧
        ∃ e' p, gViewSelect cfg boom n t (W.lock w.tbl) ev sel e = some (e', .error p) ∧ p.isEnd = false := by
  rcases view_cases cfg boom n t w ev sel e with ⟨e1, c, h1, h2⟩ | ⟨e1, p, h1, h2, h3⟩ | ⟨e1, p, h1, h2, h3, h4⟩
  · rcases view_cases cfg boom n t (W.lock w.tbl) ev sel e with ⟨e2, c', g1, g2⟩ | ⟨e2, q, g1, g2, g3⟩ | ⟨e2, q, g1, g2, g3, g4⟩
    · rw [h2, g2]; exact ⟨fun h => (by cases h), fun ⟨_, _, e', q, h, _⟩ => by injection h with h; injection h with _ h; cases h⟩
    · rw [show (W.lock w.tbl).tbl = w.tbl from rfl, h1] at g1; injection g1 with g0 g1; cases g1
    · exact absurd g3 (unflushed_lock _)
  · rcases view_cases cfg boom n t (W.lock w.tbl) ev sel e with ⟨e2, c', g1, g2⟩ | ⟨e2, q, g1, g2, g3⟩ | ⟨e2, q, g1, g2, g3, g4⟩
    · rw [show (W.lock w.tbl).tbl = w.tbl from rfl, h1] at g1; injection g1 with g0 g1; cases g1
    · rw [show (W.lock w.tbl).tbl = w.tbl from rfl, h1] at g1; injection g1 with g0 g1; injection g1 with g1; subst g1
      rw [h3, g3]
      refine ⟨fun h => (by cases h), fun ⟨a, b, e', q, h, hq⟩ => ?_⟩
      injection h with h; injection h with _ h; injection h with h; subst h
      rcases h2 with h2 | h2
      · rw [h2] at hq; cases hq
      · exact absurd ⟨a, b⟩ h2
    · exact absurd g3 (unflushed_lock _)
  · rcases view_cases cfg boom n t (W.lock w.tbl) ev sel e with ⟨e2, c', g1, g2⟩ | ⟨e2, q, g1, g2, g3⟩ | ⟨e2, q, g1, g2, g3, g4⟩
    · rw [show (W.lock w.tbl).tbl = w.tbl from rfl, h1] at g1; injection g1 with g0 g1; cases g1
    · rw [show (W.lock w.tbl).tbl = w.tbl from rfl, h1] at g1; injection g1 with g0 g1; injection g1 with g1; subst g1
      rw [h4]
      exact ⟨fun _ => ⟨h3.1, h3.2, _, _, g3, h2⟩, fun _ => rfl⟩
    · exact absurd g3 (unflushed_lock _)

/-- C100: what is marked makes no other difference: if it returns, or panics without ending the process, every table, every lock and every
call of a tracker is what it would have been with nothing marked. -/
theorem C100_marks (cfg : Cfg S) (boom : Boom S) (n : Nat) (t : T) (w : W (S t)) (ev : Event) (sel : Select (List Nat)) (e e' : PEnv S) (r : R (W (S t)))
    (h : gViewSelect cfg boom n t w ev sel e = some (e', r)) :
    (∀ w', r = .ok w' → w' = w ∧ gViewSelect cfg boom n t (W.lock w.tbl) ev sel e = some (e', .ok (W.lock w.tbl))) ∧
    ∀ p, r = .error p → gViewSelect cfg boom n t (W.lock w.tbl) ev sel e = some (e', .error p) := by
  rcases view_cases cfg boom n t w ev sel e with ⟨e1, c, h1, h2⟩ | ⟨e1, p, h1, h2, h3⟩ | ⟨e1, p, h1, h2, h3, h4⟩
  · rw [h2] at h; injection h with h; injection h with a b; subst a; subst b
    refine ⟨fun w' hw => ?_, fun p hp => by cases hp⟩
    injection hw with hw; subst hw
    refine ⟨rfl, ?_⟩
    unfold gViewSelect
    rw [show (W.lock w.tbl).tbl = w.tbl from rfl, h1]
  · rw [h3] at h; injection h with h; injection h with a b; subst a; subst b
    refine ⟨fun w' hw => (by cases hw), fun q hq => ?_⟩
    injection hq with hq; subst hq
    unfold gViewSelect
    rw [show (W.lock w.tbl).tbl = w.tbl from rfl, h1]
    simp only [(drop_changes (W.lock w.tbl)).2 (unflushed_lock _)]
    rfl
  · rw [h4] at h; cases h

/-- C100: what it leaves. If it returns, the write lock is as it was, held, with the same things marked, and no lock is poisoned. If it
panics, the lock is released and poisoned, and at most one other is poisoned, of a table that depends on it. Either way the table itself is
as the write lock showed it, and tables that do not depend on it are untouched. -/
theorem C100_left (cfg : Cfg S) (boom : Boom S) (n : Nat) (t : T) (w : W (S t)) (ev : Event) (sel : Select (List Nat)) (e e' : PEnv S) (r : R (W (S t)))
    (hw : e.env.writer t = true) (h : gViewSelect cfg boom n t w ev sel e = some (e', r)) :
    e'.env.reads = e.env.reads ∧ e.env.log <+: e'.env.log ∧ (∀ s, e.bad s = true → e'.bad s = true) ∧ e'.env.tbl t = w.tbl ∧
    (∀ w', r = .ok w' → w' = w ∧ e'.env.writer = e.env.writer ∧ e'.bad = e.bad) ∧
    (∀ p, r = .error p → e'.env.writer = Function.update e.env.writer t false ∧ e'.bad t = true ∧
      ∃ s, ∀ u, e'.bad u = true → e.bad u = true ∨ u = t ∨ u = s) ∧
    ∀ s, s ≠ t → ¬ DependsOn cfg s t → e'.env.tbl s = e.env.tbl s ∧ e'.bad s = e.bad s := by
  obtain ⟨a, b, c⟩ := view_ends (steps_true (S := S)) h
  refine ⟨a.reads, a.log, a.worse, ?_, fun w' hw' => ⟨b w' hw', a.held w' hw'⟩, a.gone, fun s hs hd => ?_⟩
  · cases r with
    | error q => exact c q rfl
    | ok w' =>
      have hfz := doFlush_held cfg boom n t ev false false sel { e with env := e.env.put t w.tbl } (s := t) hw
      rcases view_cases cfg boom n t w ev sel e with ⟨e1, c, h1, h2⟩ | ⟨e1, p, h1, h2, h3⟩ | ⟨e1, p, h1, h2, h3, h4⟩
      · rw [h2] at h; injection h with h; injection h with x y; subst x
        rw [h1] at hfz
        exact hfz.trans (Function.update_self ..)
      · rw [h3] at h; injection h with h; injection h with x y; cases y
      · rw [h4] at h; cases h
  · exact act_misses (p := ⟨[], some sel, ev, boom⟩) hs hd h

/-- C100: wherever and why it ends, only rows that had to go are gone, none of the table itself, and every table is still in a state that
the other theorems apply to. -/
theorem C100_partly {cfg : Cfg S} (hse : Searchable cfg) (hpa : ParentsConsistent cfg) (boom : Boom S) (ev : Event) (n : Nat) (p : T)
    (w : W (S p)) (rows : List Nat) (e e' : PEnv S) (r : R (W (S p))) (hl : e.env.writer p = true)
    (hrd : Ready key cfg (Function.update e.env.tbl p w.tbl)) (h : gViewSelect cfg boom n p w ev (.these rows) e = some (e', r)) :
    Ready key cfg e'.env.tbl ∧ PartlyRemoved cfg (Function.update e.env.tbl p w.tbl) e'.env.tbl p rows ∧ e'.env.tbl p = w.tbl := by
  obtain ⟨a1, -⟩ := left_doFlush (key := key) hse hpa boom ev n p false false rows { e with env := e.env.put p w.tbl } hrd
  have hfz := doFlush_held cfg boom n p ev false false (.these rows) { e with env := e.env.put p w.tbl } (s := p) hl
  have hpt : ({ e with env := e.env.put p w.tbl } : PEnv S).env.tbl p = w.tbl := Function.update_self ..
  rw [hpt] at hfz
  have fin : ∀ e1 : PEnv S, LeftBy key cfg p rows (Function.update e.env.tbl p w.tbl) e1.env.tbl → e1.env.tbl p = w.tbl →
      Ready key cfg e1.env.tbl ∧ PartlyRemoved cfg (Function.update e.env.tbl p w.tbl) e1.env.tbl p rows ∧ e1.env.tbl p = w.tbl :=
    fun e1 x y => ⟨x.ready, x.partly hrd, y⟩
  rcases view_cases cfg boom n p w ev (.these rows) e with ⟨e1, c, h1, h2⟩ | ⟨e1, q, h1, h2, h3⟩ | ⟨e1, q, h1, h2, h3, h4⟩
  · rw [h2] at h; injection h with h; injection h with a b; subst a; subst b
    rw [h1] at a1 hfz
    exact fin _ a1 hfz
  · rw [h3] at h; injection h with h; injection h with a b; subst a; subst b
    rw [h1] at a1 hfz
    have hback : (e1.dropped p w.tbl).env.tbl = e1.env.tbl := by
      show Function.update e1.env.tbl p w.tbl = _
      simp only [] at hfz
      rw [← hfz]; exact Function.update_eq_self ..
    have := fin e1 a1 hfz
    rw [← hback] at this
    exact this
  · rw [h4] at h; cases h

/-- C100: if the lock of a table that refers to `p` is poisoned, it never returns; with something to flush, a panic that can be caught
elsewhere is the end of the process here. Selecting through a read lock, the write lock being released, only panics. -/
theorem C100_poisoned_dependant {cfg : Cfg S} (boom : Boom S) (n : Nat) (p : T) {fk : FK S} (hfk : IsFK cfg p fk) (w : W (S p)) (ev : Event)
    (sel : Select (List Nat)) (e : PEnv S) (hb : e.bad fk.child = true) :
    (∀ e' w', gViewSelect cfg boom n p w ev sel e ≠ some (e', .ok w')) ∧
    ((S p).kind = .consistent → w.changes.isEmpty = false → ∀ e' q, gViewSelect cfg boom n p w ev sel e = some (e', .error q) → q.isEnd = true) ∧
    (Deed.tell p sel ev boom).run key cfg n { e with env := e.env.unlock p w.tbl } ≠ none ∧
    ∀ e', (Deed.tell p sel ev boom).run key cfg n { e with env := e.env.unlock p w.tbl } ≠ some (e', .ok ()) := by
  rw [← and_assoc]
  refine ⟨?_, by rw [Deed.run]; simp, fun e' h => ?_⟩
  rotate_left
  · rw [Deed.run] at h
    injection h with h
    have hne := fun e1 : PEnv S => doFlush_poisoned cfg boom n p fk hfk ev false false sel e1
    unfold Pr.andThen gPeek at h
    split at h
    · rename_i e1 a hx
      split at hx
      · injection hx with _ hx; cases hx
      · split at hx
        · injection hx with _ hx; cases hx
        · injection hx with hx _; subst hx
          simp only [] at h
          split at h
          · rename_i e2 c hy
            refine hne { e with env := e.env.unlock p w.tbl } hb c ?_
            rw [hy]
          · injection h with _ h; cases h
    · injection h with _ h; cases h
  have hne := doFlush_poisoned cfg boom n p fk hfk ev false false sel { e with env := e.env.put p w.tbl } hb
  rcases view_cases cfg boom n p w ev sel e with ⟨e1, c, h1, h2⟩ | ⟨e1, q, h1, h2, h3⟩ | ⟨e1, q, h1, h2, h3, h4⟩
  · rw [h1] at hne; exact absurd rfl (hne c)
  · rw [h3]
    refine ⟨fun e' w' h => (by injection h with h; injection h with _ h; cases h), fun a b e' q' h => ?_⟩
    injection h with h; injection h with _ h; injection h with h; subst h
    exact h2.resolve_right (fun hx => hx ⟨a, b⟩)
  · rw [h4]
    exact ⟨fun e' w' h => (by cases h), fun _ _ e' q' h => by cases h⟩

/-- C100: selecting for an event that was never registered, likewise: with something to flush it ends the process, otherwise it poisons the lock. -/
theorem C100_unregistered_event {cfg : Cfg S} (boom : Boom S) (n : Nat) (p : T) (w : W (S p)) {ev : Event}
    (hev : (ev.isRemoval && ev.isCreation) = false) (hh : cfg.handlers.length ≤ ev.id) (sel : Select (List Nat)) (e : PEnv S) :
    (HasChanges w → gViewSelect cfg boom (n + 1) p w ev sel e = none) ∧
    (¬ HasChanges w → gViewSelect cfg boom (n + 1) p w ev sel e = some (e.dropped p w.tbl, .error .vecOob)) := by
  have hd : gDoFlush cfg boom (n + 1) p ev false false sel { e with env := e.env.put p w.tbl } = ({ e with env := e.env.put p w.tbl }, .error .vecOob) := by
    rw [gDoFlush, if_neg (by rw [hev]; simp)]
    unfold Cfg.handler
    rw [List.getElem?_eq_none hh]
    rfl
  have hdr : ({ e with env := e.env.put p w.tbl } : PEnv S).dropped p w.tbl = e.dropped p w.tbl := by
    unfold PEnv.dropped Env.unlock Env.put
    simp
  unfold gViewSelect
  rw [hd]
  refine ⟨fun h => ?_, fun h => ?_⟩
  · simp only [(drop_changes w).1 h]; rfl
  · simp only [(drop_changes w).2 h, hdr]

/-- C93: calls and a selection through `as_read` that return go on as in C99. -/
theorem C93_agrees_view {cfg : Cfg S} {n : Nat} (t : T) (ops : List (LOp (S t))) (sel : Select (List Nat)) (ev : Event) (ps : List (Part S t))
    (w w1 w2 : W (S t)) (e : PEnv S) (hb : ∀ t, e.bad t = false) {env' : Env S} (h1 : w.steps (key t) ops = .ok w1)
    (h2 : viewSelect cfg n t w1 ev sel e.env = .ok (w2, env')) :
    Part.runs key cfg n t (⟨ops.map LOp.toU, some sel, ev, fun _ => none⟩ :: ps) w e = Part.runs key cfg n t ps w2 { e with env := env' } := by
  rw [Part.runs, steps_use ops w w1 h1]
  simp only [Part.act]
  rw [(C100_agrees cfg n t w1 ev sel e hb).1 w2 env' h2]

/-- C93: a session with `live_flush`es and selections in it ends the process exactly if, after some of its parts have returned, there is a panic in the
calls of the next (or in the last calls) with something to flush, or in a selection with something to flush; a `live_flush` never does. -/
theorem C93_aborts_parts {cfg : Cfg S} {n : Nat} (t : T) (parts : List (Part S t)) (ops : List (UOp (S t))) (ev : Event) (boom : Boom S) (e : PEnv S)
    (hu : Unlocked e.env) (hb : e.bad t = false) :
    (Deed.write t parts ops ev boom).run key cfg n e = none ↔
      (∃ pre x post e1 w1, parts = pre ++ x :: post ∧ Part.runs key cfg n t pre (W.lock (e.env.tbl t)) (e.taken t) = some (e1, .ok w1) ∧
        ((∃ p, w1.use (key t) x.ops = .aborted p) ∨
          ∃ w2 sel, w1.use (key t) x.ops = .held w2 ∧ x.view = some sel ∧ gViewSelect cfg x.boom n t w2 x.ev sel e1 = none)) ∨
      ∃ e1 w1 p, Part.runs key cfg n t parts (W.lock (e.env.tbl t)) (e.taken t) = some (e1, .ok w1) ∧ w1.use (key t) ops = .aborted p := by
  have hr : ¬ (e.env.reads t ≠ 0 ∨ e.env.writer t = true) := by
    rw [hu.1 t, hu.2 t]; simp
  have hP : ∀ (ps : List (Part S t)) (w : W (S t)) (e : PEnv S), Part.runs key cfg n t ps w e = none ↔
      ∃ pre x post e1 w1, ps = pre ++ x :: post ∧ Part.runs key cfg n t pre w e = some (e1, .ok w1) ∧
        ((∃ p, w1.use (key t) x.ops = .aborted p) ∨
          ∃ w2 sel, w1.use (key t) x.ops = .held w2 ∧ x.view = some sel ∧ gViewSelect cfg x.boom n t w2 x.ev sel e1 = none) := by
    intro ps
    induction ps with
    | nil =>
      intro w e
      rw [Part.runs]
      refine ⟨fun h => (by cases h), ?_⟩
      rintro ⟨pre, x, post, -, -, h, -⟩
      simp at h
    | cons y ys ih =>
      intro w e
      have hact : ∀ w2, y.act cfg n t w2 e = none ↔ ∃ sel, y.view = some sel ∧ gViewSelect cfg y.boom n t w2 y.ev sel e = none := by
        intro w2
        unfold Part.act
        cases hv : y.view <;> simp
      constructor
      · intro h
        rw [Part.runs] at h
        cases hx : w.use (key t) y.ops with
        | aborted p => exact ⟨[], y, ys, e, w, rfl, by rw [Part.runs], Or.inl ⟨p, hx⟩⟩
        | unwound p z => rw [hx] at h; cases h
        | held w2 =>
          rw [hx] at h
          simp only [] at h
          rcases ha : y.act cfg n t w2 e with _ | ⟨e1, c⟩
          · obtain ⟨sel, h1, h2⟩ := (hact w2).1 ha
            exact ⟨[], y, ys, e, w, rfl, by rw [Part.runs], Or.inr ⟨w2, sel, hx, h1, h2⟩⟩
          · rw [ha] at h
            cases c with
            | error q => cases h
            | ok w3 =>
              obtain ⟨pre, x, post, e2, w4, rfl, h2, h3⟩ := (ih w3 e1).1 h
              refine ⟨y :: pre, x, post, e2, w4, rfl, ?_, h3⟩
              rw [Part.runs, hx]
              simp only [ha]
              exact h2
      · rintro ⟨pre, x, post, e2, w4, he, h2, h3⟩
        cases pre with
        | nil =>
          injection he with he1 he2; subst he1
          rw [Part.runs] at h2; injection h2 with h2; injection h2 with a b; injection b with b; subst a; subst b
          rw [Part.runs]
          rcases h3 with ⟨p, h3⟩ | ⟨w2, sel, h3, h4, h5⟩
          · rw [h3]
          · rw [h3]
            simp only [(hact w2).2 ⟨sel, h4, h5⟩]
        | cons z pre =>
          injection he with he1 he2; subst he1
          rw [Part.runs] at h2 ⊢
          cases hx : w.use (key t) y.ops with
          | aborted p => rfl
          | unwound p z => rw [hx] at h2; injection h2 with h2; injection h2 with _ h2; cases h2
          | held w2 =>
            rw [hx] at h2
            simp only [] at h2 ⊢
            rcases ha : y.act cfg n t w2 e with _ | ⟨e1, c⟩
            · rfl
            · rw [ha] at h2
              cases c with
              | error q => injection h2 with h2; injection h2 with _ h2; cases h2
              | ok w3 => exact (ih w3 e1).2 ⟨pre, x, post, e2, w4, he2, h2, h3⟩
  rw [Deed.run, if_neg hr, if_neg (by rw [hb]; simp), ← hP]
  rcases hp : Part.runs key cfg n t parts (W.lock (e.env.tbl t)) (e.taken t) with _ | ⟨e1, c⟩
  · simp
  · cases c with
    | error q => simp
    | ok w =>
      simp only []
      cases hx : w.use (key t) ops with
      | aborted p => simp [hx]
      | unwound p z => simp [hx]
      | held w2 => simp [hx]

end

/-! ## Concrete cases -/

/-- Table 0 is locked for writing, with row 1 marked for deletion. -/
def viewW : W (UniS 0) := { W.lock (uniTbl 0) with changes := .these [1], delete := true }

/-- The lock of table 1, which refers to table 0, is poisoned: selecting row 0 through `as_read` ends the process; had nothing been marked it
would have panicked and poisoned the lock of table 0, and through `read` it panics and poisons nothing. -/
example : ((W.lock (uniTbl 0)).steps (uniKey 0) [.delete 1]).toOption = some viewW ∧ HasChanges viewW ∧ IsFK uniCfg 0 uniFK01 ∧
    gViewSelect uniCfg (fun _ => none) 3 0 viewW evDelete (.these [0]) { env := uniHeld, bad := fun t => decide (t = 1) } = none ∧
    (gViewSelect uniCfg (fun _ => none) 3 0 (W.lock (uniTbl 0)) evDelete (.these [0]) { env := uniHeld, bad := fun t => decide (t = 1) }).map
      (fun x => ([0, 1, 2].map x.1.bad, x.2.panic?)) = some ([true, true, false], some .poisoned) ∧
    ((Deed.tell 0 (.these [0]) evDelete (fun _ => none)).run uniKey uniCfg 3 { env := uniEnv, bad := fun t => decide (t = 1) }).map
      (fun x => ([0, 1, 2].map x.1.bad, x.2.panic?)) = some ([false, true, false], some .poisoned) := by
  have h : gViewSelect uniCfg (fun _ => none) 3 0 viewW evDelete (.these [0]) { env := uniHeld, bad := fun t => decide (t = 1) } = none := by
    rw [← Option.isNone_iff_eq_none]; decide +kernel
  refine ⟨rfl, ⟨rfl, rfl⟩, uniIsFK.2 (Or.inl ⟨rfl, rfl⟩), h, by decide +kernel, by decide +kernel⟩

/-- Nothing poisoned: it returns, the rows that refer to row 0 are gone, row 0 is not, and row 1 is still marked. C100_partly applies. -/
example : Ready uniKey uniCfg (Function.update uniHeld.tbl 0 viewW.tbl) ∧
    ((gViewSelect uniCfg (fun _ => none) 3 0 viewW evDelete (.these [0]) { env := uniHeld, bad := fun _ => false }).bind
      fun x => uniDump (.ok x.1.env)) =
      some [[some (10, 0), some (11, 0), some (12, 0), none], [none, none, some (2, 22), none], [some (2, 33), none, none, none, none]] ∧
    ((gViewSelect uniCfg (fun _ => none) 3 0 viewW evDelete (.these [0]) { env := uniHeld, bad := fun _ => false }).map
      fun x => x.2.toOption.map fun w => match w.changes with | .these l => l | .all => []) = some (some [1]) := by
  refine ⟨?_, by decide +kernel, by decide +kernel⟩
  have : Function.update uniHeld.tbl 0 viewW.tbl = uniEnv.tbl := Function.update_eq_self 0 uniEnv.tbl
  rw [this]; exact uniReady

/-- C93 with a selection: rows that refer to row 0 go, then row 1 with its own; a second session, after a panic under the lock of table 1, ends the process
with row 2 marked, and loses table 0 with nothing marked. -/
example : caughtLook (Deed.runs uniKey uniCfg 3 [.write 0 [⟨[.delete 1], some (.these [0]), evDelete, fun _ => none⟩] [] evDelete fun _ => none] caughtStart) =
      (some [[some (10, 0), none, some (12, 0), none], [none, none, some (2, 22), none], [some (2, 33), none, none, none, none]], [false, false, false], [none]) ∧
    caughtLook (Deed.runs uniKey uniCfg 3 [.write 1 [] [.user] evDelete fun _ => none,
      .write 0 [⟨[.delete 2], some (.these [0]), evDelete, fun _ => none⟩] [] evDelete fun _ => none] caughtStart) = (none, [], []) ∧
    (caughtLook (Deed.runs uniKey uniCfg 3 [.write 1 [] [.user] evDelete fun _ => none,
      .write 0 [⟨[], some (.these [0]), evDelete, fun _ => none⟩] [] evDelete fun _ => none] caughtStart)).2 =
      ([true, true, false], [some .userPanic, some .poisoned]) := by
  exact ⟨by decide +kernel, by decide +kernel, by decide +kernel⟩

/-- An event that was never registered. -/
example : uniCfg.handlers.length ≤ (⟨9, false, false⟩ : Event).id := by decide

end V11
