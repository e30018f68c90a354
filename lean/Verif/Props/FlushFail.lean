import Verif.Lemmas.FlushRange
import Verif.Props.FlushPanic

/-!
# C92: what a flush that panics by itself leaves

`PartlyRemoved`, `DependantsGone`, `ParentsConsistent` and `PEnv.released` are in `Spec/FlushFail.lean`.
-/

set_option linter.unusedSimpArgs false
set_option linter.unusedSectionVars false
set_option linter.unusedVariables false

namespace V11
section
variable {T : Type} [DecidableEq T] {S : T → Schema} [LV : ∀ t, LeavesSchema (S t)]

/-- C92: with no poisoned lock and no panicking tracker this is the flush of the other theorems: it returns exactly if that one
does, with the same universe and no lock poisoned, and panics with the same panic. -/
theorem C92_agrees (cfg : Cfg S) (n : Nat) (t : T) (w : W (S t)) (ev : Event) (e : PEnv S) (hb : ∀ t, e.bad t = false) :
    (∀ env', flush cfg n t w ev e.env = .ok env' → gFlush cfg (fun _ => none) n t w ev e = ({ e with env := env' }, .ok ())) ∧
    ∀ p, flush cfg n t w ev e.env = .error p ↔ (gFlush cfg (fun _ => none) n t w ev e).2 = .error p := by
  obtain ⟨h1, h2⟩ := ties_flush cfg (fun _ => none) n t w ev e hb
  have ok : ∀ env', flush cfg n t w ev e.env = .ok env' → gFlush cfg (fun _ => none) n t w ev e = ({ e with env := env' }, .ok ()) := by
    intro env' h
    obtain ⟨new, -, b⟩ := h1 env' h
    rw [b, outcome_never (fun _ => rfl)]
    rfl
  refine ⟨ok, fun p => ⟨fun h => h2 p h (fun _ => rfl), fun h => ?_⟩⟩
  cases hf : flush cfg n t w ev e.env with
  | ok env' => rw [ok env' hf] at h; cases h
  | error q =>
    rw [h2 q hf (fun _ => rfl)] at h
    injection h with h; rw [h]

/-- C92: a flush that would have returned but for a tracker that panics is the one of C82; it poisons nothing. -/
theorem C92_agrees_tracker (cfg : Cfg S) (boom : Boom S) (n : Nat) (t : T) (w : W (S t)) (ev : Event) (e : PEnv S) (hb : ∀ t, e.bad t = false)
    {env' : Env S} (h : flush cfg n t w ev e.env = .ok env') :
    gFlush cfg boom n t w ev e = ({ e with env := (kFlush cfg boom n t w ev e.env).1 }, (kFlush cfg boom n t w ev e.env).2) := by
  obtain ⟨new, l, b⟩ := (ties_flush cfg boom n t w ev e hb).1 env' h
  obtain ⟨-, -, new', l', b'⟩ := sim_flushWith (sim_doFlush cfg boom n) t w ev h
  have : new' = new := List.append_cancel_left (l'.symm.trans l)
  subst this
  unfold kFlush
  rw [b', b]
  rfl

/-- C92: whatever a flush does — any trackers and handlers, any selection and event, panicking trackers, poisoned locks —, where it
ends this thread holds the locks it held, except the one it gave back; what trackers were told stays told; no poisoned lock is
healed; if it returned no lock was poisoned, and if it panicked at most one was. -/
theorem C92_locks (cfg : Cfg S) (boom : Boom S) (n : Nat) (t : T) (w : W (S t)) (ev : Event) (e e' : PEnv S) (r : R Unit)
    (h : gFlush cfg boom n t w ev e = (e', r)) :
    e'.env.reads = e.env.reads ∧ e'.env.writer = Function.update e.env.writer t false ∧ e.env.log <+: e'.env.log ∧
    (∀ s, e.bad s = true → e'.bad s = true) ∧ (r = .ok () → e'.bad = e.bad) ∧
    (∀ s s', e.bad s = false → e'.bad s = true → e.bad s' = false → e'.bad s' = true → s = s') := by
  have := flush_ends steps_true cfg boom n t w ev e
  rw [h] at this
  exact ⟨this.reads, this.writer, this.log, this.worse, fun hr => this.calm () hr, fun s s' a b c d => this.one s s' b a d c⟩

/-- C92: …and every table is still in a state that operations on it can lead to: nothing is half done. -/
theorem C92_tables [LS : ∀ t, LawfulSchema (S t)] {K : Type} [LinearOrder K] {key : (t : T) → Row (S t) → K} (cfg : Cfg S) (boom : Boom S) (n : Nat) (t : T)
    (w : W (S t)) (ev : Event) (e e' : PEnv S) (r : R Unit) (h : gFlush cfg boom n t w ev e = (e', r))
    (hw : Reach (key t) false w.tbl) (ht : ∀ s, s ≠ t → Reach (key s) false (e.env.tbl s)) :
    ∀ s, Reach (key s) false (e'.env.tbl s) := by
  intro s
  have := (flush_ends (steps_reach (key := key)) cfg boom n t w ev e).keeps s (by
    show Reach (key s) false (Function.update e.env.tbl t w.tbl s)
    by_cases hs : s = t
    · subst hs; rw [Function.update_self]; exact hw
    · rw [Function.update_of_ne hs]; exact ht s hs)
  rw [h] at this
  exact this

/-- C92: a lock with conflicting marks (rows both pushed and deleted), an event that both creates and removes, and an event without a handler are refused
before anything is done: the lock is given back, and that is all. -/
theorem C92_refused (cfg : Cfg S) (boom : Boom S) (n : Nat) (t : T) (w : W (S t)) (ev : Event) (e : PEnv S) (hw : w.changes.isEmpty = false) :
    ((w.pushed = true ∧ w.delete = true ∨ ev.isRemoval = true ∧ ev.isCreation = true) →
      gFlush cfg boom (n + 1) t w ev e = (e.released t w.tbl, .error .interleaved)) ∧
    (¬ (w.pushed = true ∧ w.delete = true ∨ ev.isRemoval = true ∧ ev.isCreation = true) → cfg.handlers[ev.id]? = none →
      gFlush cfg boom (n + 1) t w ev e = (e.released t w.tbl, .error .vecOob)) := by
  unfold gFlush
  rw [if_neg (by simp [hw])]
  unfold gTell
  constructor
  · intro h
    refine andThen_err (e1 := e.released t w.tbl) ?_
    rw [gDoFlush, if_pos (by simpa using h)]
    rfl
  · intro h hh
    refine andThen_err (e1 := e.released t w.tbl) ?_
    rw [gDoFlush, if_neg (by simpa using h)]
    have : cfg.handler ev = .error .vecOob := by unfold Cfg.handler; rw [hh]
    rw [this]
    rfl

/-- C92: a flush with an event that does not remove rows and whose handler is not the deleting one changes no table but the one it gives
back, and poisons no lock, however it ends. -/
theorem C92_nothing_removed (cfg : Cfg S) (boom : Boom S) (n : Nat) (t : T) (w : W (S t)) (ev : Event) (hr : ev.isRemoval = false)
    (hh : cfg.handlers[ev.id]? ≠ some .delete) (e e' : PEnv S) (r : R Unit) (h : gFlush cfg boom n t w ev e = (e', r)) :
    e'.env.tbl = Function.update e.env.tbl t w.tbl ∧ e'.bad = e.bad := by
  unfold gFlush at h
  split at h
  · injection h with h1 h2; subst h1; exact ⟨rfl, rfl⟩
  · have : Idles (gTell (gDoFlush cfg boom n) t w.pushed w.delete w.changes ev) := by
      unfold gTell
      refine (idles_doFlush cfg boom hh n t _ _ _).andThen (fun c e => ?_)
      simp only [hr, Bool.false_and, Bool.false_eq_true, if_false]
      exact ⟨rfl, rfl⟩
    have := this { e with env := e.env.unlock t w.tbl }
    rw [h] at this
    exact this

/-- C92: once the lock of a dependent table is poisoned no flush of its parent that has something to say returns any more. -/
theorem C92_poisoned_dependant (cfg : Cfg S) (boom : Boom S) (n : Nat) (p : T) (fk : FK S) (hfk : IsFK cfg p fk) (w : W (S p))
    (hw : w.changes.isEmpty = false) (ev : Event) (e : PEnv S) (hb : e.bad fk.child = true) :
    ∃ e' q, gFlush cfg boom n p w ev e = (e', .error q) := by
  rcases h : gFlush cfg boom n p w ev e with ⟨e', r⟩
  cases r with
  | error q => exact ⟨e', q, rfl⟩
  | ok a => exact absurd (by rw [h]) (flush_poisoned cfg boom n p fk hfk w hw ev e hb a)

end

section
variable {T : Type} [DecidableEq T] {S : T → Schema} [LS : ∀ t, LawfulSchema (S t)] [LV : ∀ t, LeavesSchema (S t)] {K : Type} [LinearOrder K]
  {key : (t : T) → Row (S t) → K} {cfg : Cfg S} {rank : T → Nat}

/-- C92: a flush of marked rows of a consistent table, wherever and why it ends — a row that does not exist, a dependent table that cannot
lose rows, a tracker that panics, a poisoned lock, a cycle, an event nobody handles —: only rows that had to go are gone, and every table is
still in a state that the other theorems apply to. -/
theorem C92_partly (hse : Searchable cfg) (hpa : ParentsConsistent cfg) (boom : Boom S) (ev : Event) (n : Nat) (p : T)
    (hk : (S p).kind = .consistent) (w : W (S p)) (rows : List Nat) (hw : w.changes = .these rows) (e e' : PEnv S) (r : R Unit)
    (hrd : Ready key cfg (Function.update e.env.tbl p w.tbl)) (h : gFlush cfg boom n p w ev e = (e', r)) :
    Ready key cfg e'.env.tbl ∧ PartlyRemoved cfg (Function.update e.env.tbl p w.tbl) e'.env.tbl p rows := by
  have := left_flush hse hpa boom ev n p hk w rows hw e hrd
  rw [h] at this
  exact ⟨this.ready, this.partly hrd⟩

/-- C92: marking rows of which one does not exist (`select` does not check) and flushing with a removal: everything that references
the marked rows goes, then the rows themselves go one by one, in some order, until the one that does not exist; the flush panics, and
the lock of the table — and no other — is poisoned. -/
theorem C92_out_of_range {ev : Event} (hst : Standard cfg) (hac : Acyclic cfg rank) (hr : ev.isRemoval = true) (hc : ev.isCreation = false)
    (hh : cfg.handlers[ev.id]? = some .delete) {n : Nat} {p : T} (hn : rank p < n) (hp : (S p).kind = .consistent) {w : W (S p)} {e : PEnv S}
    (hl : Holding e.env p) (hb : ∀ t, e.bad t = false) (hrd : Ready key cfg (Function.update e.env.tbl p w.tbl)) {rows : List Nat}
    (hw : w.changes = .these rows) (hpd : ¬ (w.pushed = true ∧ w.delete = true)) (ht : Tame cfg rows) (hx : ∃ i ∈ rows, w.tbl.len ≤ i) :
    ∃ (order : List Nat) (env' : Env S), order.Perm rows ∧
      gFlush cfg (fun _ => none) n p w ev e = ({ env := env', bad := Function.update e.bad p true }, .error .assertRow) ∧
      Unlocked env' ∧ Ready key cfg env'.tbl ∧ DependantsGone cfg (Function.update e.env.tbl p w.tbl) env'.tbl p rows ∧
      (∀ i, (env'.tbl p).view i = if i ∈ order.takeWhile (· < w.tbl.len) then none else w.tbl.view i) :=
  flush_range hst hac hc hr hh hn hp hl hb hrd hw (by
    cases h1 : w.pushed <;> cases h2 : w.delete <;> simp_all) ht hx

end

/-! ## The demo universe -/

/-- Nothing is poisoned, and table 0 is locked. -/
def failEnv : PEnv UniS := { env := { uniEnv with writer := Function.update uniEnv.writer 0 true }, bad := fun _ => false }

/-- Rows 0 and 9 of table 0 marked; row 9 does not exist. -/
def failW : W (UniS 0) := { W.lock (uniTbl 0) with changes := .these [0, 9] }

def failLeft : PEnv UniS := (gFlush uniCfg (fun _ => none) 3 0 failW evDelete failEnv).1

/-- C92_out_of_range: parent 0, its children and grandchildren are gone, and the lock of table 0 is poisoned; so nothing can be deleted from it
any more. -/
example : Holding failEnv.env 0 ∧ (∀ t, failEnv.bad t = false) ∧ Ready uniKey uniCfg (Function.update failEnv.env.tbl 0 failW.tbl) ∧
    Tame uniCfg [0, 9] ∧ (∃ i ∈ [0, 9], failW.tbl.len ≤ i) ∧
    (gFlush uniCfg (fun _ => none) 3 0 failW evDelete failEnv).2 = .error .assertRow ∧
    uniDump (.ok failLeft.env) = some [[none, some (11, 0), some (12, 0), none], [none, none, some (2, 22), none],
      [some (2, 33), none, none, none, none]] ∧ [0, 1, 2].map failLeft.bad = [true, false, false] := by
  refine ⟨⟨fun _ => rfl, fun t => by match t with | 0 => rfl | 1 => rfl | 2 => rfl⟩, fun _ => rfl, ?_, fun _ => by decide, ⟨9, by decide, by decide⟩,
    by decide +kernel, by decide +kernel, by decide +kernel⟩
  have : Function.update failEnv.env.tbl 0 failW.tbl = uniTbl := by
    show Function.update uniTbl 0 (uniTbl 0) = uniTbl
    exact Function.update_eq_self _ _
  rw [this]; exact uniReady

/-- C92_poisoned_dependant: table 1 poisoned, a row of its parent created. -/
example : IsFK uniCfg 0 uniFK01 ∧
    (gFlush uniCfg (fun _ => none) 3 0 { W.lock (uniTbl 0) with changes := .these [1] } evCreate { failEnv with bad := fun t => t = 1 }).2 =
      .error .poisoned :=
  ⟨uniIsFK.2 (Or.inl ⟨rfl, rfl⟩), by decide⟩

/-- C92_refused: an event that is both a creation and a removal; an event without a handler. -/
example : (gFlush uniCfg (fun _ => none) 3 0 failW ⟨2, true, true⟩ failEnv).2 = .error .interleaved ∧
    (gFlush uniCfg (fun _ => none) 3 0 failW ⟨5, false, false⟩ failEnv).2 = .error .vecOob := by decide

/-- C92_partly: the hypotheses hold of the demo universe; nobody handles event 0, so the flush panics. -/
example : Searchable uniCfg ∧ ParentsConsistent uniCfg ∧
    (gFlush uniCfg (fun _ => none) 3 0 failW ⟨0, false, false⟩ failEnv).2 = .error .noHandler :=
  ⟨uniStandard.searchable, uniStandard.parent, by decide⟩

end V11
