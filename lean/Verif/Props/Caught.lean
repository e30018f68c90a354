import Verif.Lemmas.CaughtStuck
import Verif.Lemmas.LiveLeft
import Verif.Props.FlushFail

/-!
# C93: a program that catches its panics

`Deed.Possible`, `Deed.Whole`, `Deed.Plain` and `Deed.about` are in `Spec/Caught.lean`.
-/

set_option linter.unusedSimpArgs false
set_option linter.unusedSectionVars false
set_option linter.unusedVariables false

namespace V11

section
variable {T : Type} [DecidableEq T] {S : T → Schema} [LV : ∀ t, LeavesSchema (S t)]

/-- C92: a flush, however it ends, has only changed (and poisoned the lock of) the table it gave back and tables that depend on it. -/
theorem C92_only_dependants (cfg : Cfg S) (boom : Boom S) (n : Nat) (t : T) (w : W (S t)) (ev : Event) (e e' : PEnv S) (r : R Unit)
    (h : gFlush cfg boom n t w ev e = (e', r)) (s : T) (hs : s ≠ t) (hd : ¬ DependsOn cfg s t) :
    e'.env.tbl s = e.env.tbl s ∧ e'.bad s = e.bad s := by
  have := flush_misses cfg boom n t hs hd w ev e
  rw [h] at this
  exact this

variable {K : Type} [LinearOrder K] {key : (t : T) → Row (S t) → K} {cfg : Cfg S} {n : Nat}

/-- C93: after any sessions, whatever panics they ended with, every lock is in the state it was in, and what trackers were told stays told. -/
theorem C93_locks {ds : List (Deed S)} {e e' : PEnv S} {rs : List (R Unit)} (h : Deed.runs key cfg n ds e = some (e', rs)) :
    rs.length = ds.length ∧ e'.env.reads = e.env.reads ∧ e'.env.writer = e.env.writer ∧ e.env.log <+: e'.env.log := by
  refine ⟨?_, runs_keep (Q := fun x => x.env.reads = e.env.reads ∧ x.env.writer = e.env.writer ∧ e.env.log <+: x.env.log) ?_ h
    ⟨rfl, rfl, List.prefix_rfl⟩⟩
  · induction ds generalizing e rs with
    | nil => rw [Deed.runs] at h; injection h with h; injection h with _ h; subst h; rfl
    | cons d ds ih =>
      obtain ⟨e1, r, rs', -, h2, rfl⟩ := runs_cons h
      simp [ih h2]
  · intro d _ x x' r hx ⟨a, b, c⟩
    have := deed_ends hx
    exact ⟨this.reads.trans a, this.writer.trans b, c.trans this.log⟩

/-- C93: a table whose lock is poisoned stays so, and never changes again. -/
theorem C93_frozen {ds : List (Deed S)} {e e' : PEnv S} {rs : List (R Unit)} (h : Deed.runs key cfg n ds e = some (e', rs)) (t : T)
    (ht : e.bad t = true) : e'.bad t = true ∧ e'.env.tbl t = e.env.tbl t :=
  runs_keep (Q := fun x => x.bad t = true ∧ x.env.tbl t = e.env.tbl t)
    (fun d _ x x' r hx hq => ⟨(deed_ends hx).worse t hq.1, ((deed_ends hx).frozen t hq.1).trans hq.2⟩) h ⟨ht, rfl⟩

/-- C93: every later session on it panics at once. -/
theorem C93_refused {e : PEnv S} (hu : Unlocked e.env) (t : T) (ht : e.bad t = true) :
    (∀ parts ops ev boom, (Deed.write t parts ops ev boom).run key cfg n e = some (e, .error .poisoned)) ∧
    ∀ sel ev boom, (Deed.tell t sel ev boom).run key cfg n e = some (e, .error .poisoned) := by
  have hr : ¬ (e.env.reads t ≠ 0 ∨ e.env.writer t = true) := by
    rw [hu.1 t, hu.2 t]; simp
  constructor
  · intro parts ops ev boom
    rw [Deed.run, if_neg hr, if_pos ht]
  · intro sel ev boom
    rw [Deed.run]
    unfold Pr.andThen gPeek
    rw [if_neg (by rw [hu.2 t]; simp), if_pos ht]

/-- A panic. -/
def R.isPanic {α : Type} : R α → Bool
  | .ok _ => false
  | .error _ => true

/-- C93: a panic poisons at most one lock, or two if `live_flush` or `as_read().select_rows` is used; nothing else does. -/
theorem C93_at_most_one {ds : List (Deed S)} {e e' : PEnv S} {rs : List (R Unit)} (h : Deed.runs key cfg n ds e = some (e', rs)) :
    (∃ lost : List T, lost.length ≤ 2 * rs.countP R.isPanic ∧ ∀ t, e'.bad t = true ↔ e.bad t = true ∨ t ∈ lost) ∧
    ((∀ d ∈ ds, d.Plain) → ∃ lost : List T, lost.length ≤ rs.countP R.isPanic ∧ ∀ t, e'.bad t = true ↔ e.bad t = true ∨ t ∈ lost) := by
  have main : ∀ (k : Nat), (∀ d ∈ ds, ∀ (e e' : PEnv S) (r : R Unit), d.run key cfg n e = some (e', r) →
      ∃ l : List T, l.length ≤ k ∧ ∀ s, e'.bad s = true → e.bad s = true ∨ s ∈ l) →
      ∃ lost : List T, lost.length ≤ k * rs.countP R.isPanic ∧ ∀ t, e'.bad t = true ↔ e.bad t = true ∨ t ∈ lost := by
    intro k hk
    induction ds generalizing e rs with
    | nil =>
      rw [Deed.runs] at h; injection h with h; injection h with h _; subst h
      exact ⟨[], by simp, fun t => by simp⟩
    | cons d ds ih =>
      obtain ⟨e1, r, rs', h1, h2, rfl⟩ := runs_cons h
      obtain ⟨lost, hl, hb⟩ := ih h2 (fun d hd => hk d (by simp [hd]))
      have hd := deed_ends h1
      cases r with
      | ok a =>
        have hc := hd.calm rfl
        refine ⟨lost, ?_, fun s => ?_⟩
        · rw [List.countP_cons_of_neg (by simp [R.isPanic])]; exact hl
        · rw [hb s, hc]
      | error p =>
        obtain ⟨l, hl1, hl2⟩ := hk d (by simp) _ _ _ h1
        refine ⟨l.filter (fun s => e1.bad s) ++ lost, ?_, fun s => ?_⟩
        · have := List.length_filter_le (fun s => e1.bad s) l
          rw [List.countP_cons_of_pos (by simp [R.isPanic]), List.length_append, Nat.mul_add]
          omega
        · rw [hb s, List.mem_append, List.mem_filter]
          constructor
          · rintro (hs | hs)
            · rcases hl2 s hs with h | h
              · exact Or.inl h
              · exact Or.inr (Or.inl ⟨h, hs⟩)
            · exact Or.inr (Or.inr hs)
          · rintro (hs | ⟨-, hs⟩ | hs)
            · exact Or.inl (hd.worse s hs)
            · exact Or.inl hs
            · exact Or.inr hs
  refine ⟨main 2 (fun d _ e e' r hr => ?_), fun hp => ?_⟩
  · obtain ⟨a, b, hab⟩ := (deed_ends hr).two
    exact ⟨[a, b], by simp, fun s hs => by simpa using hab s hs⟩
  · obtain ⟨lost, hl, hb⟩ := main 1 (fun d hd e e' r hr => by
      obtain ⟨a, ha⟩ := (deed_ends hr).one (hp d hd)
      exact ⟨[a], by simp, fun s hs => by simpa using ha s hs⟩)
    exact ⟨lost, by simpa using hl, hb⟩

/-- C93: a table that no session is about, nor any table it refers to (directly or not), is as it was. -/
theorem C93_only_dependants {ds : List (Deed S)} {e e' : PEnv S} {rs : List (R Unit)} (h : Deed.runs key cfg n ds e = some (e', rs)) (s : T)
    (hs : ∀ d ∈ ds, s ≠ d.about ∧ ¬ DependsOn cfg s d.about) : e'.env.tbl s = e.env.tbl s ∧ e'.bad s = e.bad s :=
  runs_keep (Q := fun x => x.env.tbl s = e.env.tbl s ∧ x.bad s = e.bad s)
    (fun d hd x x' r hx hq => ⟨(deed_misses (hs d hd).1 (hs d hd).2 hx).1.trans hq.1, (deed_misses (hs d hd).1 (hs d hd).2 hx).2.trans hq.2⟩) h ⟨rfl, rfl⟩

/-- C93: the program comes to the end of its sessions, unless one of them ends the process or is undefined behaviour, a deadlock or a stack
overflow: every other panic is caught. -/
theorem C93_ends (ds : List (Deed S)) (e : PEnv S) :
    Deed.runs key cfg n ds e = none ↔
      ∃ pre d post e1 rs, ds = pre ++ d :: post ∧ Deed.runs key cfg n pre e = some (e1, rs) ∧
        (d.run key cfg n e1 = none ∨
          ∃ e2 p, d.run key cfg n e1 = some (e2, .error p) ∧ (p = .ub ∨ p = .deadlock ∨ p = .stackOverflow)) := by
  have hE : ∀ p : Panic, p.isEnd = true ↔ p = .ub ∨ p = .deadlock ∨ p = .stackOverflow := by
    intro p; cases p <;> simp [Panic.isEnd]
  constructor
  · intro h
    induction ds generalizing e with
    | nil => rw [Deed.runs] at h; cases h
    | cons d ds ih =>
      rcases hd : d.run key cfg n e with _ | ⟨e1, r⟩
      · exact ⟨[], d, ds, e, [], rfl, by rw [Deed.runs], Or.inl hd⟩
      · have hrest : Deed.runs key cfg n ds e1 = none → (∀ p, r = .error p → p.isEnd = false) →
            ∃ pre d' post e1 rs, d :: ds = pre ++ d' :: post ∧ Deed.runs key cfg n pre e = some (e1, rs) ∧
            (d'.run key cfg n e1 = none ∨ ∃ e2 p, d'.run key cfg n e1 = some (e2, .error p) ∧ (p = .ub ∨ p = .deadlock ∨ p = .stackOverflow)) := by
          intro hn hr
          obtain ⟨pre, d', post, e2, rs, rfl, h2, h3⟩ := ih e1 hn
          refine ⟨d :: pre, d', post, e2, r :: rs, rfl, ?_, h3⟩
          rw [Deed.runs, hd]
          cases r with
          | ok a => simp only [h2, Option.map_some]
          | error p => simp only [hr p rfl, h2, Option.map_some]; simp
        rw [Deed.runs, hd] at h
        cases r with
        | ok a =>
          simp only [Option.map_eq_none_iff] at h
          exact hrest h (fun p hp => by cases hp)
        | error p =>
          simp only [] at h
          by_cases hp : p.isEnd = true
          · exact ⟨[], d, ds, e, [], rfl, by rw [Deed.runs], Or.inr ⟨e1, p, hd, (hE p).1 hp⟩⟩
          · rw [if_neg hp] at h
            simp only [Option.map_eq_none_iff] at h
            exact hrest h (fun q hq => by injection hq with hq; subst hq; simpa using hp)
  · rintro ⟨pre, d, post, e1, rs, rfl, hpre, hd⟩
    induction pre generalizing e rs with
    | nil =>
      rw [Deed.runs] at hpre; injection hpre with hpre; injection hpre with a _; subst a
      rw [List.nil_append, Deed.runs]
      rcases hd with hd | ⟨e2, p, hd, hp⟩
      · rw [hd]
      · rw [hd]; simp only [(hE p).2 hp, if_true]
    | cons d0 pre ih =>
      obtain ⟨e0, r, rs', h1, h2, -⟩ := runs_cons hpre
      rw [List.cons_append, Deed.runs, h1]
      have := ih e0 rs' h2
      cases r with
      | ok a => simp only [this, Option.map_none]
      | error p => simp only [this, Option.map_none, ite_self]

/-- C93: a session ends the process exactly if a panic under its write lock finds something to flush there (C79_aborts_iff); one that ends the
process with `live_flush`es or selections in it is about a consistent table. -/
theorem C93_aborts (t : T) (ops : List (UOp (S t))) (ev : Event) (boom : Boom S) (e : PEnv S) :
    ((Deed.write t [] ops ev boom).run key cfg n e = none ↔
      e.env.reads t = 0 ∧ e.env.writer t = false ∧ e.bad t = false ∧ ∃ p, (W.lock (e.env.tbl t)).use (key t) ops = .aborted p) ∧
    (∀ parts, (Deed.write t parts ops ev boom).run key cfg n e = none → (S t).kind = .consistent ∧ e.bad t = false) ∧
    ∀ sel, (Deed.tell t sel ev boom).run key cfg n e ≠ none := by
  refine ⟨?_, fun parts h => ?_, fun sel h => by rw [Deed.run] at h; cases h⟩
  · rw [Deed.run]
    by_cases h1 : e.env.reads t ≠ 0 ∨ e.env.writer t = true
    · rw [if_pos h1]
      refine ⟨fun h => (by cases h), fun h => ?_⟩
      rcases h1 with h1 | h1
      · exact absurd h.1 h1
      · rw [h.2.1] at h1; cases h1
    · rw [if_neg h1]
      push Not at h1
      by_cases h2 : e.bad t = true
      · rw [if_pos h2]
        exact ⟨fun h => (by cases h), fun h => by rw [h.2.2.1] at h2; cases h2⟩
      · rw [if_neg h2, Part.runs]
        simp only []
        cases hu : (W.lock (e.env.tbl t)).use (key t) ops with
        | held w => simp
        | unwound p x => simp
        | aborted p => simp [h1.1, h1.2, h2]
  · have habort : ∀ (l : List (UOp (S t))) (w : W (S t)) p, w.use (key t) l = .aborted p → (S t).kind = .consistent := by
      intro l
      induction l with
      | nil => intro w p h; cases h
      | cons o l ih =>
        intro w p h
        unfold W.use at h
        rcases ho : o.run (key t) w with ⟨w1, r⟩
        rw [ho] at h
        cases r with
        | ok a => exact ih w1 p h
        | error q =>
          simp only [] at h
          unfold W.unwind W.drop at h
          by_cases hc : (S t).kind = .consistent ∧ w1.changes.isEmpty = false
          · exact hc.1
          · rw [if_neg hc] at h; cases h
    have hparts : ∀ (ps : List (Part S t)) (w : W (S t)) (e : PEnv S), Part.runs key cfg n t ps w e = none → (S t).kind = .consistent := by
      intro ps
      induction ps with
      | nil => intro w e h; rw [Part.runs] at h; cases h
      | cons x xs ih =>
        intro w e h
        rw [Part.runs] at h
        cases hu : w.use (key t) x.ops with
        | aborted p => exact habort _ _ p hu
        | unwound p y => rw [hu] at h; cases h
        | held w1 =>
          rw [hu] at h
          simp only [] at h
          rcases hf : x.act cfg n t w1 e with _ | ⟨e1, c⟩
          · unfold Part.act at hf
            cases hv : x.view with
            | none => rw [hv] at hf; cases hf
            | some sel =>
              rw [hv] at hf
              simp only [] at hf
              rcases view_cases cfg x.boom n t w1 x.ev sel e with ⟨e1, c, h1, h2⟩ | ⟨e1, q, h1, h2, h3⟩ | ⟨e1, q, h1, h2, h3, h4⟩
              · rw [h2] at hf; cases hf
              · rw [h3] at hf; cases hf
              · exact h3.1
          rw [hf] at h
          cases c with
          | error q => cases h
          | ok w2 => exact ih _ _ h
    rw [Deed.run] at h
    split at h
    · cases h
    · split at h
      · cases h
      · rename_i hb
        refine ⟨?_, by simpa using hb⟩
        rcases hp : Part.runs key cfg n t parts (W.lock (e.env.tbl t)) (e.taken t) with _ | ⟨e1, c⟩
        · exact hparts _ _ _ hp
        · rw [hp] at h
          cases c with
          | error q => cases h
          | ok w =>
            simp only [] at h
            cases hu : w.use (key t) ops with
            | aborted p => exact habort _ _ p hu
            | unwound p y => rw [hu] at h; cases h
            | held w1 => rw [hu] at h; cases h

/-- C93: every table, poisoned or not, is one of those C70 and C71 are about. -/
theorem C93_salvaged {ds : List (Deed S)} (hds : ∀ d ∈ ds, d.Possible) {e e' : PEnv S} {rs : List (R Unit)}
    (h : Deed.runs key cfg n ds e = some (e', rs)) (ht : ∀ t, Salvaged (key t) (e.env.tbl t)) : ∀ t, Salvaged (key t) (e'.env.tbl t) := by
  refine runs_keep (Q := fun x => ∀ t, Salvaged (key t) (x.env.tbl t)) (fun d hd x x' r hx hq => ?_) h ht
  refine deed_keeps_all (P := fun t y => Salvaged (key t) y) steps_salvaged (fun t l hl w hy => ?_) hx hq
  have := use_salvaged (key := key t) l (hl.possible (hds d hd)) w hy
  refine ⟨fun w hw => ?_, fun p z hz => ?_⟩
  · rw [hw] at this; exact this
  · rw [hz] at this; exact this

/-- Calls in which the caller's code does not panic. -/
theorem steps_use {S : Schema} [LeavesSchema S] {key : Row S → K} (ops : List (LOp S)) (w w' : W S) (h : w.steps key ops = .ok w') :
    w.use key (ops.map LOp.toU) = .held w' := by
  induction ops generalizing w with
  | nil => injection h with h; subst h; rfl
  | cons o ops ih =>
    unfold W.steps at h
    rw [List.foldlM_cons] at h
    cases e : w.step key o with
    | error p => rw [e] at h; cases h
    | ok w1 =>
      rw [e, okBind] at h
      show w.use key (o.toU :: ops.map LOp.toU) = _
      unfold W.use
      rw [((C79_agrees w o).1 w1).1 e]
      exact ih w1 h

/-- C93: a session that returns is the session of the other theorems. -/
theorem C93_agrees (t : T) (ops : List (LOp (S t))) (ev : Event) (e : PEnv S) (hb : ∀ t, e.bad t = false) {env' : Env S}
    (h : session cfg n key t ops ev e.env = .ok env') :
    (Deed.write t [] (ops.map LOp.toU) ev fun _ => none).run key cfg n e = some ({ e with env := env' }, .ok ()) := by
  unfold session at h
  cases hl : e.env.lock t with
  | error p => rw [hl] at h; cases h
  | ok x =>
    obtain ⟨w, env1⟩ := x
    rw [hl, okBind] at h
    simp only [] at h
    cases hs : w.steps (key t) ops with
    | error p => rw [hs] at h; cases h
    | ok w1 =>
      rw [hs, okBind] at h
      unfold Env.lock at hl
      split at hl
      · cases hl
      · rename_i hfree
        injection hl with hl; injection hl with h1 h2; subst h1; subst h2
        rw [Deed.run, if_neg hfree, if_neg (by rw [hb t]; simp), Part.runs]
        simp only []
        rw [steps_use ops _ _ hs]
        simp only []
        rw [(C92_agrees cfg n t w1 ev { e with env := { e.env with writer := Function.update e.env.writer t true } } hb).1 env' h]

/-- C93: telling trackers of rows, likewise. -/
theorem C93_agrees_tell (t : T) (sel : Select (List Nat)) (ev : Event) (e : PEnv S) (hb : ∀ t, e.bad t = false) :
    (∀ env', readSelect cfg n t ev sel e.env = .ok env' →
      (Deed.tell t sel ev fun _ => none).run key cfg n e = some ({ e with env := env' }, .ok ())) ∧
    ∀ p, readSelect cfg n t ev sel e.env = .error p → ∃ e', (Deed.tell t sel ev fun _ => none).run key cfg n e = some (e', .error p) := by
  have hT : Ties (fun _ => none) ((gPeek t).andThen fun _ => (gDoFlush cfg (fun _ => none) n t ev false false sel).andThen fun _ => Pr.ret ())
      (fun env => readSelect cfg n t ev sel env >>= fun x => .ok ((), x)) := by
    refine (Ties.bind (ties_peek _ t) (fun _ => Ties.bind (ties_doFlush cfg _ n t ev false false sel) (fun _ => Ties.ret _ ()))).congr ?_
    intro env
    unfold readSelect
    simp only [bindAssoc, okBind]
  constructor
  · intro env' h
    rw [Deed.run]
    obtain ⟨-, -, new, -, b⟩ := (hT e hb).ok () env' (by simp only [h]; rfl)
    rw [b, outcome_never (fun _ => rfl)]
    rfl
  · intro p h
    rw [Deed.run]
    have := (hT e hb).err p (by simp only [h]; rfl) (fun _ => rfl)
    rcases hx : ((gPeek t).andThen fun _ => (gDoFlush cfg (fun _ => none) n t ev false false sel).andThen fun _ => Pr.ret ()) e with ⟨e', r⟩
    rw [hx] at this
    simp only [] at this
    subst this
    exact ⟨e', rfl⟩

/-- C92: a `live_flush`, likewise: with no poisoned lock and no panicking tracker it is the one of C60. -/
theorem C92_live_agrees (cfg : Cfg S) (n : Nat) (t : T) (w : W (S t)) (ev : Event) (e : PEnv S) (hb : ∀ t, e.bad t = false) :
    (∀ w' env', liveFlush cfg n t w ev e.env = .ok (w', env') → gLiveFlush cfg (fun _ => none) n t w ev e = ({ e with env := env' }, .ok w')) ∧
    ∀ p, liveFlush cfg n t w ev e.env = .error p ↔ (gLiveFlush cfg (fun _ => none) n t w ev e).2 = .error p := by
  have main : (∀ w' env', liveFlush cfg n t w ev e.env = .ok (w', env') → gLiveFlush cfg (fun _ => none) n t w ev e = ({ e with env := env' }, .ok w')) ∧
      ∀ p, liveFlush cfg n t w ev e.env = .error p → (gLiveFlush cfg (fun _ => none) n t w ev e).2 = .error p := by
    unfold liveFlush gLiveFlush
    by_cases hc : w.changes.isEmpty = true
    · rw [if_pos hc, if_pos hc]
      refine ⟨fun w' env' h => ?_, fun p h => by cases h⟩
      injection h with h; injection h with a b; subst a; subst b; rfl
    · rw [if_neg hc, if_neg hc]
      have hT := ties_doFlush cfg (fun _ => none) n t ev w.pushed w.delete w.changes { e with env := e.env.put t w.tbl } hb
      cases hd : doFlush cfg n t ev w.pushed w.delete w.changes (e.env.put t w.tbl) with
      | error q =>
        rw [errBind]
        refine ⟨fun w' env' h => (by cases h), fun p h => ?_⟩
        injection h with h; subst h
        have := hT.err q hd (fun _ => rfl)
        rcases hx : gDoFlush cfg (fun _ => none) n t ev w.pushed w.delete w.changes { e with env := e.env.put t w.tbl } with ⟨e1, r⟩
        rw [hx] at this
        simp only [] at this; subst this
        rfl
      | ok r =>
        obtain ⟨c, env1⟩ := r
        rw [okBind]
        obtain ⟨-, -, new, -, b⟩ := hT.ok c env1 hd
        rw [outcome_never (fun _ => rfl)] at b
        rw [b]
        simp only [addBad]
        by_cases hr : (ev.isRemoval && !c.isEmpty) = true
        · rw [if_pos hr, if_pos hr]
          have ho := out_removeSel c w.tbl
          cases hs : w.tbl.removeSel c with
          | error q =>
            rw [hs] at ho
            have := out_err.1 ho
            rcases hx : Cr.removeSel c w.tbl with ⟨x, r⟩
            rw [hx] at this
            simp only [] at this; subst this
            refine ⟨fun w' env' h => (by cases h), fun p h => ?_⟩
            injection h with h; subst h; rfl
          | ok x =>
            rw [hs] at ho
            rw [out_ok.1 ho]
            refine ⟨fun w' env' h => ?_, fun p h => by cases h⟩
            injection h with h; injection h with a b; subst a; subst b; rfl
        · rw [if_neg hr, if_neg hr]
          refine ⟨fun w' env' h => ?_, fun p h => by cases h⟩
          injection h with h; injection h with a b; subst a; subst b; rfl
  refine ⟨main.1, fun p => ⟨main.2 p, fun h => ?_⟩⟩
  cases hf : liveFlush cfg n t w ev e.env with
  | ok r => obtain ⟨w', env'⟩ := r; rw [main.1 w' env' hf] at h; cases h
  | error q =>
    rw [main.2 q hf] at h
    injection h with h; rw [h]

/-- C92: what a `live_flush` leaves. If it returns the lock is still held, with nothing left to flush, and no lock is poisoned; if it panics the
lock is released and poisoned, and at most one other is, of a table that depends on it. Other tables than these are as before. -/
theorem C92_live_left (cfg : Cfg S) (boom : Boom S) (n : Nat) (t : T) (w : W (S t)) (ev : Event) (e e' : PEnv S) (r : R (W (S t)))
    (h : gLiveFlush cfg boom n t w ev e = (e', r)) :
    e'.env.reads = e.env.reads ∧ e.env.log <+: e'.env.log ∧ (∀ s, e.bad s = true → e'.bad s = true) ∧
    (∀ w', r = .ok w' → e'.env.writer = e.env.writer ∧ e'.bad = e.bad ∧ w'.changes.isEmpty = true) ∧
    (∀ p, r = .error p → e'.env.writer = Function.update e.env.writer t false ∧ e'.bad t = true ∧
      ∃ s, ∀ u, e'.bad u = true → e.bad u = true ∨ u = t ∨ u = s) ∧
    ∀ s, s ≠ t → ¬ DependsOn cfg s t → e'.env.tbl s = e.env.tbl s ∧ e'.bad s = e.bad s := by
  obtain ⟨a, b, -⟩ := liveFlush_ends (steps_true (S := S)) h
  exact ⟨a.reads, a.log, a.worse, fun w' hw => ⟨(a.held w' hw).1, (a.held w' hw).2, (b w' hw).1⟩, a.gone, fun s hs hd => liveFlush_misses hs hd h⟩

/-- C92: so poison spreads: if the lock of a table that refers to `p` is poisoned, a `live_flush` of `p` with anything to flush panics and poisons
the lock of `p`, whose table is as it was given. (A `flush` panics too, but leaves the lock usable: C92_locks, C93_stuck.) -/
theorem C92_live_spreads (cfg : Cfg S) (boom : Boom S) (n : Nat) (p : T) (fk : FK S) (hfk : IsFK cfg p fk) (w : W (S p)) (hw : w.changes.isEmpty = false)
    (ev : Event) (e : PEnv S) (hb : e.bad fk.child = true) :
    ∃ e' q, gLiveFlush cfg boom n p w ev e = (e', .error q) ∧ e'.bad p = true ∧ e'.env.tbl p = w.tbl := by
  rcases h : gLiveFlush cfg boom n p w ev e with ⟨e', r⟩
  obtain ⟨s1, s2⟩ := liveFlush_stuck hfk h hb
  cases r with
  | ok w' =>
    obtain ⟨rfl, rfl⟩ := s1 w' rfl
    have := (C92_live_left cfg boom n p w' ev e' e' (.ok w') h).2.2.2.1 w' rfl
    rw [hw] at this; exact absurd this.2.2 (by simp)
  | error q => exact ⟨e', q, rfl, ((C92_live_left cfg boom n p w ev e e' (.error q) h).2.2.2.2.1 q rfl).2.1, s2 q rfl⟩

/-- C92: a `live_flush` of marked rows of a consistent table, wherever and why it ends: only rows that had to go are gone, and every table is still in a
state that the other theorems apply to. -/
theorem C92_live_partly [LS : ∀ t, LawfulSchema (S t)] (hse : Searchable cfg) (hpa : ParentsConsistent cfg) (boom : Boom S) (ev : Event) (n : Nat) (p : T)
    (hk : (S p).kind = .consistent) (w : W (S p)) (rows : List Nat) (hw : w.changes = .these rows) (e e' : PEnv S) (r : R (W (S p)))
    (hl : e.env.writer p = true) (hwt : e.env.tbl p = w.tbl) (hrd : Ready key cfg e.env.tbl) (h : gLiveFlush cfg boom n p w ev e = (e', r)) :
    Ready key cfg e'.env.tbl ∧ PartlyRemoved cfg e.env.tbl e'.env.tbl p rows := by
  have := left_live hse hpa boom ev n p hk w rows hw e hl hwt hrd
  rw [h] at this
  exact ⟨this.ready, this.partly hrd⟩

/-- C92: a `live_flush` of a removal with marked rows of which one does not exist: everything that references the marked rows goes, then the rows themselves
go one by one, in some order, until the one that does not exist; the call panics, and the lock of the table, which it held — and no other — is poisoned and
given back. -/
theorem C92_live_out_of_range [LS : ∀ t, LawfulSchema (S t)] {rank : T → Nat} {ev : Event} (hst : Standard cfg) (hac : Acyclic cfg rank)
    (hr : ev.isRemoval = true) (hc : ev.isCreation = false) (hh : cfg.handlers[ev.id]? = some .delete) {n : Nat} {p : T} (hn : rank p < n)
    (hp : (S p).kind = .consistent) {w : W (S p)} {e : PEnv S} (hl : Holding e.env p) (hb : ∀ t, e.bad t = false) (hwt : e.env.tbl p = w.tbl)
    (hrd : Ready key cfg e.env.tbl) {rows : List Nat} (hw : w.changes = .these rows) (hpd : ¬ (w.pushed = true ∧ w.delete = true))
    (ht : Tame cfg rows) (hx : ∃ i ∈ rows, w.tbl.len ≤ i) :
    ∃ (order : List Nat) (env' : Env S), order.Perm rows ∧
      gLiveFlush cfg (fun _ => none) n p w ev e = ({ env := env', bad := Function.update e.bad p true }, .error .assertRow) ∧
      Unlocked env' ∧ Ready key cfg env'.tbl ∧ DependantsGone cfg e.env.tbl env'.tbl p rows ∧
      (∀ i, (env'.tbl p).view i = if i ∈ order.takeWhile (· < w.tbl.len) then none else w.tbl.view i) :=
  live_range hst hac hc hr hh hn hp hl hb hwt hrd hw (by
    cases h1 : w.pushed <;> cases h2 : w.delete <;> simp_all) ht hx

/-- C93: calls and a `live_flush` that return go on as in the other theorems. -/
theorem C93_agrees_live (t : T) (ops : List (LOp (S t))) (ev : Event) (ps : List (Part S t)) (w w1 w2 : W (S t)) (e : PEnv S) (hb : ∀ t, e.bad t = false)
    {env' : Env S} (h1 : w.steps (key t) ops = .ok w1) (h2 : liveFlush cfg n t w1 ev e.env = .ok (w2, env')) :
    Part.runs key cfg n t (⟨ops.map LOp.toU, none, ev, fun _ => none⟩ :: ps) w e = Part.runs key cfg n t ps w2 { e with env := env' } := by
  rw [Part.runs, steps_use ops w w1 h1]
  simp only [Part.act]
  rw [(C92_live_agrees cfg n t w1 ev e hb).1 w2 env' h2]

/-- C93: a panic under the write lock of a table — of the caller's code, or of a call — changes that table only, and poisons its lock; a
consistent table keeps its ids and, unless cells were edited in place, all of the universe is as before. -/
theorem C93_under_lock [LS : ∀ t, LawfulSchema (S t)] (t : T) (ops : List (UOp (S t))) (ev : Event) (boom : Boom S) (e : PEnv S) (hu : Unlocked e.env)
    (hb : e.bad t = false) {p : Panic} {x : Tbl (S t)} (h : (W.lock (e.env.tbl t)).use (key t) ops = .unwound p x) :
    ∃ e' : PEnv S, (Deed.write t [] ops ev boom).run key cfg n e = some (e', .error p) ∧ e'.bad = Function.update e.bad t true ∧
      e'.env.log = e.env.log ∧ (∀ s, s ≠ t → e'.env.tbl s = e.env.tbl s) ∧ e'.env.tbl t = x ∧
      ((S t).kind = .consistent → Reach (key t) true (e.env.tbl t) → (∀ o ∈ ops, o.Allowed (S t)) → p ≠ .idxOverflow →
        (∀ i, (e'.env.tbl t).contains i = (e.env.tbl t).contains i) ∧ ((∀ o ∈ ops, ¬ o.IsSet) → e'.env = e.env)) := by
  have hr : ¬ (e.env.reads t ≠ 0 ∨ e.env.writer t = true) := by
    rw [hu.1 t, hu.2 t]; simp
  refine ⟨{ env := e.env.put t x, bad := Function.update e.bad t true }, ?_, rfl, rfl, fun s hs => Function.update_of_ne hs .., Function.update_self ..,
    fun hk hre ha hp => ?_⟩
  · rw [Deed.run, if_neg hr, if_neg (by rw [hb]; simp), Part.runs]
    simp only []
    rw [h]
    simp only [PEnv.dropped, Env.unlock, Env.put, Function.update_idem]
    have : Function.update e.env.writer t false = e.env.writer := by
      rw [← hu.2 t, Function.update_eq_self]
    rw [this]
  · obtain ⟨h1, -, h3⟩ := C79_all_or_nothing hk _ hre ops ha p x h hp
    refine ⟨fun i => ?_, fun hs => ?_⟩
    · show (Function.update e.env.tbl t x t).contains i = _
      rw [Function.update_self]; exact h1 i
    · have := h3 hs
      subst this
      show ({ e.env with tbl := Function.update e.env.tbl t (e.env.tbl t) } : Env S) = e.env
      rw [Function.update_eq_self]

variable [LS : ∀ t, LawfulSchema (S t)]

/-- C93: every table whose lock is not poisoned is in a state that calls that return lead to: the theorems about tables apply to it. -/
theorem C93_usable {ds : List (Deed S)} (hds : ∀ d ∈ ds, d.Possible) (hwh : ∀ d ∈ ds, d.Whole) {e e' : PEnv S} {rs : List (R Unit)}
    (h : Deed.runs key cfg n ds e = some (e', rs)) (ht : ∀ t, e.bad t = false → Reach (key t) false (e.env.tbl t)) :
    ∀ t, e'.bad t = false → Reach (key t) false (e'.env.tbl t) := by
  refine runs_keep (Q := fun x => ∀ t, x.bad t = false → Reach (key t) false (x.env.tbl t)) (fun d hd x x' r hx hq => ?_) h ht
  refine deed_keeps (P := fun t y => Reach (key t) false y) steps_reach (fun t l hl w w' hy hw => ?_) hx hq
  exact use_carries (key := key t) (fun o a a' ha hal _ hr => Reach.step ha hal (by simp) hr) l (hl.possible (hds d hd)) (hl.whole (hwh d hd)) hw hy

/-- C93, the price: once the lock of a table that refers to `p` is poisoned, no row of `p` — a consistent table that refers to nothing itself —
is ever deleted again, whatever the program does. -/
theorem C93_stuck {p : T} (hk : (S p).kind = .consistent) (hroot : ∀ q fk, IsFK cfg q fk → fk.child ≠ p) {fk : FK S} (hfk : IsFK cfg p fk)
    {ds : List (Deed S)} (hds : ∀ d ∈ ds, d.Possible) (hwh : ∀ d ∈ ds, d.Whole) {e e' : PEnv S} {rs : List (R Unit)}
    (h : Deed.runs key cfg n ds e = some (e', rs)) (hb : e.bad fk.child = true) (hp : Reach (key p) true (e.env.tbl p))
    (hov : Except.error Panic.idxOverflow ∉ rs) :
    ∀ i, (e.env.tbl p).contains i = true → (e'.env.tbl p).contains i = true := by
  have hnd : ∀ t, ¬ DependsOn cfg p t := by
    intro t hd
    have : ∀ a b, DependsOn cfg a b → a = p → False := by
      intro a b hab
      induction hab with
      | direct hfk => exact fun e => hroot _ _ hfk e
      | step _ _ ih => exact ih
    exact this _ _ hd rfl
  suffices main : ∀ (ds : List (Deed S)), (∀ d ∈ ds, d.Possible) → (∀ d ∈ ds, d.Whole) → ∀ (x : PEnv S) (rs : List (R Unit)),
      Deed.runs key cfg n ds x = some (e', rs) → Except.error Panic.idxOverflow ∉ rs → x.bad fk.child = true →
      (x.bad p = false → Reach (key p) true (x.env.tbl p)) → ∀ i, (x.env.tbl p).contains i = true → (e'.env.tbl p).contains i = true from
    main ds hds hwh e rs h hov hb (fun _ => hp)
  intro ds
  induction ds with
  | nil =>
    intro _ _ x rs h _ _ _ i hi
    rw [Deed.runs] at h; injection h with h; injection h with h _; subst h; exact hi
  | cons d ds ih =>
    intro hds hwh x rs h hov hbx hr i hi
    obtain ⟨x1, r, rs', h1, h2, rfl⟩ := runs_cons h
    obtain ⟨a, b⟩ := deed_stuck hk hnd hfk (hds d (by simp)) (hwh d (by simp)) h1 hbx (by rintro rfl; exact hov (by simp)) hr
    exact ih (fun d hd => hds d (by simp [hd])) (fun d hd => hwh d (by simp [hd])) x1 rs' h2 (fun hx => hov (by simp [hx]))
      ((deed_ends h1).worse _ hbx) a i (b i hi)

end

/-! ## The demo universe: the program panics while it holds table 1 -/

/-- The panic. -/
def R.panic? {α : Type} : R α → Option Panic
  | .ok _ => none
  | .error p => some p

/-- What is left: the tables, the poisoned locks, the panics. -/
def caughtLook (x : Option (PEnv UniS × List (R Unit))) :
    Option (List (List (Option (Nat × Nat)))) × List Bool × List (Option Panic) :=
  match x with
  | none => (none, [], [])
  | some (e, rs) => (uniDump (.ok e.env), [0, 1, 2].map e.bad, rs.map R.panic?)

/-- Nothing is poisoned. -/
def caughtStart : PEnv UniS := { env := uniEnv, bad := fun _ => false }

/-- A panic under the lock of table 1; then deletions from table 0, and a removal from table 2. -/
def caughtDeeds : List (Deed UniS) :=
  [.write 1 [] [.user] evDelete fun _ => none, .write 0 [] [.delete 0] evDelete fun _ => none,
   .write 2 [] [.other (TOp.removeRows [0]).toC] evDelete fun _ => none, .write 0 [] [.delete 1, .delete 2] evDelete fun _ => none,
   .tell 0 .all evCreate fun _ => none]

/-- C93: the first session loses table 1, and after that no parent can be deleted; table 2 is as usable as before. -/
example : (∀ d ∈ caughtDeeds, d.Possible) ∧ (∀ d ∈ caughtDeeds, d.Whole) ∧
    caughtLook (Deed.runs uniKey uniCfg 3 caughtDeeds caughtStart) =
      (some [[some (10, 0), some (11, 0), some (12, 0), none], [some (0, 20), some (0, 21), some (2, 22), none],
        [some (1, 31), some (1, 32), some (2, 33), none, none]], [false, true, false],
        [some .userPanic, some .poisoned, none, some .poisoned, some .poisoned]) := by
  refine ⟨?_, ?_, by decide +kernel⟩
  · intro d hd
    simp only [caughtDeeds, List.mem_cons, List.not_mem_nil, or_false] at hd
    rcases hd with rfl | rfl | rfl | rfl | rfl <;> simp [Deed.Possible, UOp.Allowed, COp.Allowed, TOp.toC, UniS]
  · intro d hd
    simp only [caughtDeeds, List.mem_cons, List.not_mem_nil, or_false] at hd
    rcases hd with rfl | rfl | rfl | rfl | rfl <;> simp [Deed.Whole, UOp.Whole]

/-- C93_stuck: table 0 refers to nothing, table 1 refers to it. -/
example : (UniS 0).kind = .consistent ∧ (∀ q fk, IsFK uniCfg q fk → fk.child ≠ 0) ∧ IsFK uniCfg 0 uniFK01 ∧
    Reach (uniKey 0) true (uniEnv.tbl 0) := by
  refine ⟨rfl, fun q fk h => ?_, uniIsFK.2 (Or.inl ⟨rfl, rfl⟩), uniReady.reach 0⟩
  rcases uniIsFK.1 h with ⟨-, rfl⟩ | ⟨-, rfl⟩ <;> decide

/-- Deleting a row that was marked although it does not exist loses only the table itself (C92_out_of_range); all others go on. -/
example : caughtLook (Deed.runs uniKey uniCfg 3 [.write 0 [] [.select 9] evDelete fun _ => none, .write 1 [] [.delete 2] evDelete fun _ => none] caughtStart) =
    (some [[some (10, 0), some (11, 0), some (12, 0), none], [some (0, 20), some (0, 21), none, none],
      [some (0, 30), some (1, 31), some (1, 32), none, none]], [true, false, false], [some .assertRow, none]) := by
  decide +kernel

/-- Sessions with a `live_flush`: the first deletes a row of table 0 and the rows that refer to it, goes on with the lock, and deletes another; then table 1 is
lost to a panic; the last `live_flush` of table 0 then loses that one too. -/
def caughtLive : List (Deed UniS) :=
  [.write 0 [⟨[.delete 0], none, evDelete, fun _ => none⟩] [.delete 1] evDelete fun _ => none, .write 1 [] [.user] evDelete fun _ => none,
   .write 0 [⟨[.delete 2], none, evDelete, fun _ => none⟩] [] evDelete fun _ => none, .tell 0 .all evCreate fun _ => none]

example : (∀ d ∈ caughtLive, d.Possible) ∧ (∀ d ∈ caughtLive, d.Whole) ∧
    caughtLook (Deed.runs uniKey uniCfg 3 caughtLive caughtStart) =
      (some [[none, none, some (12, 0), none], [none, none, some (2, 22), none], [some (2, 33), none, none, none, none]], [true, true, false],
        [none, some .userPanic, some .poisoned, some .poisoned]) := by
  refine ⟨?_, ?_, by decide +kernel⟩
  · intro d hd
    simp only [caughtLive, List.mem_cons, List.not_mem_nil, or_false] at hd
    rcases hd with rfl | rfl | rfl | rfl <;> simp [Deed.Possible, UOp.Allowed, UniS]
  · intro d hd
    simp only [caughtLive, List.mem_cons, List.not_mem_nil, or_false] at hd
    rcases hd with rfl | rfl | rfl | rfl <;> simp [Deed.Whole, UOp.Whole]

/-- C92_live_out_of_range, C92_live_partly: rows 0 and 9 of table 0 are marked, and row 9 does not exist. -/
example : Holding failEnv.env 0 ∧ failEnv.env.tbl 0 = failW.tbl ∧ Ready uniKey uniCfg failEnv.env.tbl ∧ Tame uniCfg [0, 9] ∧ (∃ i ∈ [0, 9], failW.tbl.len ≤ i) ∧
    uniDump (.ok (gLiveFlush uniCfg (fun _ => none) 3 0 failW evDelete failEnv).1.env) =
      some [[none, some (11, 0), some (12, 0), none], [none, none, some (2, 22), none], [some (2, 33), none, none, none, none]] ∧
    (gLiveFlush uniCfg (fun _ => none) 3 0 failW evDelete failEnv).1.bad 0 = true := by
  refine ⟨?_, rfl, ?_, ?_, ⟨9, by simp, by decide⟩, by decide +kernel, by decide +kernel⟩
  · refine ⟨fun t => rfl, fun t => ?_⟩
    match t with | 0 => rfl | 1 => rfl | 2 => rfl
  · exact uniReady
  · exact fun _ => by decide

end V11
