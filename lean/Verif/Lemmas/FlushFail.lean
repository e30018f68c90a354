import Verif.Model.FlushFail
import Verif.Lemmas.FlushPanic
import Verif.Lemmas.Salvage
import Verif.Lemmas.Cascade

/-!
# A flush with its own panics is the flush of `Model/Universe`
-/

set_option linter.unusedSimpArgs false
set_option linter.unusedSectionVars false
set_option linter.unusedVariables false

namespace V11
variable {T : Type} [DecidableEq T] {S : T → Schema} {α β : Type}

/-- The outcome in a universe with these poisoned locks. -/
def addBad (bad : T → Bool) (r : Env S × R α) : PEnv S × R α := (⟨r.1, bad⟩, r.2)

/-- `x` is `f`, with panicking observers and what panics leave. -/
structure TiesAt (boom : Boom S) (x : Pr S α) (e : PEnv S) (r : R (α × Env S)) : Prop where
  ok : ∀ a env', r = .ok (a, env') → env'.reads = e.env.reads ∧ env'.writer = e.env.writer ∧
    ∃ new, env'.log = e.env.log ++ new ∧ x e = addBad e.bad (outcome boom e.env env' new a)
  err : ∀ p, r = .error p → (∀ l, boom l = none) → (x e).2 = .error p

/-- The same for every universe without poisoned locks. -/
def Ties (boom : Boom S) (x : Pr S α) (f : Env S → R (α × Env S)) : Prop :=
  ∀ e : PEnv S, (∀ t, e.bad t = false) → TiesAt boom x e (f e.env)

theorem addBad_nil (boom : Boom S) (env env' : Env S) (bad : T → Bool) (a : α) :
    addBad bad (outcome boom env env' [] a) = (⟨env', bad⟩, .ok a) := rfl

theorem cutCall_never {boom : Boom S} (hb : ∀ l, boom l = none) (new : List (Call S)) : ∀ log, cutCall boom log new = none := by
  intro log; exact cutCall_none new log (fun k hk => hb _)

theorem outcome_never {boom : Boom S} (hb : ∀ l, boom l = none) (env env' : Env S) (new : List (Call S)) (a : α) :
    outcome boom env env' new a = (env', .ok a) := by
  unfold outcome; rw [cutCall_never hb]

theorem Ties.ret (boom : Boom S) (a : α) : Ties boom (Pr.ret a) (fun env => .ok (a, env)) := by
  intro e he
  refine ⟨?_, ?_⟩
  · intro b env' h
    injection h with h; injection h with h1 h2; subst h1 h2
    exact ⟨rfl, rfl, [], by simp, rfl⟩
  · intro p h; cases h

theorem Ties.fail (boom : Boom S) (p : Panic) : Ties boom (Pr.fail p : Pr S α) (fun _ => .error p) := by
  intro e he
  refine ⟨fun a env' h => (by cases h), ?_⟩
  intro q h _
  injection h with h; subst h; rfl

theorem TiesAt.bind {boom : Boom S} {x : Pr S α} {g : α → Pr S β} {e : PEnv S} {f : R (α × Env S)} {k : α → Env S → R (β × Env S)}
    (h1 : TiesAt boom x e f) (h2 : ∀ a env', f = .ok (a, env') → TiesAt boom (g a) ⟨env', e.bad⟩ (k a env')) :
    TiesAt boom (x.andThen g) e (f >>= fun r => k r.1 r.2) := by
  refine ⟨?_, ?_⟩
  · intro b env2 h
    cases ef : f with
    | error p => rw [ef] at h; cases h
    | ok r =>
      obtain ⟨a, env1⟩ := r
      rw [ef] at h
      replace h : k a env1 = .ok (b, env2) := h
      obtain ⟨r1, w1, n1, l1, o1⟩ := h1.ok a env1 ef
      obtain ⟨r2, w2, n2, l2, o2⟩ := (h2 a env1 ef).ok b env2 h
      refine ⟨r2.trans r1, w2.trans w1, n1 ++ n2, by rw [l2, l1, List.append_assoc], ?_⟩
      unfold Pr.andThen
      rw [o1]
      unfold addBad outcome
      rw [cutCall_append]
      cases hc : cutCall boom e.env.log n1 with
      | some r =>
        obtain ⟨d, c, p⟩ := r
        simp only []
      | none =>
        simp only []
        rw [o2]
        unfold addBad outcome
        simp only [l1]
        cases hc2 : cutCall boom (e.env.log ++ n1) n2 with
        | none => simp only [Option.map_none]
        | some r =>
          obtain ⟨d, c, p⟩ := r
          simp only [Option.map_some, Env.asSeen, r1, w1, List.append_assoc]
  · intro p h hb
    unfold Pr.andThen
    cases ef : f with
    | error q =>
      rw [ef] at h
      injection h with h; subst h
      have := h1.err q ef hb
      rcases hx : x e with ⟨e1, r1⟩
      rw [hx] at this
      simp only [] at this; subst this
      rfl
    | ok r =>
      obtain ⟨a, env1⟩ := r
      rw [ef] at h
      obtain ⟨r1, w1, n1, l1, o1⟩ := h1.ok a env1 ef
      rw [o1, outcome_never hb]
      exact (h2 a env1 ef).err p h hb

theorem Ties.bind {boom : Boom S} {x : Pr S α} {g : α → Pr S β} {f : Env S → R (α × Env S)} {k : α → Env S → R (β × Env S)}
    (h1 : Ties boom x f) (h2 : ∀ a, Ties boom (g a) (k a)) :
    Ties boom (x.andThen g) (fun env => f env >>= fun r => k r.1 r.2) :=
  fun e he => (h1 e he).bind (fun a env' _ => h2 a ⟨env', e.bad⟩ he)

/-- `Ties`, of functions that give only the universe. -/
abbrev TiesU (boom : Boom S) (x : Pr S Unit) (f : Env S → R (Env S)) : Prop :=
  Ties boom x (fun env => f env >>= fun e => .ok ((), e))

theorem Ties.congr {boom : Boom S} {x : Pr S α} {f g : Env S → R (α × Env S)} (h : Ties boom x f) (e : ∀ env, f env = g env) :
    Ties boom x g := by
  have : f = g := funext e
  rwa [← this]

theorem ties_peek (boom : Boom S) (t : T) : Ties boom (gPeek t) (fun env => env.peek t >>= fun x => .ok (x, env)) := by
  intro e he
  unfold gPeek
  cases hw : e.env.writer t with
  | true =>
    have ep : e.env.peek t = .error .deadlock := by unfold Env.peek; rw [if_pos hw]
    simp only [ep]
    refine ⟨fun a env' h => (by cases h), fun p h _ => ?_⟩
    injection h with h; subst h
    rw [if_pos hw]
  | false =>
    have ep : e.env.peek t = .ok (e.env.tbl t) := by unfold Env.peek; rw [if_neg (by simp [hw])]
    simp only [ep]
    refine ⟨fun a env' h => ?_, fun p h _ => by cases h⟩
    injection h with h; injection h with h1 h2; subst h1 h2
    refine ⟨rfl, rfl, [], by simp, ?_⟩
    rw [if_neg (by simp [hw]), if_neg (by simp [he t])]
    rfl

variable [∀ t, LeavesSchema (S t)]

/-- Work under a write lock. -/
theorem ties_work (boom : Boom S) (t : T) (work : Cr (S t) Unit) (f : Tbl (S t) → R (Tbl (S t)))
    (h : ∀ x, work.out x = justTbl (f x)) :
    TiesU boom (gWork t work) (fun env => do
      let (w, env) ← env.lock t
      let x ← f w.tbl
      .ok (env.unlock t x)) := by
  intro e he
  unfold gWork
  by_cases hl : e.env.reads t ≠ 0 ∨ e.env.writer t = true
  · have el : e.env.lock t = .error .deadlock := by unfold Env.lock; rw [if_pos hl]
    simp only [el]
    refine ⟨fun a env' h => (by cases h), fun p h _ => ?_⟩
    injection h with h; subst h
    rw [if_pos hl]
  · have hw : e.env.writer t = false := by
      cases e' : e.env.writer t with
      | false => rfl
      | true => exact absurd (Or.inr e') hl
    have el : e.env.lock t = .ok (W.lock (e.env.tbl t), { e.env with writer := Function.update e.env.writer t true }) := by
      unfold Env.lock; rw [if_neg hl]
    simp only [el, okBind]
    have ho := h (e.env.tbl t)
    rcases hr : work (e.env.tbl t) with ⟨x, r⟩
    cases hf : f (W.lock (e.env.tbl t)).tbl with
    | error p =>
      have hf' : f (e.env.tbl t) = .error p := hf
      rw [hf'] at ho
      have := out_err.1 ho
      rw [hr] at this
      simp only [] at this; subst this
      refine ⟨fun a env' h => (by cases h), fun q h _ => ?_⟩
      injection h with h; subst h
      rw [if_neg hl, if_neg (by simp [he t]), hr]
    | ok y =>
      have hf' : f (e.env.tbl t) = .ok y := hf
      rw [hf'] at ho
      have := out_ok.1 (ho : work.out (e.env.tbl t) = .ok (y, ()))
      rw [hr] at this
      injection this with h1 h2; subst h1 h2
      simp only [okBind]
      refine ⟨fun a env' h => ?_, fun q h _ => by cases h⟩
      injection h with h; injection h with h1 h2; subst h2
      rw [unlock_writer hw]
      refine ⟨rfl, rfl, [], by simp [Env.put], ?_⟩
      rw [if_neg hl, if_neg (by simp [he t]), hr]
      rfl

/-- `do_flush` and its version with panics. -/
def TiesFn (boom : Boom S) (x : GFlushFn S) (f : FlushFn S) : Prop :=
  ∀ t ev pushed delete sel, Ties boom (x t ev pushed delete sel) (f t ev pushed delete sel)

/-- `flushWith` from where its lock has been released. -/
def tellOf (f : FlushFn S) (t : T) (ev : Event) (pushed delete : Bool) (changes : Select (List Nat)) (env : Env S) : R (Env S) := do
  let (changes, env) ← f t ev pushed delete changes env
  if ev.isRemoval && !changes.isEmpty then do
    let (w, env) ← env.lock t
    let x ← w.tbl.removeSel changes
    .ok (env.unlock t x)
  else .ok env

/-- What `tableRemoveRows` does to the table before it flushes. -/
def partOf (t : T) (rows : Select (List Nat)) (y : Tbl (S t)) : R (Tbl (S t)) :=
  match (S t).kind, rows with
  | .consistent, .these rows => y.deleteLoop y.len rows
  | .sorted, .these rows => y.removeRows rows
  | _, .all => y.clearRaw
  | _, _ => .error .notRemovable

/-- Work under a write lock. -/
def workOf (t : T) (f : Tbl (S t) → R (Tbl (S t))) (env : Env S) : R (Env S) := do
  let (w, env) ← env.lock t
  let x ← f w.tbl
  .ok (env.unlock t x)

theorem ties_tell {boom : Boom S} {x : GFlushFn S} {f : FlushFn S} (h : TiesFn boom x f) (t : T) (pushed delete : Bool)
    (changes : Select (List Nat)) (ev : Event) :
    TiesU boom (gTell x t pushed delete changes ev) (tellOf f t ev pushed delete changes) := by
  unfold gTell
  refine (Ties.bind (h t ev pushed delete changes) (k := fun changes env => (if ev.isRemoval && !changes.isEmpty then
        workOf t (fun y => y.removeSel changes) env
      else .ok env) >>= fun e => .ok ((), e)) ?_).congr ?_
  · intro changes
    cases hb : (ev.isRemoval && !changes.isEmpty) with
    | true =>
      simp only [if_true]
      exact ties_work boom t _ _ (fun y => out_removeSel changes y)
    | false =>
      simp only [Bool.false_eq_true, if_false]
      exact Ties.ret boom ()
  · intro env
    unfold tellOf workOf
    simp only [bindAssoc]

omit [∀ t, LeavesSchema (S t)] in
theorem tableRemoveRows_parts (f : FlushFn S) (t : T) (ev : Event) (rows : Select (List Nat))
    (hk : (S t).kind = .consistent ∨ (S t).kind = .sorted) (env : Env S) : tableRemoveRows f t ev rows env =
      (workOf t (partOf t rows) env >>= fun env =>
        if (S t).kind = .consistent ∧ rows.isAll = true then tellOf f t ev false true .all env else .ok env) := by
  have hempty : ∀ (w : W (S t)) (env : Env S), w.changes = .these [] → flushWith f t w ev env = .ok (env.unlock t w.tbl) := by
    intro w env hw; unfold flushWith; rw [hw]; rfl
  rw [tableRemoveRows_eq, if_pos hk]
  unfold removePart workOf partOf
  cases el : env.lock t with
  | error p => rfl
  | ok r =>
    obtain ⟨w, env1⟩ := r
    obtain ⟨rfl, rfl, hw⟩ := lock_inv el
    simp only [okBind]
    rcases hk with hk | hk
    · cases rows with
      | these rows =>
        simp only [hk, bindAssoc, okBind, Select.isAll, and_false, Bool.false_eq_true, if_false]
        exact bindCongr (fun y _ => hempty _ _ rfl)
      | all =>
        unfold W.clear
        simp only [hk, bindAssoc, okBind, Select.isAll, and_self, if_true]
        refine bindCongr (fun y _ => ?_)
        unfold flushWith
        rw [if_neg (by simp [Select.isEmpty])]
        rfl
    · cases rows with
      | these rows =>
        simp only [hk, bindAssoc, okBind, Select.isAll, reduceCtorEq, false_and, if_false]
        exact bindCongr (fun y _ => hempty _ _ rfl)
      | all =>
        unfold W.clear
        simp only [hk, bindAssoc, okBind, Select.isAll, reduceCtorEq, false_and, if_false]
        exact bindCongr (fun y _ => hempty _ _ rfl)

theorem out_removePart (t : T) (rows : Select (List Nat)) (hk : (S t).kind = .consistent ∨ (S t).kind = .sorted) (y : Tbl (S t)) :
    (gRemovePart t rows).out y = justTbl (partOf t rows y) := by
  unfold gRemovePart partOf
  rcases hk with hk | hk
  · cases rows with
    | these rows => simp only [hk]; exact out_removeSel (.these rows) y
    | all => simp only [hk]; exact out_clearRaw y
  · cases rows with
    | these rows => simp only [hk]; exact out_removeRows rows y
    | all => simp only [hk]; exact out_clearRaw y

theorem ties_tableRemoveRows {boom : Boom S} {x : GFlushFn S} {f : FlushFn S} (h : TiesFn boom x f) (t : T) (ev : Event)
    (rows : Select (List Nat)) : TiesU boom (gTableRemoveRows x t ev rows) (tableRemoveRows f t ev rows) := by
  unfold gTableRemoveRows
  by_cases hk : (S t).kind = .consistent ∨ (S t).kind = .sorted
  · rw [if_pos hk]
    refine (Ties.bind (ties_work boom t (gRemovePart t rows) (partOf t rows) (out_removePart t rows hk))
      (k := fun _ env => (if (S t).kind = .consistent ∧ rows.isAll = true then tellOf f t ev false true .all env
      else .ok env) >>= fun e => .ok ((), e)) ?_).congr ?_
    · intro _
      by_cases hc : (S t).kind = .consistent ∧ rows.isAll = true
      · simp only [if_pos hc]
        exact ties_tell h t false true .all ev
      · simp only [if_neg hc]
        exact Ties.ret boom ()
    · intro env
      simp only [tableRemoveRows_parts f t ev rows hk env, bindAssoc, okBind]
      unfold workOf
      simp only [bindAssoc, okBind]
  · rw [if_neg hk]
    refine (Ties.fail boom .notRemovable).congr ?_
    intro env
    rw [tableRemoveRows_eq, if_neg hk]
    rfl

theorem ties_handlerHandle {boom : Boom S} {x : GFlushFn S} {f : FlushFn S} (h : TiesFn boom x f) (hd : Handler) (t : T) (ev : Event)
    (rows : Select (List Nat)) : TiesU boom (gHandlerHandle x hd t ev rows) (handlerHandle f hd t ev rows) := by
  cases hd with
  | null => exact Ties.ret boom ()
  | delete =>
    unfold gHandlerHandle
    refine (Ties.bind (ties_peek boom t) (fun _ => ties_tableRemoveRows h t ev rows)).congr ?_
    intro env
    unfold handlerHandle
    simp only [bindAssoc, okBind]
  | panicking => exact Ties.fail boom .noHandler

theorem ties_underRead {boom : Boom S} {x : Pr S α} {f : Env S → R (α × Env S)} (h : Ties boom x f) (t : T) :
    TiesU boom (gUnderRead t x) (fun env => do
      let env ← env.acquireRead t
      let (_, env) ← f env
      .ok (env.releaseRead t)) := by
  intro e he
  unfold gUnderRead
  cases hw : e.env.writer t with
  | true =>
    have ea : e.env.acquireRead t = .error .deadlock := by unfold Env.acquireRead; rw [if_pos hw]
    simp only [ea]
    refine ⟨fun a env' h => (by cases h), fun p h _ => ?_⟩
    injection h with h; subst h
    rw [if_pos hw]
  | false =>
    have ea : e.env.acquireRead t = .ok { e.env with reads := Function.update e.env.reads t (e.env.reads t + 1) } := by
      unfold Env.acquireRead; rw [if_neg (by simp [hw])]
    simp only [ea, okBind]
    have hx := h { e with env := { e.env with reads := Function.update e.env.reads t (e.env.reads t + 1) } } he
    have hrr : ∀ e' : Env S, e'.reads = Function.update e.env.reads t (e.env.reads t + 1) → (e'.releaseRead t).reads = e.env.reads := by
      intro e' he'
      unfold Env.releaseRead
      simp only [he', Function.update_idem, Function.update_self, Nat.add_sub_cancel, Function.update_eq_self]
    cases ef : f { e.env with reads := Function.update e.env.reads t (e.env.reads t + 1) } with
    | error p =>
      refine ⟨fun a env' h => (by cases h), fun q hq hb => ?_⟩
      injection hq with hq; subst hq
      have := hx.err p ef hb
      rw [if_neg (by simp [hw]), if_neg (by simp [he t])]
      rcases hxe : x { e with env := { e.env with reads := Function.update e.env.reads t (e.env.reads t + 1) } } with ⟨e1, r1⟩
      simp only [hxe] at this; subst this
      rfl
    | ok r =>
      obtain ⟨a, env1⟩ := r
      simp only [okBind]
      refine ⟨fun a' env' hq => ?_, fun q hq _ => by cases hq⟩
      injection hq with hq; injection hq with h1 h2; subst h2
      obtain ⟨r1, w1, n1, l1, o1⟩ := hx.ok a env1 ef
      refine ⟨hrr env1 r1, w1, n1, l1, ?_⟩
      simp only [hw, he t, Bool.false_eq_true, if_false]
      rw [o1]
      unfold addBad outcome
      simp only []
      cases hc : cutCall boom e.env.log n1 with
      | none => rfl
      | some q =>
        obtain ⟨d, c, p⟩ := q
        simp only []
        have h1 := hrr (({ e.env with reads := Function.update e.env.reads t (e.env.reads t + 1) } : Env S).asSeen c (e.env.log ++ d ++ [c])) rfl
        unfold Env.asSeen Env.releaseRead at h1 ⊢
        simp only [] at h1 ⊢
        rw [h1]

theorem ties_handlerRun {boom : Boom S} {x : GFlushFn S} {f : FlushFn S} (h : TiesFn boom x f) (hd : Handler) (t : T) (ev : Event)
    (rows : Select (List Nat)) : TiesU boom (gHandlerRun x hd t ev rows) (handlerRun f hd t ev rows) := by
  unfold gHandlerRun
  have hn : Ties boom (gNeedsSort hd t) (fun env => handlerNeedsSort hd t env >>= fun s => .ok (s, env)) := by
    cases hd with
    | null => exact Ties.ret boom false
    | panicking => exact Ties.ret boom false
    | delete =>
      unfold gNeedsSort
      refine (Ties.bind (ties_peek boom t) (fun _ => Ties.ret boom _)).congr ?_
      intro env
      unfold handlerNeedsSort
      simp only [bindAssoc, okBind]
  refine (Ties.bind hn (fun s => Ties.bind (ties_handlerHandle h hd t ev (if s then rows.sort else rows))
    (fun _ => ties_underRead (h t ev ev.isCreation ev.isRemoval (if s then rows.sort else rows)) t))).congr ?_
  intro env
  unfold handlerRun
  simp only [bindAssoc, okBind]

theorem ties_trackerHandle {boom : Boom S} {x : GFlushFn S} {f : FlushFn S} (h : TiesFn boom x f) (p : T) (tr : Tracker S) (ev : Event)
    (rows : Select (List Nat)) (hd : Handler) :
    TiesU boom (gTrackerHandle boom x p tr ev rows hd) (trackerHandle f p tr ev rows hd) := by
  cases tr with
  | auto fk =>
    unfold gTrackerHandle
    have hsel : Ties boom (gSelect fk rows) (fun env => do
        let x ← env.peek fk.child
        let sel ← fk.select x rows
        .ok (sel, env)) := by
      unfold gSelect
      refine (Ties.bind (ties_peek boom fk.child) (k := fun x env => fk.select x rows >>= fun sel => .ok (sel, env)) ?_).congr ?_
      · intro y
        cases fk.select y rows with
        | error p => exact Ties.fail boom p
        | ok sel => exact Ties.ret boom sel
      · intro env
        simp only [bindAssoc, okBind]
    refine (Ties.bind hsel (fun sel => ties_handlerRun h hd fk.child ev sel)).congr ?_
    intro env
    unfold trackerHandle
    simp only [bindAssoc, okBind]
  | observer o =>
    intro e he
    refine ⟨fun a env' hok => ?_, fun q hq _ => by cases hq⟩
    injection hok with hok; injection hok with _ hok; subst hok
    refine ⟨rfl, rfl, _, rfl, ?_⟩
    unfold gTrackerHandle outcome
    simp only [cutCall]
    cases boom (e.env.log ++ [⟨p, o.name, ev, rows, e.env.tbl⟩]) with
    | none => rfl
    | some q => simp [Env.asSeen, addBad]

theorem ties_flushStep {boom : Boom S} {x : GFlushFn S} {f : FlushFn S} (h : TiesFn boom x f) (p : T) (ev : Event) (hd : Handler)
    (st : Select (List Nat) × Bool) (tr : Tracker S) :
    Ties boom (gFlushStep boom x p ev hd st tr)
      (fun env => flushStep f p ev hd ⟨st.1, st.2, env⟩ tr >>= fun s => .ok ((s.sel, s.sorted), s.env)) := by
  unfold gFlushStep
  by_cases hc : tr.considers ev = false
  · rw [if_pos hc]
    refine (Ties.ret boom st).congr ?_
    intro env
    unfold flushStep
    rw [if_pos hc]; rfl
  · rw [if_neg hc]
    refine (Ties.bind (ties_trackerHandle h p tr ev _ hd) (fun _ => Ties.ret boom _)).congr ?_
    intro env
    unfold flushStep
    rw [if_neg hc]
    have hst : (if (!st.2 && tr.sort) = true then ({ sel := st.1.sort, sorted := true, env := env } : FlushSt S) else ⟨st.1, st.2, env⟩) =
        ⟨(if (!st.2 && tr.sort) = true then (st.1.sort, true) else st).1, (if (!st.2 && tr.sort) = true then (st.1.sort, true) else st).2, env⟩ := by
      split <;> rfl
    simp only [hst]
    simp only [bindAssoc, okBind]

theorem ties_flushLoop {boom : Boom S} {x : GFlushFn S} {f : FlushFn S} (h : TiesFn boom x f) (p : T) (ev : Event) (hd : Handler)
    (ts : List (Tracker S)) : ∀ (st : Select (List Nat) × Bool), Ties boom (gFlushLoop boom x p ev hd ts st)
      (fun env => ts.foldlM (flushStep f p ev hd) ⟨st.1, st.2, env⟩ >>= fun s => .ok ((s.sel, s.sorted), s.env)) := by
  induction ts with
  | nil => intro st; exact Ties.ret boom st
  | cons tr ts ih =>
    intro st
    refine (Ties.bind (ties_flushStep h p ev hd st tr) (fun st => ih st)).congr ?_
    intro env
    simp only [List.foldlM_cons, bindAssoc, okBind]

theorem ties_doFlush (cfg : Cfg S) (boom : Boom S) (n : Nat) : TiesFn boom (gDoFlush cfg boom n) (doFlush cfg n) := by
  induction n with
  | zero => intro t ev pushed delete sel; exact Ties.fail boom .stackOverflow
  | succ n ih =>
    intro t ev pushed delete sel
    by_cases hb : ((pushed && delete) || (ev.isRemoval && ev.isCreation)) = true
    · rw [gDoFlush, if_pos hb]
      refine (Ties.fail boom .interleaved).congr ?_
      intro env
      rw [doFlush, if_pos hb]
    · rw [gDoFlush, if_neg hb]
      cases eh : cfg.handler ev with
      | error p =>
        refine (Ties.fail boom p).congr ?_
        intro env
        rw [doFlush, if_neg hb, eh]; rfl
      | ok hd =>
        refine (Ties.bind (ties_flushLoop ih t ev hd (cfg.trackers t) (sel, sel.isAll)) (fun st => Ties.ret boom st.1)).congr ?_
        intro env
        rw [doFlush, if_neg hb, eh]
        simp only [okBind, bindAssoc]

/-- `flush`. -/
theorem ties_flush (cfg : Cfg S) (boom : Boom S) (n : Nat) (t : T) (w : W (S t)) (ev : Event) (e : PEnv S) (hb : ∀ t, e.bad t = false) :
    (∀ env', flush cfg n t w ev e.env = .ok env' → ∃ new, env'.log = e.env.log ++ new ∧
      gFlush cfg boom n t w ev e = addBad e.bad (outcome boom (e.env.unlock t w.tbl) env' new ())) ∧
    ∀ p, flush cfg n t w ev e.env = .error p → (∀ l, boom l = none) → (gFlush cfg boom n t w ev e).2 = .error p := by
  unfold flush flushWith gFlush
  by_cases he : w.changes.isEmpty = true
  · simp only [if_pos he]
    refine ⟨fun env' h => ?_, fun p h => by cases h⟩
    injection h with h; subst h
    exact ⟨[], by simp [Env.unlock, Env.put], rfl⟩
  · simp only [if_neg he]
    show (∀ env', tellOf (doFlush cfg n) t ev w.pushed w.delete w.changes (e.env.unlock t w.tbl) = .ok env' → _) ∧
      (∀ p, tellOf (doFlush cfg n) t ev w.pushed w.delete w.changes (e.env.unlock t w.tbl) = .error p → _)
    have := ties_tell (ties_doFlush cfg boom n) t w.pushed w.delete w.changes ev { e with env := e.env.unlock t w.tbl } hb
    refine ⟨fun env' h => ?_, fun p h hn => ?_⟩
    · obtain ⟨-, -, new, l, o⟩ := this.ok () env' (by simp only [h]; rfl)
      exact ⟨new, l, o⟩
    · exact this.err p (by simp only [h]; rfl) hn

end V11
