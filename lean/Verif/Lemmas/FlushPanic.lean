import Verif.Spec.FlushPanic
import Verif.Lemmas.RunAlone

/-!
# A flush that panics is a flush cut short
-/

set_option linter.unusedSimpArgs false
set_option linter.unusedSectionVars false
set_option linter.unusedVariables false

namespace V11
variable {T : Type} [DecidableEq T] {S : T → Schema}

/-- The first call that panics: the calls before it, itself, the panic. -/
def cutCall (boom : Boom S) (log : List (Call S)) : List (Call S) → Option (List (Call S) × Call S × Panic)
  | [] => none
  | c :: cs =>
    match boom (log ++ [c]) with
    | some p => some ([], c, p)
    | none => (cutCall boom (log ++ [c]) cs).map fun r => (c :: r.1, r.2)

theorem cutCall_append (boom : Boom S) (a b : List (Call S)) : ∀ log, cutCall boom log (a ++ b) =
    match cutCall boom log a with
    | some r => some r
    | none => (cutCall boom (log ++ a) b).map fun r => (a ++ r.1, r.2) := by
  induction a with
  | nil => intro log; simp [cutCall]
  | cons c a ih =>
    intro log
    rw [List.cons_append]
    simp only [cutCall]
    cases hb : boom (log ++ [c]) with
    | some p => rfl
    | none =>
      simp only []
      rw [ih]
      cases hc : cutCall boom (log ++ [c]) a with
      | some r => rfl
      | none =>
        simp only [Option.map_none, Option.map_map, List.append_assoc, List.singleton_append]
        rfl

theorem cutCall_none {boom : Boom S} (new : List (Call S)) : ∀ log, Calm boom log new → cutCall boom log new = none := by
  induction new with
  | nil => intro log h; rfl
  | cons c cs ih =>
    intro log h
    have h0 := h 0 (by simp)
    simp only [List.take_succ_cons, List.take_zero] at h0
    simp only [cutCall, h0]
    rw [ih (log ++ [c])]
    · rfl
    · intro k hk
      have := h (k + 1) (by simp; omega)
      rw [List.take_succ_cons] at this
      simpa using this

theorem cutCall_some {boom : Boom S} (new : List (Call S)) : ∀ log k c p, Bursts boom log new k c p →
    cutCall boom log new = some (new.take k, c, p) := by
  induction new with
  | nil => intro log k c p h; have := h.at_; simp at this
  | cons d cs ih =>
    intro log k c p h
    cases k with
    | zero =>
      have h1 := h.panic
      have h2 := h.at_
      simp only [List.take_succ_cons, List.take_zero] at h1
      simp only [List.getElem?_cons_zero, Option.some.injEq] at h2
      subst h2
      simp only [cutCall, h1, List.take_zero]
    | succ k =>
      have h0 := h.before 0 (by omega)
      simp only [List.take_succ_cons, List.take_zero] at h0
      simp only [cutCall, h0]
      rw [ih (log ++ [d]) k c p ⟨?_, ?_, ?_⟩]
      · rfl
      · intro j hj
        have := h.before (j + 1) (by omega)
        rw [List.take_succ_cons] at this
        simpa using this
      · simpa using h.at_
      · have := h.panic
        rw [List.take_succ_cons] at this
        simpa using this

/-- What becomes of a computation that would have made these calls and come to this end. -/
def outcome {α : Type} (boom : Boom S) (env env' : Env S) (new : List (Call S)) (a : α) : Env S × R α :=
  match cutCall boom env.log new with
  | none => (env', .ok a)
  | some (d, c, p) => (env.asSeen c (env.log ++ d ++ [c]), .error p)

/-- `x` is `f` with panicking observers. -/
def Sim {α : Type} (boom : Boom S) (x : Xr S α) (f : Env S → R (α × Env S)) : Prop :=
  ∀ env a env', f env = .ok (a, env') → env'.reads = env.reads ∧ env'.writer = env.writer ∧
    ∃ new, env'.log = env.log ++ new ∧ x env = outcome boom env env' new a

theorem outcome_nil {α : Type} (boom : Boom S) (env env' : Env S) (a : α) : outcome boom env env' [] a = (env', .ok a) := rfl

/-- One after the other. -/
theorem outcome_trans {α β : Type} {boom : Boom S} {x : Xr S α} {g : α → Xr S β} {env env1 env2 : Env S} {a : α} {b : β} {n1 n2 : List (Call S)}
    (h1 : x env = outcome boom env env1 n1 a) (hl : env1.log = env.log ++ n1) (hr : env1.reads = env.reads) (hw : env1.writer = env.writer)
    (h2 : g a env1 = outcome boom env1 env2 n2 b) :
    (x.andThen g) env = outcome boom env env2 (n1 ++ n2) b := by
  unfold Xr.andThen
  rw [h1]
  unfold outcome
  rw [cutCall_append]
  cases hc : cutCall boom env.log n1 with
  | some r =>
    obtain ⟨d, c, p⟩ := r
    simp only []
  | none =>
    simp only []
    rw [h2]
    unfold outcome
    rw [hl]
    cases hc2 : cutCall boom (env.log ++ n1) n2 with
    | none => simp only [Option.map_none]
    | some r =>
      obtain ⟨d, c, p⟩ := r
      simp only [Option.map_some, Env.asSeen, hr, hw, List.append_assoc]

theorem Sim.bind {α β : Type} {boom : Boom S} {x : Xr S α} {g : α → Xr S β} {f : Env S → R (α × Env S)} {k : α → Env S → R (β × Env S)}
    (h1 : Sim boom x f) (h2 : ∀ a, Sim boom (g a) (k a)) :
    Sim boom (x.andThen g) (fun env => f env >>= fun r => k r.1 r.2) := by
  intro env b env2 h
  cases e : f env with
  | error p => simp only [e] at h; cases h
  | ok r =>
    obtain ⟨a, env1⟩ := r
    simp only [e] at h
    replace h : k a env1 = .ok (b, env2) := h
    obtain ⟨r1, w1, n1, l1, o1⟩ := h1 env a env1 e
    obtain ⟨r2, w2, n2, l2, o2⟩ := h2 a env1 b env2 h
    refine ⟨r2.trans r1, w2.trans w1, n1 ++ n2, by rw [l2, l1, List.append_assoc], ?_⟩
    exact outcome_trans o1 l1 r1 w1 o2

theorem Sim.ret {α : Type} (boom : Boom S) (a : α) : Sim boom (Xr.ret a) (fun env => .ok (a, env)) := by
  intro env b env' h
  injection h with h; injection h with h1 h2; subst h1 h2
  exact ⟨rfl, rfl, [], by simp, rfl⟩

/-- `f` and its version with panics. -/
def SimFn (boom : Boom S) (x : KFlushFn S) (f : FlushFn S) : Prop :=
  ∀ t ev pushed delete sel, Sim boom (x t ev pushed delete sel) (f t ev pushed delete sel)

theorem lock_inv {env env1 : Env S} {t : T} {w : W (S t)} (h : env.lock t = .ok (w, env1)) :
    w = W.lock (env.tbl t) ∧ env1 = { env with writer := Function.update env.writer t true } ∧ env.writer t = false := by
  unfold Env.lock at h
  split at h
  · cases h
  · rename_i hn
    injection h with h; injection h with h1 h2
    refine ⟨h1.symm, h2.symm, ?_⟩
    cases e : env.writer t with
    | false => rfl
    | true => exact absurd (Or.inr e) hn

theorem unlock_writer {env : Env S} {t : T} (h : env.writer t = false) (x : Tbl (S t)) :
    ({ env with writer := Function.update env.writer t true } : Env S).unlock t x = env.put t x := by
  unfold Env.unlock Env.put
  simp only [Function.update_idem]
  rw [← h, Function.update_eq_self]

/-- The removal at the end. -/
theorem sim_remove (boom : Boom S) (t : T) (sel : Select (List Nat)) : Sim boom (kRemove t sel) (fun env => do
      let (w, env) ← env.lock t
      let x ← w.tbl.removeSel sel
      .ok ((), env.unlock t x)) := by
  intro env a env' h
  cases e : env.lock t with
  | error p => simp only [e] at h; cases h
  | ok r =>
    obtain ⟨w, env1⟩ := r
    simp only [e] at h
    obtain ⟨rfl, rfl, hw⟩ := lock_inv e
    cases ex : (W.lock (env.tbl t)).tbl.removeSel sel with
    | error p =>
      replace h : ((W.lock (env.tbl t)).tbl.removeSel sel >>= fun x => Except.ok ((), Env.unlock { env with writer := Function.update env.writer t true } t x)) = Except.ok (a, env') := h
      rw [ex] at h; cases h
    | ok x =>
      replace h : ((W.lock (env.tbl t)).tbl.removeSel sel >>= fun x => Except.ok ((), Env.unlock { env with writer := Function.update env.writer t true } t x)) = Except.ok (a, env') := h
      rw [ex] at h
      injection h with h; injection h with h1 h2; subst h2
      refine ⟨rfl, ?_, [], by rw [unlock_writer hw]; simp [Env.put], ?_⟩
      · rw [unlock_writer hw]; rfl
      · unfold kRemove
        rw [e]
        simp only []
        rw [ex]
        rfl

/-- `flush` on a lock that has been released. -/
theorem sim_flushWith {boom : Boom S} {x : KFlushFn S} {f : FlushFn S} (h : SimFn boom x f) (t : T) (w : W (S t)) (ev : Event)
    {env env' : Env S} (hok : flushWith f t w ev env = .ok env') :
    env'.reads = env.reads ∧ env'.writer = (env.unlock t w.tbl).writer ∧
    ∃ new, env'.log = env.log ++ new ∧ kFlushWith x t w ev env = outcome boom (env.unlock t w.tbl) env' new () := by
  unfold flushWith at hok
  unfold kFlushWith
  by_cases he : w.changes.isEmpty = true
  · rw [if_pos he] at hok ⊢
    injection hok with hok; subst hok
    exact ⟨rfl, rfl, [], by simp [Env.unlock, Env.put], rfl⟩
  · rw [if_neg he] at hok ⊢
    have hs : Sim boom ((x t ev w.pushed w.delete w.changes).andThen
        (fun changes => if ev.isRemoval && !changes.isEmpty then kRemove t changes else Xr.ret ()))
        (fun env => f t ev w.pushed w.delete w.changes env >>= fun r =>
          (fun changes env => if ev.isRemoval && !changes.isEmpty then (do
            let (w, env) ← env.lock t
            let x ← w.tbl.removeSel changes
            .ok ((), env.unlock t x) : R (Unit × Env S)) else .ok ((), env)) r.1 r.2) := by
      refine Sim.bind (h t ev w.pushed w.delete w.changes) (k := fun changes env => if ev.isRemoval && !changes.isEmpty then (do
            let (w, env) ← env.lock t
            let x ← w.tbl.removeSel changes
            .ok ((), env.unlock t x) : R (Unit × Env S)) else .ok ((), env)) ?_
      intro changes
      cases hb : (ev.isRemoval && !changes.isEmpty) with
      | true =>
        simp only [if_true]
        exact sim_remove boom t changes
      | false =>
        simp only [Bool.false_eq_true, if_false]
        exact Sim.ret boom ()
    have := hs (env.unlock t w.tbl) () env' (by
      cases e : f t ev w.pushed w.delete w.changes (env.unlock t w.tbl) with
      | error p => simp only [e] at hok; cases hok
      | ok r =>
        obtain ⟨changes, env1⟩ := r
        simp only [e] at hok ⊢
        simp only [okBind] at hok ⊢
        cases hb : (ev.isRemoval && !changes.isEmpty) with
        | true =>
          simp only [hb, if_true] at hok ⊢
          cases el : env1.lock t with
          | error p => simp only [el] at hok; cases hok
          | ok r =>
            obtain ⟨w2, env2⟩ := r
            simp only [el, okBind] at hok ⊢
            cases ex : w2.tbl.removeSel changes with
            | error p => simp only [ex] at hok; cases hok
            | ok y =>
              simp only [ex, okBind] at hok ⊢
              injection hok with hok; subst hok; rfl
        | false =>
          simp only [hb, Bool.false_eq_true, if_false] at hok ⊢
          injection hok with hok; subst hok; rfl)
    exact this

theorem tableRemoveRows_eq (f : FlushFn S) (t : T) (ev : Event) (rows : Select (List Nat)) (env : Env S) :
    tableRemoveRows f t ev rows env =
      if (S t).kind = .consistent ∨ (S t).kind = .sorted then (do
        let (w, env) ← env.lock t
        let w ← removePart t rows w
        flushWith f t w ev env)
      else .error .notRemovable := by
  unfold tableRemoveRows removePart
  cases hk : (S t).kind with
  | consistent =>
    rw [if_pos (Or.inl rfl)]
    cases rows <;> simp only [bindAssoc, okBind]
  | sorted =>
    rw [if_pos (Or.inr rfl)]
    cases rows <;> simp only [bindAssoc, okBind]
  | append => rw [if_neg (by simp)]
  | bag => rw [if_neg (by simp)]
  | list => rw [if_neg (by simp)]

theorem sim_tableRemoveRows {boom : Boom S} {x : KFlushFn S} {f : FlushFn S} (h : SimFn boom x f) (t : T) (ev : Event) (rows : Select (List Nat)) :
    Sim boom (kTableRemoveRows x t ev rows) (fun env => (tableRemoveRows f t ev rows env).map (fun e => ((), e))) := by
  intro env a env' hok
  cases e0 : tableRemoveRows f t ev rows env with
  | error p => simp only [e0] at hok; cases hok
  | ok env2 =>
    simp only [e0] at hok
    injection hok with hok; injection hok with _ hok; subst hok
    rw [tableRemoveRows_eq] at e0
    unfold kTableRemoveRows
    by_cases hk : (S t).kind = .consistent ∨ (S t).kind = .sorted
    · rw [if_pos hk] at e0 ⊢
      cases el : env.lock t with
      | error p => simp only [el] at e0; cases e0
      | ok r =>
        obtain ⟨w, env1⟩ := r
        simp only [el] at e0 ⊢
        obtain ⟨hw0, he1, hw⟩ := lock_inv el
        replace e0 : (removePart t rows w >>= fun w => flushWith f t w ev env1) = Except.ok env2 := e0
        cases ep : removePart t rows w with
        | error p => rw [ep] at e0; cases e0
        | ok w2 =>
          rw [ep] at e0
          replace e0 : flushWith f t w2 ev env1 = .ok env2 := e0
          obtain ⟨a1, a2, new, a3, a4⟩ := sim_flushWith h t w2 ev e0
          subst he1
          rw [unlock_writer hw] at a2 a4
          refine ⟨a1, a2, new, a3, ?_⟩
          simp only []
          rw [a4]
          rfl
    · rw [if_neg hk] at e0; cases e0

theorem sim_handlerHandle {boom : Boom S} {x : KFlushFn S} {f : FlushFn S} (h : SimFn boom x f) (hd : Handler) (t : T) (ev : Event)
    (rows : Select (List Nat)) : Sim boom (kHandlerHandle x hd t ev rows) (fun env => (handlerHandle f hd t ev rows env).map (fun e => ((), e))) := by
  intro env a env' hok
  cases hd with
  | null =>
    injection hok with hok; injection hok with _ hok; subst hok
    exact ⟨rfl, rfl, [], by simp, rfl⟩
  | delete =>
    unfold handlerHandle at hok
    unfold kHandlerHandle
    simp only [] at hok ⊢
    cases e : env.peek t with
    | error p => simp only [e] at hok; cases hok
    | ok y =>
      simp only [e, okBind] at hok ⊢
      exact sim_tableRemoveRows h t ev rows env a env' hok
  | panicking => cases hok

/-- The read guard is given back in either case. -/
theorem sim_under_read {boom : Boom S} {x : Xr S (Select (List Nat))} {f : Env S → R (Select (List Nat) × Env S)} (h : Sim boom x f) (t : T)
    {env env1 : Env S} (ha : env.acquireRead t = .ok env1) {r : Select (List Nat)} {env2 : Env S} (hok : f env1 = .ok (r, env2)) :
    (env2.releaseRead t).reads = env.reads ∧ (env2.releaseRead t).writer = env.writer ∧
    ∃ new, (env2.releaseRead t).log = env.log ++ new ∧
      (match x env1 with
        | (env, .error p) => (env.releaseRead t, .error p)
        | (env, .ok _) => (env.releaseRead t, .ok ())) = outcome boom env (env2.releaseRead t) new () := by
  unfold Env.acquireRead at ha
  split at ha
  · cases ha
  · injection ha with ha
    obtain ⟨a1, a2, new, a3, a4⟩ := h env1 r env2 hok
    have hrr : ∀ e : Env S, e.reads = env1.reads → (e.releaseRead t).reads = env.reads := by
      intro e he
      unfold Env.releaseRead
      simp only [he, ← ha, Function.update_idem, Function.update_self, Nat.add_sub_cancel, Function.update_eq_self]
    refine ⟨hrr env2 a1, ?_, new, ?_, ?_⟩
    · show env2.writer = env.writer
      rw [a2, ← ha]
    · show env2.log = _
      rw [a3, ← ha]
    · rw [a4]
      unfold outcome
      have hl : env1.log = env.log := by rw [← ha]
      rw [hl]
      cases cutCall boom env.log new with
      | none => rfl
      | some q =>
        obtain ⟨d, c, p⟩ := q
        simp only []
        congr 1
        have h1 : ((env1.asSeen c (env.log ++ d ++ [c])).releaseRead t).reads = env.reads := hrr _ rfl
        have h2 : env1.writer = env.writer := by rw [← ha]
        unfold Env.asSeen Env.releaseRead at h1 ⊢
        simp only [] at h1 ⊢
        rw [h1, h2]

theorem sim_handlerRun {boom : Boom S} {x : KFlushFn S} {f : FlushFn S} (h : SimFn boom x f) (hd : Handler) (t : T) (ev : Event)
    (rows : Select (List Nat)) : Sim boom (kHandlerRun x hd t ev rows) (fun env => (handlerRun f hd t ev rows env).map (fun e => ((), e))) := by
  intro env a env' hok
  unfold handlerRun at hok
  unfold kHandlerRun
  cases es : handlerNeedsSort hd t env with
  | error p => simp only [es] at hok; cases hok
  | ok s =>
    simp only [es, okBind] at hok ⊢
    generalize (if s = true then rows.sort else rows) = rows' at hok ⊢
    cases eh : handlerHandle f hd t ev rows' env with
    | error p => simp only [eh] at hok; cases hok
    | ok env1 =>
      simp only [eh, okBind] at hok
      cases ea : env1.acquireRead t with
      | error p => simp only [ea] at hok; cases hok
      | ok env2 =>
        simp only [ea, okBind] at hok
        cases ef : f t ev ev.isCreation ev.isRemoval rows' env2 with
        | error p => simp only [ef] at hok; cases hok
        | ok r =>
          obtain ⟨sel, env3⟩ := r
          simp only [ef, okBind] at hok
          injection hok with hok; injection hok with _ hok; subst hok
          obtain ⟨a1, a2, n1, a3, a4⟩ := sim_handlerHandle h hd t ev rows' env () env1 (by simp only [eh]; rfl)
          obtain ⟨b1, b2, n2, b3, b4⟩ := sim_under_read (h t ev ev.isCreation ev.isRemoval rows') t ea ef
          refine ⟨b1.trans a1, b2.trans a2, n1 ++ n2, by rw [b3, a3, List.append_assoc], ?_⟩
          have := outcome_trans (x := kHandlerHandle x hd t ev rows') (g := fun _ env1 =>
            match env1.acquireRead t with
            | .error p => (env1, .error p)
            | .ok env => (match x t ev ev.isCreation ev.isRemoval rows' env with
              | (env, .error p) => (env.releaseRead t, .error p)
              | (env, .ok _) => (env.releaseRead t, .ok ()) : Env S × R Unit)) a4 a3 a1 a2 (b := ()) (env2 := env3.releaseRead t) (n2 := n2)
              (by simp only [ea]; exact b4)
          rw [← this]
          unfold Xr.andThen
          rcases kHandlerHandle x hd t ev rows' env with ⟨e, o⟩
          cases o <;> rfl

theorem sim_trackerHandle {boom : Boom S} {x : KFlushFn S} {f : FlushFn S} (h : SimFn boom x f) (p : T) (tr : Tracker S) (ev : Event)
    (rows : Select (List Nat)) (hd : Handler) :
    Sim boom (kTrackerHandle boom x p tr ev rows hd) (fun env => (trackerHandle f p tr ev rows hd env).map (fun e => ((), e))) := by
  intro env a env' hok
  cases tr with
  | auto fk =>
    unfold trackerHandle at hok
    unfold kTrackerHandle
    simp only [] at hok ⊢
    cases e : env.peek fk.child with
    | error p => simp only [e] at hok; cases hok
    | ok y =>
      simp only [e, okBind] at hok ⊢
      cases es : fk.select y rows with
      | error p => simp only [es] at hok; cases hok
      | ok sel =>
        simp only [es, okBind] at hok ⊢
        exact sim_handlerRun h hd fk.child ev sel env a env' hok
  | observer o =>
    injection hok with hok; injection hok with _ hok; subst hok
    refine ⟨rfl, rfl, _, rfl, ?_⟩
    unfold kTrackerHandle outcome
    simp only [cutCall]
    cases boom (env.log ++ [⟨p, o.name, ev, rows, env.tbl⟩]) with
    | none => rfl
    | some q => simp [Env.asSeen]

theorem sim_flushStep {boom : Boom S} {x : KFlushFn S} {f : FlushFn S} (h : SimFn boom x f) (p : T) (ev : Event) (hd : Handler)
    (st : Select (List Nat) × Bool) (tr : Tracker S) :
    Sim boom (kFlushStep boom x p ev hd st tr)
      (fun env => (flushStep f p ev hd ⟨st.1, st.2, env⟩ tr).map (fun s => ((s.sel, s.sorted), s.env))) := by
  intro env a env' hok
  unfold flushStep at hok
  unfold kFlushStep
  beta_reduce at hok
  by_cases hc : tr.considers ev = false
  · rw [if_pos hc] at hok ⊢
    injection hok with hok; injection hok with h1 h2; subst h1 h2
    exact ⟨rfl, rfl, [], by simp, rfl⟩
  · rw [if_neg hc] at hok ⊢
    simp only [] at hok ⊢
    have hst : (if (!st.2 && tr.sort) = true then ({ sel := st.1.sort, sorted := true, env := env } : FlushSt S) else ⟨st.1, st.2, env⟩) =
        ⟨(if (!st.2 && tr.sort) = true then (st.1.sort, true) else st).1, (if (!st.2 && tr.sort) = true then (st.1.sort, true) else st).2, env⟩ := by
      split <;> rfl
    rw [hst] at hok
    generalize (if (!st.2 && tr.sort) = true then (st.1.sort, true) else st) = st' at hok ⊢
    simp only [] at hok
    cases e : trackerHandle f p tr ev st'.1 hd env with
    | error q => simp only [e] at hok; cases hok
    | ok env1 =>
      simp only [e, okBind] at hok
      injection hok with hok; injection hok with h1 h2; subst h1 h2
      obtain ⟨a1, a2, n1, a3, a4⟩ := sim_trackerHandle h p tr ev st'.1 hd env () env1 (by simp only [e]; rfl)
      refine ⟨a1, a2, n1, a3, ?_⟩
      have := outcome_trans (g := fun _ => Xr.ret st') a4 a3 a1 a2 (b := st') (env2 := env1) (n2 := []) rfl
      rw [List.append_nil] at this
      exact this

theorem sim_flushLoop {boom : Boom S} {x : KFlushFn S} {f : FlushFn S} (h : SimFn boom x f) (p : T) (ev : Event) (hd : Handler)
    (ts : List (Tracker S)) : ∀ (st : Select (List Nat) × Bool), Sim boom (kFlushLoop boom x p ev hd ts st)
      (fun env => (ts.foldlM (flushStep f p ev hd) ⟨st.1, st.2, env⟩).map (fun s => ((s.sel, s.sorted), s.env))) := by
  induction ts with
  | nil => intro st; exact Sim.ret boom st
  | cons tr ts ih =>
    intro st env a env' hok
    simp only [List.foldlM_cons] at hok
    cases e : flushStep f p ev hd ⟨st.1, st.2, env⟩ tr with
    | error q => simp only [e] at hok; cases hok
    | ok s =>
      simp only [e, okBind] at hok
      obtain ⟨sel, so, env1⟩ := s
      obtain ⟨a1, a2, n1, a3, a4⟩ := sim_flushStep h p ev hd st tr env (sel, so) env1 (by simp only [e]; rfl)
      obtain ⟨b1, b2, n2, b3, b4⟩ := ih (sel, so) env1 a env' hok
      refine ⟨b1.trans a1, b2.trans a2, n1 ++ n2, by rw [b3, a3, List.append_assoc], ?_⟩
      exact outcome_trans a4 a3 a1 a2 b4

theorem sim_doFlush (cfg : Cfg S) (boom : Boom S) (n : Nat) : SimFn boom (kDoFlush cfg boom n) (doFlush cfg n) := by
  induction n with
  | zero => intro t ev pushed delete sel env a env' hok; cases hok
  | succ n ih =>
    intro t ev pushed delete sel env a env' hok
    unfold doFlush at hok
    unfold kDoFlush
    by_cases hb : ((pushed && delete) || (ev.isRemoval && ev.isCreation)) = true
    · rw [if_pos hb] at hok; cases hok
    · rw [if_neg hb] at hok ⊢
      cases eh : cfg.handler ev with
      | error p => simp only [eh] at hok; cases hok
      | ok h =>
        simp only [eh, okBind] at hok ⊢
        cases ef : (cfg.trackers t).foldlM (flushStep (doFlush cfg n) t ev h) ⟨sel, sel.isAll, env⟩ with
        | error p => simp only [ef] at hok; cases hok
        | ok s =>
          simp only [ef, okBind] at hok
          injection hok with hok; injection hok with h1 h2; subst h1 h2
          obtain ⟨a1, a2, n1, a3, a4⟩ := sim_flushLoop ih t ev h (cfg.trackers t) (sel, sel.isAll) env (s.sel, s.sorted) s.env
            (by simp only [ef]; rfl)
          refine ⟨a1, a2, n1, a3, ?_⟩
          have := outcome_trans (g := fun st : Select (List Nat) × Bool => Xr.ret st.1) a4 a3 a1 a2 (b := s.sel) (env2 := s.env) (n2 := []) rfl
          rw [List.append_nil] at this
          exact this

end V11
