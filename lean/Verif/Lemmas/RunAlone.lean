import Verif.Lemmas.Threads

/-!
# Run alone, the programs of `Model/Threads.lean` are the functions of `Model/Universe.lean` and `Model/Serial.lean`
-/

set_option linter.unusedSectionVars false
set_option linter.unusedVariables false

namespace V11
variable {T : Type} [DecidableEq T] {S : T → Schema} {α β : Type}

theorem Prog.run_bind (p : Prog S α) (f : α → Prog S β) (u : Uni S) :
    (p >>= f).run u = (p.run u >>= fun r => (f r.1).run r.2) := by
  change (p.bind f).run u = _
  induction p generalizing u with
  | ret a => rfl
  | fail p => rfl
  | acq l m k ih =>
    cases l <;> cases m <;> simp only [Prog.bind, Prog.run]
    · split
      · rfl
      · exact ih _
    · split
      · rfl
      · exact ih _
    · exact ih _
    · split
      · rfl
      · exact ih _
  | att t m yes no ih1 ih2 =>
    cases m <;> simp only [Prog.bind, Prog.run] <;> split
    · exact ih2 _ _
    · exact ih1 _
    · exact ih2 _ _
    · exact ih1 _
  | rel l m k ih => cases l <;> cases m <;> simp only [Prog.bind, Prog.run] <;> exact ih _
  | get t k ih => exact ih _ _
  | put t x k ih => exact ih _
  | getF t k ih => exact ih _ _
  | putF t x k ih => exact ih _
  | forget t k ih => exact ih _
  | see p o ev rows k ih => exact ih _

/-- The result of a function on `Env`, as one on `Uni`. -/
def liftU (u : Uni S) (r : R (α × Env S)) : R (α × Uni S) := r >>= fun x => .ok (x.1, { u with env := x.2 })

/-- The same for functions that return only the universe. -/
def liftE (u : Uni S) (r : R (Env S)) : R (Unit × Uni S) := r >>= fun x => .ok ((), { u with env := x })

theorem run_ofR (r : R α) (u : Uni S) : (Prog.ofR r : Prog S α).run u = r >>= fun a => .ok (a, u) := by
  cases r <;> rfl

theorem run_lockP (t : T) (u : Uni S) : (lockP t).run u = liftU u (u.env.lock t) := by
  unfold lockP liftU Env.lock
  simp only [Prog.run]
  split <;> rfl

theorem run_unlockP (t : T) (x : Tbl (S t)) (u : Uni S) : (unlockP t x).run u = .ok ((), { u with env := u.env.unlock t x }) := rfl

theorem run_lockFl (t : T) (u : Uni S) : (Prog.lock (.fl t) .rd : Prog S Unit).run u = .ok ((), u) := rfl
theorem run_unlockFl (t : T) (m : Mode) (u : Uni S) : (Prog.unlock (.fl t) m : Prog S Unit).run u = .ok ((), u) := rfl

theorem run_peekP (t : T) (u : Uni S) : (peekP t).run u = u.env.peek t >>= fun x => .ok (x, u) := by
  unfold peekP Env.peek
  simp only [Prog.run, Env.releaseRead]
  split
  · rfl
  · rw [okBind]
    have : Function.update (Function.update u.env.reads t (u.env.reads t + 1)) t
        (Function.update u.env.reads t (u.env.reads t + 1) t - 1) = u.env.reads := by
      rw [Function.update_self, Function.update_idem, Nat.add_sub_cancel, Function.update_eq_self]
    rw [this]

theorem liftU_bind {γ : Type} (u : Uni S) (r : R (α × Env S)) (f : α × Uni S → R γ) :
    (liftU u r >>= f) = r >>= fun x => f (x.1, { u with env := x.2 }) := by
  cases r <;> rfl

theorem liftE_bind {γ : Type} (u : Uni S) (r : R (Env S)) (f : Unit × Uni S → R γ) :
    (liftE u r >>= f) = r >>= fun x => f ((), { u with env := x }) := by
  cases r <;> rfl

theorem bindAssoc {γ : Type} (r : R α) (f : α → R β) (g : β → R γ) : ((r >>= f) >>= g) = r >>= fun x => f x >>= g := by
  cases r <;> rfl

theorem bindCongr {r : R α} {f g : α → R β} (h : ∀ a, r = .ok a → f a = g a) : (r >>= f) = (r >>= g) := by
  cases r with
  | error p => rfl
  | ok a => exact h a rfl

/-- The program `fP` does what `f` does. -/
def Same (f : FlushFn S) (fP : FlushProg S) : Prop :=
  ∀ t ev pu de sel u, (fP t ev pu de sel).run u = liftU u (f t ev pu de sel u.env)

theorem run_flushWithP {f : FlushFn S} {fP : FlushProg S} (hf : Same f fP) (t : T) (w : W (S t)) (ev : Event) (u : Uni S) :
    (flushWithP fP t w ev).run u = liftE u (flushWith f t w ev u.env) := by
  unfold flushWithP flushWith
  by_cases hc : w.changes.isEmpty = true
  · rw [if_pos hc, if_pos hc]; rfl
  · rw [if_neg hc, if_neg hc]
    rw [Prog.run_bind, run_unlockP, okBind]
    simp only []
    rw [Prog.run_bind, run_lockFl, okBind]
    simp only []
    rw [Prog.run_bind, hf, liftU_bind]
    unfold liftE
    rw [bindAssoc]
    refine bindCongr (fun x hx => ?_)
    obtain ⟨ch, env⟩ := x
    simp only []
    rw [Prog.run_bind, run_unlockFl, okBind]
    simp only []
    by_cases hb : (ev.isRemoval && !ch.isEmpty) = true
    · rw [if_pos hb, if_pos hb, Prog.run_bind, run_lockP, liftU_bind, bindAssoc]
      refine bindCongr (fun y hy => ?_)
      obtain ⟨w1, env1⟩ := y
      simp only []
      rw [Prog.run_bind, run_ofR, bindAssoc, bindAssoc]
      refine bindCongr (fun z hz => ?_)
      rw [okBind, okBind]
      rfl
    · rw [if_neg hb, if_neg hb]; rfl

theorem run_tableRemoveRowsP {f : FlushFn S} {fP : FlushProg S} (hf : Same f fP) (t : T) (ev : Event) (rows : Select (List Nat)) (u : Uni S) :
    (tableRemoveRowsP fP t ev rows).run u = liftE u (tableRemoveRows f t ev rows u.env) := by
  unfold tableRemoveRowsP tableRemoveRows
  cases (S t).kind <;> simp only [] <;> try rfl
  all_goals
    rw [Prog.run_bind, run_lockP, liftU_bind]
    unfold liftE
    rw [bindAssoc]
    refine bindCongr (fun x hx => ?_)
    obtain ⟨w, env⟩ := x
    simp only []
    cases rows with
    | these rows =>
      simp only []
      rw [Prog.run_bind, run_ofR, bindAssoc, bindAssoc]
      refine bindCongr (fun z hz => ?_)
      rw [okBind, run_flushWithP hf]
      rfl
    | all =>
      simp only []
      rw [Prog.run_bind, run_ofR, bindAssoc, bindAssoc]
      refine bindCongr (fun z hz => ?_)
      rw [okBind, Prog.run_bind, run_ofR, bindAssoc, bindAssoc]
      refine bindCongr (fun z hz => ?_)
      rw [okBind, run_flushWithP hf]
      rfl

theorem run_handlerRunP {f : FlushFn S} {fP : FlushProg S} (hf : Same f fP) (h : Handler) (t : T) (ev : Event) (rows : Select (List Nat)) (u : Uni S) :
    (handlerRunP fP h t ev rows).run u = liftE u (handlerRun f h t ev rows u.env) := by
  have tail : ∀ (rows : Select (List Nat)) (u : Uni S),
      (do Prog.lock (.tbl t) .rd
          Prog.lock (.fl t) .rd
          let _ ← fP t ev ev.isCreation ev.isRemoval rows
          Prog.unlock (.fl t) .rd
          Prog.unlock (.tbl t) .rd : Prog S Unit).run u =
      liftE u (do let env ← u.env.acquireRead t
                  let (_, env) ← f t ev ev.isCreation ev.isRemoval rows env
                  .ok (env.releaseRead t)) := by
    intro rows u
    rw [Prog.run_bind]
    unfold Env.acquireRead liftE Prog.lock
    simp only [Prog.run]
    split
    · rfl
    · rw [okBind, okBind]
      simp only []
      rw [Prog.run_bind]
      simp only [Prog.run]
      rw [okBind, Prog.run_bind, hf, liftU_bind, bindAssoc]
      refine bindCongr (fun x hx => ?_)
      obtain ⟨ch, env⟩ := x
      rfl
  unfold handlerRunP handlerRun
  rw [Prog.run_bind]
  have h1 : (handlerNeedsSortP h t : Prog S Bool).run u = handlerNeedsSort h t u.env >>= fun b => .ok (b, u) := by
    unfold handlerNeedsSortP handlerNeedsSort
    cases h with
    | null => rfl
    | panicking => rfl
    | delete =>
      simp only []
      rw [Prog.run_bind, run_peekP, bindAssoc, bindAssoc]
      refine bindCongr (fun x hx => ?_)
      rfl
  rw [h1, bindAssoc]
  unfold liftE
  rw [bindAssoc]
  refine bindCongr (fun b hb => ?_)
  rw [okBind]
  simp only []
  rw [Prog.run_bind]
  have h2 : ∀ rows, (handlerHandleP fP h t ev rows).run u = liftE u (handlerHandle f h t ev rows u.env) := by
    intro rows
    unfold handlerHandleP handlerHandle
    cases h with
    | null => rfl
    | panicking => rfl
    | delete =>
      simp only []
      rw [Prog.run_bind, run_peekP, bindAssoc]
      unfold liftE
      rw [bindAssoc]
      refine bindCongr (fun x hx => ?_)
      rw [okBind, run_tableRemoveRowsP hf]
      rfl
  rw [h2, liftE_bind, bindAssoc]
  refine bindCongr (fun env he => ?_)
  exact tail _ _

theorem run_trackerHandleP {f : FlushFn S} {fP : FlushProg S} (hf : Same f fP) (p : T) (tr : Tracker S) (ev : Event)
    (rows : Select (List Nat)) (h : Handler) (u : Uni S) :
    (trackerHandleP fP p tr ev rows h).run u = liftE u (trackerHandle f p tr ev rows h u.env) := by
  unfold trackerHandleP trackerHandle
  cases tr with
  | observer o => rfl
  | auto fk =>
    simp only []
    rw [Prog.run_bind, run_peekP, bindAssoc]
    unfold liftE
    rw [bindAssoc]
    refine bindCongr (fun x hx => ?_)
    rw [okBind, Prog.run_bind, run_ofR, bindAssoc, bindAssoc]
    refine bindCongr (fun y hy => ?_)
    rw [okBind, run_handlerRunP hf]
    rfl

theorem run_loop {f : FlushFn S} {fP : FlushProg S} (hf : Same f fP) (p : T) (ev : Event) (h : Handler) (trs : List (Tracker S))
    (sel : Select (List Nat)) (b : Bool) (u : Uni S) :
    (trs.foldlM (flushStepP fP p ev h) (sel, b)).run u =
      (trs.foldlM (flushStep f p ev h) ⟨sel, b, u.env⟩ >>= fun st => .ok ((st.sel, st.sorted), { u with env := st.env })) := by
  induction trs generalizing sel b u with
  | nil => rfl
  | cons tr trs ih =>
    rw [List.foldlM_cons, List.foldlM_cons, Prog.run_bind, bindAssoc]
    have h1 : (flushStepP fP p ev h (sel, b) tr).run u =
        flushStep f p ev h ⟨sel, b, u.env⟩ tr >>= fun st => .ok ((st.sel, st.sorted), { u with env := st.env }) := by
      unfold flushStepP flushStep
      by_cases hc : tr.considers ev = false
      · rw [if_pos hc, if_pos hc]; rfl
      · rw [if_neg hc, if_neg hc]
        simp only []
        by_cases hs : (!b && tr.sort) = true
        · simp only [hs, if_true]
          rw [Prog.run_bind, run_trackerHandleP hf, liftE_bind, bindAssoc]
          exact bindCongr (fun env he => rfl)
        · simp only [hs, if_false, Bool.false_eq_true]
          rw [Prog.run_bind, run_trackerHandleP hf, liftE_bind, bindAssoc]
          exact bindCongr (fun env he => rfl)
    rw [h1, bindAssoc]
    refine bindCongr (fun st hst => ?_)
    rw [okBind]
    simp only []
    rw [ih]

theorem same_doFlush (cfg : Cfg S) (n : Nat) : Same (doFlush cfg n) (doFlushP cfg n) := by
  induction n with
  | zero => intro t ev pu de sel u; rfl
  | succ n ih =>
    intro t ev pu de sel u
    unfold doFlushP doFlush
    split
    · rfl
    · rw [Prog.run_bind, run_ofR, bindAssoc]
      unfold liftU
      rw [bindAssoc]
      refine bindCongr (fun h hh => ?_)
      rw [okBind, Prog.run_bind, run_loop ih, bindAssoc, bindAssoc]
      exact bindCongr (fun st hst => rfl)

theorem run_flushP (cfg : Cfg S) (n : Nat) (t : T) (w : W (S t)) (ev : Event) (u : Uni S) :
    (flushP cfg n t w ev).run u = liftE u (flush cfg n t w ev u.env) := run_flushWithP (same_doFlush cfg n) t w ev u

theorem run_liveFlushP (cfg : Cfg S) (n : Nat) (t : T) (w : W (S t)) (ev : Event) (u : Uni S) :
    (liveFlushP cfg n t w ev).run u = liveFlushU cfg n t w ev u := by
  unfold liveFlushP liveFlushU liveFlush
  by_cases hc : w.changes.isEmpty = true
  · rw [if_pos hc, if_pos hc]; rfl
  · rw [if_neg hc, if_neg hc, if_neg hc]
    simp only [Prog.run]
    rw [Prog.run_bind, run_lockFl, okBind]
    simp only []
    rw [Prog.run_bind, same_doFlush, liftU_bind, bindAssoc]
    refine bindCongr (fun x hx => ?_)
    obtain ⟨ch, env⟩ := x
    simp only []
    have fin : ∀ x : Tbl (S t), (Prog.put t x (Prog.getF t fun f =>
        if f.hasRemapping = true then Prog.forget t (Prog.ret (W.lock x))
        else Prog.rel (.fl t) .rd (Prog.ret (W.lock x)) : Prog S (W (S t)))).run ({ u with env := env } : Uni S) =
      .ok (W.lock x, ⟨env.put t x, Function.update u.fl t
        (if (u.fl t).hasRemapping then { u.fl t with leaked := (u.fl t).leaked + 1 } else u.fl t)⟩) := by
      intro x
      simp only [Prog.run]
      cases (u.fl t).hasRemapping with
      | true => simp only [if_true, Prog.run]
      | false =>
        simp only [Bool.false_eq_true, if_false, Prog.run]
        rw [Function.update_eq_self]
    rw [Prog.run_bind, run_ofR, bindAssoc]
    by_cases hb : (ev.isRemoval && !ch.isEmpty) = true
    · rw [if_pos hb, if_pos hb, bindAssoc]
      refine bindCongr (fun y hy => ?_)
      rw [okBind, okBind]
      exact fin y
    · rw [if_neg hb, if_neg hb]
      rw [okBind, okBind, okBind, okBind]
      exact fin w.tbl

theorem run_readSelectP (cfg : Cfg S) (n : Nat) (t : T) (ev : Event) (sel : Select (List Nat)) (u : Uni S) :
    (do Prog.lock (.tbl t) .rd; readSelectP cfg n t ev sel : Prog S Unit).run u = liftE u (readSelect cfg n t ev sel u.env) := by
  have e : (do Prog.lock (.tbl t) .rd; readSelectP cfg n t ev sel : Prog S Unit) =
      (Prog.acq (.tbl t) .rd (.rel (.tbl t) .rd (do
        Prog.lock (.fl t) .rd
        let _ ← doFlushP cfg n t ev false false sel
        Prog.unlock (.fl t) .rd))) := rfl
  rw [e]
  unfold readSelect liftE Env.peek
  simp only [Prog.run, Env.releaseRead]
  split
  · rfl
  · rw [okBind]
    have : Function.update (Function.update u.env.reads t (u.env.reads t + 1)) t
        (Function.update u.env.reads t (u.env.reads t + 1) t - 1) = u.env.reads := by
      rw [Function.update_self, Function.update_idem, Nat.add_sub_cancel, Function.update_eq_self]
    rw [this, Prog.run_bind, run_lockFl, okBind]
    simp only []
    rw [Prog.run_bind, same_doFlush, liftU_bind, bindAssoc]
    exact bindCongr (fun x hx => rfl)

/-! ### `restore_extract` -/

section
variable {K : Type} [LinearOrder K] {t : T}

/-- The universe with one more reader of `p`. -/
def bump (p : T) (u : Uni S) : Uni S :=
  { u with env := { u.env with reads := Function.update u.env.reads p (u.env.reads p + 1) } }

def bumps : List (Own S t) → Uni S → Uni S
  | [], u => u
  | o :: own, u => bumps own (bump o.parent u)

def flOf (own : List (Own S t)) (g fl : T → FlushLock) : T → FlushLock :=
  match own with
  | [] => fl
  | o :: own => flOf own g (Function.update fl o.parent (g o.parent))

theorem flOf_out (own : List (Own S t)) (g fl : T → FlushLock) (p : T) (h : fl p = g p) : flOf own g fl p = g p := by
  induction own generalizing fl with
  | nil => exact h
  | cons o own ih =>
    refine ih _ ?_
    by_cases e : p = o.parent
    · subst e; exact Function.update_self ..
    · rw [Function.update_of_ne e]; exact h

theorem flOf_mem (own : List (Own S t)) (g fl : T → FlushLock) (o : Own S t) (ho : o ∈ own) : flOf own g fl o.parent = g o.parent := by
  induction own generalizing fl with
  | nil => cases ho
  | cons a own ih =>
    rcases List.mem_cons.1 ho with rfl | ho
    · exact flOf_out own g _ _ (Function.update_self ..)
    · exact ih _ ho

theorem run_lockParents (own : List (Own S t)) (fl : T → FlushLock) (u : Uni S) :
    (lockParents own fl).run u =
      (own.forM (fun o => do let _ ← u.env.peek o.parent; .ok ()) >>= fun _ => .ok (flOf own u.fl fl, bumps own u)) := by
  induction own generalizing fl u with
  | nil => rfl
  | cons o own ih =>
    unfold lockParents
    rw [List.forM_eq_forM, List.forM_cons]
    simp only [Prog.run]
    unfold Env.peek
    by_cases hw : u.env.writer o.parent = true
    · rw [if_pos hw, if_pos hw]; rfl
    · rw [if_neg hw, if_neg hw, okBind, okBind]
      refine (ih _ (bump o.parent u)).trans ?_
      rw [List.forM_eq_forM]
      rfl

theorem run_unlockParents (own : List (Own S t)) (u : Uni S) : (unlockParents own).run (bumps own u) = .ok ((), u) := by
  induction own generalizing u with
  | nil => rfl
  | cons o own ih =>
    unfold unlockParents
    rw [Prog.run_bind]
    show (unlockParents own).run (bumps own (bump o.parent u)) >>= _ = _
    rw [ih, okBind]
    simp only [Prog.run, Env.releaseRead, bump]
    have : Function.update (Function.update u.env.reads o.parent (u.env.reads o.parent + 1)) o.parent
        (Function.update u.env.reads o.parent (u.env.reads o.parent + 1) o.parent - 1) = u.env.reads := by
      rw [Function.update_self, Function.update_idem, Nat.add_sub_cancel, Function.update_eq_self]
    rw [this]

theorem updateRow_congr {fl fl' : T → FlushLock} (own : List (Own S t)) (h : ∀ o ∈ own, fl o.parent = fl' o.parent) (row : Row (S t)) :
    updateRow fl own row = updateRow fl' own row := by
  unfold updateRow
  induction own generalizing row with
  | nil => rfl
  | cons o own ih =>
    rw [List.foldlM_cons, List.foldlM_cons, h o List.mem_cons_self]
    exact bindCongr (fun r hr => ih (fun o ho => h o (List.mem_cons_of_mem _ ho)) r)

theorem mergeExtract_congr {key : Row (S t) → K} {fl fl' : T → FlushLock} (own : List (Own S t)) (h : ∀ o ∈ own, fl o.parent = fl' o.parent)
    (x : Extraction (S t)) (b : Bool) (w : W (S t)) : mergeExtract key fl own x b w = mergeExtract key fl' own x b w := by
  have hr := updateRow_congr own h
  have h1 : ∀ l w rm, restorePush fl own x b l w rm = restorePush fl' own x b l w rm := by
    intro l
    induction l with
    | nil => intro w rm; rfl
    | cons a l ih =>
      intro w rm
      obtain ⟨old, k⟩ := a
      unfold restorePush
      refine bindCongr (fun row _ => ?_)
      rw [hr]
      refine bindCongr (fun row _ => ?_)
      exact bindCongr (fun y _ => ih _ _)
  have h2 : ∀ l w rm, restoreMergeEach key fl own x l w rm = restoreMergeEach key fl' own x l w rm := by
    intro l
    induction l with
    | nil => intro w rm; rfl
    | cons a l ih =>
      intro w rm
      obtain ⟨old, k⟩ := a
      unfold restoreMergeEach
      refine bindCongr (fun row _ => ?_)
      rw [hr]
      refine bindCongr (fun row _ => ?_)
      exact bindCongr (fun y _ => ih _ _)
  unfold mergeExtract
  rw [h1, h2]

theorem run_restoreP (key : (t : T) → Row (S t) → K) (cfg : Cfg S) (n : Nat) (sig : Sig) (own : List (Own S t)) (x : Extraction (S t))
    (ev : Event) (w : W (S t)) (u : Uni S) :
    (restoreP key cfg n t sig own x ev w).run u = restoreExtract key cfg n t sig own x ev w u := by
  unfold restoreP restoreExtract
  rw [Prog.run_bind, run_ofR, bindAssoc]
  refine bindCongr (fun v hv => ?_)
  rw [okBind]
  cases v with
  | some e =>
    simp only []
    rw [Prog.run_bind, run_ofR, bindAssoc]
    exact bindCongr (fun tb _ => rfl)
  | none =>
    simp only []
    rw [Prog.run_bind, run_lockParents, bindAssoc]
    refine bindCongr (fun _ _ => ?_)
    rw [okBind]
    simp only []
    rw [Prog.run_bind, run_lockFl, okBind]
    simp only []
    rw [Prog.run_bind, run_unlockFl, okBind]
    simp only []
    rw [Prog.run_bind, run_ofR, bindAssoc, mergeExtract_congr own (fun o ho => flOf_mem own u.fl _ o ho)]
    refine bindCongr (fun y _ => ?_)
    obtain ⟨w1, rm⟩ := y
    rw [okBind]
    simp only []
    rw [Prog.run_bind, run_unlockParents, okBind]
    simp only []
    by_cases hc : w1.changes.isEmpty = true
    · rw [if_pos hc, if_pos hc]
      rw [Prog.run_bind, run_ofR, bindAssoc]
      exact bindCongr (fun tb _ => rfl)
    · rw [if_neg hc, if_neg hc, Prog.run_bind]
      unfold Prog.lock
      simp only [Prog.run]
      by_cases hl : (u.fl t).leaked ≠ 0
      · rw [if_pos hl]
        unfold FlushLock.setRemapping
        rw [if_pos hl]
        rfl
      · rw [if_neg hl, okBind]
        simp only [Prog.run]
        rw [Prog.run_bind, run_ofR, bindAssoc]
        refine bindCongr (fun f hf => ?_)
        rw [okBind]
        simp only [Prog.run]
        rw [Prog.run_bind, run_unlockFl, okBind]
        simp only []
        rw [Prog.run_bind, run_flushP, liftE_bind]
        exact bindCongr (fun env _ => rfl)

end

end V11
