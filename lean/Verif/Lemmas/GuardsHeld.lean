import Verif.Spec.Cascade
import Verif.Lemmas.Cascade
import Verif.Lemmas.Tell

/-!
# What a flush that returned says about the guards its thread had
-/

set_option linter.unusedSectionVars false
set_option linter.unusedVariables false

namespace V11
variable {T : Type} [DecidableEq T] {S : T → Schema} {cfg : Cfg S}

/-- The same guards. -/
def SameGuards (a b : Env S) : Prop := b.reads = a.reads ∧ b.writer = a.writer

theorem SameGuards.trans {a b c : Env S} (h : SameGuards a b) (h' : SameGuards b c) : SameGuards a c :=
  ⟨h'.1.trans h.1, h'.2.trans h.2⟩

/-- What `h` takes on table `c`. -/
def Takes (h : Handler) (env : Env S) (c : T) : Prop := env.writer c = false ∧ (h = .delete → env.reads c = 0)

/-- `f` gives all guards back, and needs those of the tables that depend on `t`. -/
def Needy (cfg : Cfg S) (f : FlushFn S) : Prop :=
  ∀ t ev pu de sel env sel' env', f t ev pu de sel env = .ok (sel', env') →
    SameGuards env env' ∧ ∀ h, cfg.handler ev = .ok h → ∀ c, DependsOn cfg c t → Takes h env c

theorem guards_flushWith {f : FlushFn S} (hf : Needy cfg f) {t : T} {w : W (S t)} {ev : Event} {env env' : Env S}
    (h : flushWith f t w ev env = .ok env') : env'.reads = env.reads ∧ env'.writer = Function.update env.writer t false := by
  unfold flushWith at h
  by_cases hc : w.changes.isEmpty = true
  · rw [if_pos hc] at h
    injection h with h; subst h
    exact ⟨rfl, rfl⟩
  · rw [if_neg hc] at h
    simp only [] at h
    cases e : f t ev w.pushed w.delete w.changes (env.unlock t w.tbl) with
    | error p => rw [e] at h; cases h
    | ok r =>
      obtain ⟨ch, env1⟩ := r
      rw [e, okBind] at h
      simp only [] at h
      have hg := (hf _ _ _ _ _ _ _ _ e).1
      split at h
      · cases e2 : env1.lock t with
        | error p => rw [e2] at h; cases h
        | ok r2 =>
          obtain ⟨w2, env2⟩ := r2
          rw [e2, okBind] at h
          simp only [] at h
          cases e3 : w2.tbl.removeSel ch with
          | error p => rw [e3] at h; cases h
          | ok x =>
            rw [e3, okBind] at h
            injection h with h; subst h
            unfold Env.lock at e2
            split at e2
            · cases e2
            · injection e2 with e2
              injection e2 with e4 e5
              subst e5
              refine ⟨hg.1, ?_⟩
              show Function.update (Function.update env1.writer t true) t false = _
              rw [Function.update_idem, hg.2]
              exact Function.update_idem ..
      · injection h with h; subst h
        exact ⟨hg.1, hg.2⟩

theorem lock_guards {env env1 : Env S} {t : T} {w : W (S t)} (e : env.lock t = .ok (w, env1)) :
    env.reads t = 0 ∧ env.writer t = false ∧ env1.reads = env.reads ∧ env1.writer = Function.update env.writer t true := by
  unfold Env.lock at e
  split at e
  · cases e
  · rename_i hn
    injection e with e
    injection e with e1 e2
    subst e2
    simp only [not_or, not_not, Bool.not_eq_true] at hn
    exact ⟨hn.1, hn.2, rfl, rfl⟩

theorem guards_removeRows {f : FlushFn S} (hf : Needy cfg f) {t : T} {ev : Event} {rows : Select (List Nat)} {env env' : Env S}
    (h : tableRemoveRows f t ev rows env = .ok env') : SameGuards env env' ∧ env.reads t = 0 ∧ env.writer t = false := by
  have fin : ∀ {w : W (S t)} {env1 : Env S} {w' : W (S t)}, env.lock t = .ok (w, env1) → flushWith f t w' ev env1 = .ok env' →
      SameGuards env env' ∧ env.reads t = 0 ∧ env.writer t = false := by
    intro w env1 w' e hfl
    obtain ⟨h1, h2, h3, h4⟩ := lock_guards e
    obtain ⟨g1, g2⟩ := guards_flushWith hf hfl
    refine ⟨⟨g1.trans h3, ?_⟩, h1, h2⟩
    rw [g2, h4, Function.update_idem]
    rw [← h2]
    exact Function.update_eq_self ..
  unfold tableRemoveRows at h
  cases hk : (S t).kind <;> simp only [hk] at h
  all_goals try (cases h; done)
  all_goals
    cases e : env.lock t with
    | error p => rw [e] at h; cases h
    | ok r =>
      obtain ⟨w, env1⟩ := r
      rw [e, okBind] at h
      cases rows with
      | these rows =>
        simp only [] at h
        obtain ⟨x, -, h⟩ := bind_ok h
        exact fin e h
      | all =>
        simp only [] at h
        obtain ⟨x, -, h⟩ := bind_ok h
        obtain ⟨w', -, h⟩ := bind_ok h
        exact fin e h

theorem guards_handlerRun {f : FlushFn S} (hf : Needy cfg f) {h : Handler} {t : T} {ev : Event} {rows : Select (List Nat)}
    {env env' : Env S} (hh : cfg.handler ev = .ok h) (hr : handlerRun f h t ev rows env = .ok env') :
    SameGuards env env' ∧ Takes h env t ∧ ∀ c, DependsOn cfg c t → Takes h env c := by
  unfold handlerRun at hr
  obtain ⟨s, hs, hr⟩ := bind_ok hr
  simp only [] at hr
  obtain ⟨env1, h1, hr⟩ := bind_ok hr
  obtain ⟨env2, h2, hr⟩ := bind_ok hr
  obtain ⟨⟨x, env3⟩, h3, hr⟩ := bind_ok hr
  simp only [] at hr
  injection hr with hr
  subst hr
  have ha : SameGuards env env1 ∧ Takes h env t := by
    cases h with
    | null =>
      have h1 : (.ok env : R (Env S)) = .ok env1 := h1
      injection h1 with h1; subst h1
      refine ⟨⟨rfl, rfl⟩, ?_, fun e => by cases e⟩
      unfold Env.acquireRead at h2
      split at h2
      · cases h2
      · rename_i hn; simpa using hn
    | panicking => cases h1
    | delete =>
      have h1 : (env.peek t >>= fun _ => tableRemoveRows f t ev (if s then rows.sort else rows) env) = .ok env1 := h1
      obtain ⟨y, -, h1⟩ := bind_ok h1
      obtain ⟨g1, g2, g3⟩ := guards_removeRows hf h1
      exact ⟨g1, g3, fun _ => g2⟩
  obtain ⟨b1, b2⟩ := hf _ _ _ _ _ _ _ _ h3
  have hacq : env2 = { env1 with reads := Function.update env1.reads t (env1.reads t + 1) } := by
    unfold Env.acquireRead at h2
    split at h2
    · cases h2
    · injection h2 with h2; exact h2.symm
  subst hacq
  refine ⟨⟨?_, ?_⟩, ha.2, ?_⟩
  · show Function.update env3.reads t (env3.reads t - 1) = env.reads
    rw [b1.1]
    show Function.update (Function.update env1.reads t (env1.reads t + 1)) t (Function.update env1.reads t (env1.reads t + 1) t - 1) = _
    rw [Function.update_idem, Function.update_self, Nat.add_sub_cancel, Function.update_eq_self]
    exact ha.1.1
  · show env3.writer = env.writer
    rw [b1.2]
    exact ha.1.2
  · intro c hc
    obtain ⟨c1, c2⟩ := b2 h hh c hc
    refine ⟨?_, ?_⟩
    · rw [← ha.1.2]; exact c1
    · intro hd
      have := c2 hd
      have h4 : Function.update env1.reads t (env1.reads t + 1) c = 0 := this
      by_cases ec : c = t
      · subst ec; rw [Function.update_self] at h4; omega
      · rw [Function.update_of_ne ec] at h4
        rw [← ha.1.1]; exact h4

theorem guards_loop {f : FlushFn S} (hf : Needy cfg f) {p : T} {ev : Event} {h : Handler} (hh : cfg.handler ev = .ok h)
    (trs : List (Tracker S)) {st st' : FlushSt S} (hr : trs.foldlM (flushStep f p ev h) st = .ok st') :
    SameGuards st.env st'.env ∧ ∀ fk, Tracker.auto fk ∈ trs → Takes h st.env fk.child ∧
      ∀ c, DependsOn cfg c fk.child → Takes h st.env c := by
  induction trs generalizing st with
  | nil =>
    have hr : (.ok st : R _) = .ok st' := hr
    injection hr with hr; subst hr
    exact ⟨⟨rfl, rfl⟩, by simp⟩
  | cons tr trs ih =>
    rw [List.foldlM_cons] at hr
    obtain ⟨st1, h1, hr⟩ := bind_ok hr
    obtain ⟨i1, i2⟩ := ih hr
    have key : SameGuards st.env st1.env ∧ ∀ fk, tr = .auto fk → Takes h st.env fk.child ∧
        ∀ c, DependsOn cfg c fk.child → Takes h st.env c := by
      unfold flushStep at h1
      split at h1
      · rename_i hcon
        injection h1 with h1; subst h1
        refine ⟨⟨rfl, rfl⟩, ?_⟩
        rintro fk rfl
        cases hcon
      · simp only [] at h1
        obtain ⟨env1, h2, h1⟩ := bind_ok h1
        injection h1 with h1; subst h1
        have henv : (if (!st.sorted && tr.sort) = true then ({ st with sel := st.sel.sort, sorted := true } : FlushSt S) else st).env = st.env := by
          split <;> rfl
        rw [henv] at h2
        cases tr with
        | observer o =>
          have h2 : (.ok _ : R _) = .ok env1 := h2
          injection h2 with h2; subst h2
          exact ⟨⟨rfl, rfl⟩, by simp⟩
        | auto fk =>
          obtain ⟨x, -, h2⟩ := bind_ok (show (st.env.peek fk.child >>= fun x => fk.select x _ >>= fun sel =>
            handlerRun f h fk.child ev sel st.env) = .ok env1 from h2)
          obtain ⟨sel, -, h2⟩ := bind_ok h2
          obtain ⟨g1, g2, g3⟩ := guards_handlerRun hf hh h2
          refine ⟨g1, ?_⟩
          intro fk' e
          injection e with e; subst e
          exact ⟨g2, g3⟩
    refine ⟨key.1.trans i1, ?_⟩
    intro fk hfk
    have back : ∀ c, Takes h st1.env c → Takes h st.env c := by
      intro c hc
      unfold Takes at hc ⊢
      rw [key.1.1, key.1.2] at hc
      exact hc
    rcases List.mem_cons.1 hfk with e | e
    · exact key.2 fk e.symm
    · exact ⟨back _ (i2 fk e).1, fun c hc => back _ ((i2 fk e).2 c hc)⟩

/-- `do_flush`. -/
theorem needy_doFlush (cfg : Cfg S) (n : Nat) : Needy cfg (doFlush cfg n) := by
  induction n with
  | zero => intro t ev pu de sel env sel' env' h; cases h
  | succ n ih =>
    intro t ev pu de sel env sel' env' hr
    unfold doFlush at hr
    split at hr
    · cases hr
    · obtain ⟨h, hh, hr⟩ := bind_ok hr
      obtain ⟨st, h1, hr⟩ := bind_ok hr
      injection hr with hr
      injection hr with e1 e2
      subst e1 e2
      obtain ⟨g1, g2⟩ := guards_loop ih hh _ h1
      refine ⟨g1, ?_⟩
      intro h' hh' c hc
      rw [hh] at hh'
      injection hh' with hh'; subst hh'
      cases hc with
      | direct hfk => exact (g2 _ hfk).1
      | step hfk hc => exact (g2 _ hfk).2 c hc

end V11
