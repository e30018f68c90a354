import Verif.Lemmas.Flush

/-!
# Tables nobody depends on: only observers are told
-/

set_option linter.unusedSimpArgs false
set_option linter.unusedSectionVars false
set_option linter.unusedVariables false

namespace V11
variable {T : Type} [DecidableEq T] {S : T → Schema} [LS : ∀ t, LawfulSchema (S t)] {cfg : Cfg S} {rank : T → Nat}

theorem flushLoopObs_ok {ev : Event} {f : FlushFn S} {h : Handler} (p : T) (ts : List (Tracker S))
    (hts : ∀ tr ∈ ts, ∃ o, tr = .observer o)
    (sel sel0 : Select (List Nat)) (hp : SelPerm sel0 sel) (sorted : Bool) (hs : sorted = true → SelSorted sel0) (env : Env S) :
    ∃ sel' sorted' env', ts.foldlM (flushStep f p ev h) ⟨sel0, sorted, env⟩ = .ok ⟨sel', sorted', env'⟩ ∧
      SelPerm sel' sel ∧ PostNull rank p sel ts ev env env' := by
  induction ts generalizing sorted sel0 env with
  | nil => exact ⟨sel0, sorted, env, rfl, hp, rfl, rfl, rfl, [], by simp, List.Forall₂.nil, by simp⟩
  | cons tr ts ih =>
    obtain ⟨o, rfl⟩ := hts tr (by simp)
    have step : ∃ sel1 s1 env1, flushStep f p ev h ⟨sel0, sorted, env⟩ (.observer o) = .ok ⟨sel1, s1, env1⟩ ∧
        SelPerm sel1 sel ∧ (s1 = true → SelSorted sel1) ∧ PostNull rank p sel [.observer o] ev env env1 := by
      unfold flushStep
      by_cases hc : (Tracker.observer (S := S) o).considers ev = false
      · rw [if_pos hc]
        refine ⟨sel0, sorted, env, rfl, hp, hs, rfl, rfl, rfl, [], by simp, ?_, by simp⟩
        have : observers ev [Tracker.observer (S := S) o] = [] := by
          simp only [Tracker.considers] at hc
          simp [observers, hc]
        rw [this]
        exact List.Forall₂.nil
      · rw [if_neg hc]
        simp only []
        obtain ⟨sel1, s1, e, hp', hs', ht'⟩ : ∃ sel1 s1,
            (if (!sorted && (Tracker.observer (S := S) o).sort) = true then (⟨sel0.sort, true, env⟩ : FlushSt S) else ⟨sel0, sorted, env⟩) =
              ⟨sel1, s1, env⟩ ∧ SelPerm sel1 sel ∧ (s1 = true → SelSorted sel1) ∧ (o.sort = true → SelSorted sel1) := by
          by_cases hb : (!sorted && (Tracker.observer (S := S) o).sort) = true
          · rw [if_pos hb]
            exact ⟨_, _, rfl, (SelPerm.sort sel0).trans hp, fun _ => SelSorted.sort sel0, fun _ => SelSorted.sort sel0⟩
          · rw [if_neg hb]
            refine ⟨sel0, sorted, rfl, hp, hs, ?_⟩
            intro ht
            cases sorted with
            | true => exact hs rfl
            | false => simp [Tracker.sort, ht] at hb
        simp only [e]
        unfold trackerHandle
        simp only [okBind]
        refine ⟨sel1, s1, _, rfl, hp', hs', rfl, rfl, rfl, _, rfl, ?_, by simp⟩
        have : observers ev [Tracker.observer (S := S) o] = [o] := by
          simp only [Tracker.considers, Bool.not_eq_false] at hc
          simp [observers, hc]
        rw [this]
        simp only [List.filter_cons, decide_true, if_true, List.filter_nil]
        exact List.Forall₂.cons ⟨rfl, rfl, hp', ht', rfl⟩ List.Forall₂.nil
    obtain ⟨sel1, s1, env1, a1, a2, a3, a4⟩ := step
    rw [List.foldlM_cons, a1, okBind]
    obtain ⟨sel2, s2, env2, b1, b2, b3⟩ := ih (fun t ht => hts t (by simp [ht])) sel1 a2 s1 a3 env1
    exact ⟨sel2, s2, env2, b1, b2, PostNull.trans (ts := [.observer o]) a4 b3⟩

/-- `do_flush` on such a table, whatever the handler. -/
theorem doFlushObs_ok {ev : Event} {h : Handler} (hh : cfg.handlers[ev.id]? = some h)
    (hev : (ev.isCreation && ev.isRemoval) = false) (n : Nat) (p : T) (hts : ∀ tr ∈ cfg.trackers p, ∃ o, tr = .observer o)
    (pushed delete : Bool) (hpd : (pushed && delete) = false) (sel : Select (List Nat)) (env : Env S) :
    ∃ sel' env', doFlush cfg (n + 1) p ev pushed delete sel env = .ok (sel', env') ∧ SelPerm sel' sel ∧
      PostNull rank p sel (cfg.trackers p) ev env env' := by
  unfold doFlush
  rw [if_neg (by rw [hpd, Bool.and_comm ev.isRemoval, hev]; simp)]
  have : cfg.handler ev = .ok h := by unfold Cfg.handler; rw [hh]
  rw [this, okBind]
  obtain ⟨sel', s, env', e1, e2, e3⟩ := flushLoopObs_ok (rank := rank) (f := doFlush cfg n) (h := h) (ev := ev) p (cfg.trackers p) hts sel sel
    (SelPerm.refl _) sel.isAll (by cases sel <;> simp [Select.isAll, SelSorted]) env
  refine ⟨sel', env', ?_, e2, e3⟩
  rw [e1, okBind]

end V11
