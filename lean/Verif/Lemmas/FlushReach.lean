import Verif.Lemmas.FlushRange

/-!
# Which tables a flush can get at
-/

set_option linter.unusedSimpArgs false
set_option linter.unusedSectionVars false
set_option linter.unusedVariables false

namespace V11
variable {T : Type} [DecidableEq T] {S : T → Schema} [LV : ∀ t, LeavesSchema (S t)] {α β : Type}

/-- The code leaves table `s`, and whether its lock is poisoned, alone. -/
def PrMisses (s : T) (x : Pr S α) : Prop := ∀ e, (x e).1.env.tbl s = e.env.tbl s ∧ (x e).1.bad s = e.bad s

variable {s : T}

omit LV in
theorem PrMisses.ret (a : α) : PrMisses s (Pr.ret a : Pr S α) := fun _ => ⟨rfl, rfl⟩

omit LV in
theorem PrMisses.fail (p : Panic) : PrMisses s (Pr.fail p : Pr S α) := fun _ => ⟨rfl, rfl⟩

omit LV in
theorem PrMisses.andThen {x : Pr S α} {g : α → Pr S β} (hx : PrMisses s x) (hg : ∀ a, PrMisses s (g a)) : PrMisses s (x.andThen g) := by
  intro e
  unfold Pr.andThen
  have h := hx e
  rcases ex : x e with ⟨e1, r⟩
  rw [ex] at h
  cases r with
  | error p => exact h
  | ok a => exact ⟨(hg a e1).1.trans h.1, (hg a e1).2.trans h.2⟩

omit LV in
theorem PrMisses.peek (t : T) : PrMisses s (gPeek t : Pr S _) := by
  intro e
  unfold gPeek
  split
  · exact ⟨rfl, rfl⟩
  · split <;> exact ⟨rfl, rfl⟩

theorem PrMisses.work {t : T} (h : s ≠ t) (work : Cr (S t) Unit) : PrMisses s (gWork t work) := by
  intro e
  unfold gWork
  split
  · exact ⟨rfl, rfl⟩
  · split
    · exact ⟨rfl, rfl⟩
    · rcases ew : work (e.env.tbl t) with ⟨x, r⟩
      cases r with
      | ok a => exact ⟨Function.update_of_ne h .., rfl⟩
      | error p => exact ⟨Function.update_of_ne h .., Function.update_of_ne h ..⟩

omit LV in
theorem PrMisses.underRead {y : Pr S α} (hy : PrMisses s y) (t : T) : PrMisses s (gUnderRead t y) := by
  intro e
  unfold gUnderRead
  split
  · exact ⟨rfl, rfl⟩
  · split
    · exact ⟨rfl, rfl⟩
    · have := hy { e with env := { e.env with reads := Function.update e.env.reads t (e.env.reads t + 1) } }
      rcases ey : y { e with env := { e.env with reads := Function.update e.env.reads t (e.env.reads t + 1) } } with ⟨e1, r⟩
      rw [ey] at this
      cases r <;> exact this

/-- A flush of `t`, up to the removal of its own rows, gets only at tables that depend on `t`. -/
theorem doFlush_misses (cfg : Cfg S) (boom : Boom S) (n : Nat) :
    ∀ t, ¬ DependsOn cfg s t → ∀ ev pushed delete sel, PrMisses s (gDoFlush cfg boom n t ev pushed delete sel) := by
  induction n with
  | zero => intro t ht ev pushed delete sel; exact PrMisses.fail _
  | succ n ih =>
    intro t ht ev pushed delete sel
    rw [gDoFlush]
    split
    · exact PrMisses.fail _
    · cases hh : cfg.handler ev with
      | error p => exact PrMisses.fail _
      | ok h =>
        simp only []
        refine PrMisses.andThen ?_ (fun _ => PrMisses.ret _)
        have loop : ∀ ts : List (Tracker S), (∀ tr ∈ ts, tr ∈ cfg.trackers t) → ∀ st,
            PrMisses s (gFlushLoop boom (gDoFlush cfg boom n) t ev h ts st) := by
          intro ts
          induction ts with
          | nil => intro _ st; exact PrMisses.ret _
          | cons tr ts ih' =>
            intro hts st
            rw [gFlushLoop]
            refine PrMisses.andThen ?_ (fun st => ih' (fun tr h => hts tr (by simp [h])) st)
            unfold gFlushStep
            split
            · exact PrMisses.ret _
            · refine PrMisses.andThen ?_ (fun _ => PrMisses.ret _)
              cases tr with
              | observer o =>
                intro e
                unfold gTrackerHandle
                simp only []
                split <;> exact ⟨rfl, rfl⟩
              | auto fk =>
                have hfk : IsFK cfg t fk := hts _ (by simp)
                have hne : s ≠ fk.child := by rintro rfl; exact ht (DependsOn.direct hfk)
                have hnd : ¬ DependsOn cfg s fk.child := fun hd => ht (DependsOn.step hfk hd)
                have hrec := ih fk.child hnd ev
                unfold gTrackerHandle
                refine PrMisses.andThen ?_ (fun sel => ?_)
                · unfold gSelect
                  refine (PrMisses.peek _).andThen (fun y => ?_)
                  split
                  · exact PrMisses.ret _
                  · exact PrMisses.fail _
                · unfold gHandlerRun
                  refine PrMisses.andThen ?_ (fun b => PrMisses.andThen ?_ (fun _ => PrMisses.underRead (hrec _ _ _) _))
                  · unfold gNeedsSort
                    cases h with
                    | delete => exact (PrMisses.peek _).andThen (fun _ => PrMisses.ret _)
                    | null => exact PrMisses.ret _
                    | panicking => exact PrMisses.ret _
                  · generalize (if b then sel.sort else sel) = rows
                    unfold gHandlerHandle
                    cases h with
                    | null => exact PrMisses.ret _
                    | panicking => exact PrMisses.fail _
                    | delete =>
                      refine (PrMisses.peek _).andThen (fun _ => ?_)
                      unfold gTableRemoveRows
                      split
                      · refine (PrMisses.work hne _).andThen (fun _ => ?_)
                        split
                        · unfold gTell
                          refine (hrec _ _ _).andThen (fun c => ?_)
                          split
                          · exact PrMisses.work hne _
                          · exact PrMisses.ret _
                        · exact PrMisses.ret _
                      · exact PrMisses.fail _
        exact loop _ (fun _ h => h) _

/-- A whole flush of `t` gets only at `t` and tables that depend on it. -/
theorem flush_misses (cfg : Cfg S) (boom : Boom S) (n : Nat) (t : T) (hs : s ≠ t) (hd : ¬ DependsOn cfg s t) (w : W (S t)) (ev : Event) :
    PrMisses s (gFlush cfg boom n t w ev) := by
  intro e
  unfold gFlush
  have h0 : ({ e with env := e.env.unlock t w.tbl } : PEnv S).env.tbl s = e.env.tbl s := Function.update_of_ne hs ..
  split
  · exact ⟨h0, rfl⟩
  · have : PrMisses s (gTell (gDoFlush cfg boom n) t w.pushed w.delete w.changes ev) := by
      unfold gTell
      refine (doFlush_misses cfg boom n t hd _ _ _ _).andThen (fun c => ?_)
      split
      · exact PrMisses.work hs _
      · exact PrMisses.ret _
    have := this { e with env := e.env.unlock t w.tbl }
    exact ⟨this.1.trans h0, this.2⟩

/-- If a table that depends on `p` directly is poisoned, and `p` does not depend on itself, a flush of `p` leaves `p` as it was given back. -/
theorem flush_stuck (cfg : Cfg S) (boom : Boom S) (n : Nat) (p : T) (hd : ¬ DependsOn cfg p p) (fk : FK S) (hfk : IsFK cfg p fk) (w : W (S p)) (ev : Event)
    (e : PEnv S) (hb : e.bad fk.child = true) :
    (gFlush cfg boom n p w ev e).1.env.tbl p = w.tbl ∧ (gFlush cfg boom n p w ev e).1.bad p = e.bad p := by
  have h0 : ({ e with env := e.env.unlock p w.tbl } : PEnv S).env.tbl p = w.tbl := Function.update_self ..
  cases hc : w.changes.isEmpty with
  | true => unfold gFlush; rw [if_pos hc]; exact ⟨h0, rfl⟩
  | false =>
    have hne := flush_poisoned cfg boom n p fk hfk w hc ev e hb
    unfold gFlush at hne ⊢
    rw [if_neg (by simp [hc])] at hne ⊢
    have hm := doFlush_misses cfg boom n p hd ev w.pushed w.delete w.changes { e with env := e.env.unlock p w.tbl }
    unfold gTell Pr.andThen at hne ⊢
    rcases ex : gDoFlush cfg boom n p ev w.pushed w.delete w.changes { e with env := e.env.unlock p w.tbl } with ⟨e1, r⟩
    rw [ex] at hm hne
    cases r with
    | error q => exact ⟨hm.1.trans h0, hm.2⟩
    | ok sel =>
      exact absurd (by rw [ex]) (doFlush_poisoned cfg boom n p fk hfk ev w.pushed w.delete w.changes { e with env := e.env.unlock p w.tbl } hb sel)

end V11
