import Verif.Props.Events

/-!
# C61: exactly when an event nobody handles makes a flush panic
-/

set_option linter.unusedSimpArgs false
set_option linter.unusedSectionVars false
set_option linter.unusedVariables false

namespace V11
variable {T : Type} [DecidableEq T] {S : T → Schema} [LS : ∀ t, LawfulSchema (S t)] {K : Type} [LinearOrder K]
  {key : (t : T) → Row (S t) → K} {cfg : Cfg S} {rank : T → Nat}

theorem unhandledLoop {ev : Event} (hse : Searchable cfg) {f : FlushFn S} {p : T} (ts : List (Tracker S))
    (hts : ∀ tr ∈ ts, tr ∈ cfg.trackers p) (hfk : ∃ fk, Tracker.auto fk ∈ ts) (st : FlushSt S)
    (hs : st.sorted = true → SelSorted st.sel) (hr : Ready key cfg st.env.tbl) (hw : ∀ t, st.env.writer t = false) :
    ts.foldlM (flushStep f p ev .panicking) st = .error .noHandler := by
  induction ts generalizing st with
  | nil => obtain ⟨fk, h⟩ := hfk; cases h
  | cons tr ts ih =>
    rw [List.foldlM_cons]
    have e : ∃ st1 : FlushSt S, (if (!st.sorted && tr.sort) = true then { st with sel := st.sel.sort, sorted := true } else st) = st1 ∧
        st1.env = st.env ∧ (st1.sorted = true → SelSorted st1.sel) ∧ (tr.sort = true → SelSorted st1.sel) := by
      by_cases hb : (!st.sorted && tr.sort) = true
      · rw [if_pos hb]
        exact ⟨_, rfl, rfl, fun _ => SelSorted.sort _, fun _ => SelSorted.sort _⟩
      · rw [if_neg hb]
        refine ⟨st, rfl, rfl, hs, fun ht => ?_⟩
        cases hx : st.sorted with
        | true => exact hs hx
        | false => simp [hx, ht] at hb
    obtain ⟨st1, e1, e2, e3, e4⟩ := e
    cases tr with
    | observer o =>
      have hfk' : ∃ fk, Tracker.auto fk ∈ ts := by
        obtain ⟨fk, h⟩ := hfk
        rcases List.mem_cons.1 h with h | h
        · cases h
        · exact ⟨fk, h⟩
      unfold flushStep
      by_cases hc : (Tracker.observer (S := S) o).considers ev = false
      · rw [if_pos hc, okBind]
        exact ih (fun t h => hts t (by simp [h])) hfk' st hs hr hw
      · rw [if_neg hc]
        simp only []
        rw [e1]
        simp only [trackerHandle, okBind]
        refine ih (fun t h => hts t (by simp [h])) hfk' _ e3 ?_ ?_
        · rw [e2]; exact hr
        · intro t; rw [e2]; exact hw t
    | auto fk =>
      have hIs : IsFK cfg p fk := hts _ (by simp)
      have hsel : ∃ out, fk.select (st1.env.tbl fk.child) st1.sel = .ok out := by
        rw [e2]
        obtain ⟨L, hL, hlen⟩ := hr.wf fk.child
        cases hx : st1.sel with
        | all => exact ⟨.all, rfl⟩
        | these rows =>
          obtain ⟨out, o1, -⟩ := fkSelect_ok fk hL hlen
            (fun hb => ⟨hse.sorted p fk hIs hb,
              hr.inOrder p fk hIs hb L (hL.holds' (by rw [hse.sorted p fk hIs hb]; simp))⟩)
            (hse.indexed p fk hIs) rows (fun hk => by
              have := e4 (by simp [Tracker.sort, hk])
              rw [hx] at this
              exact this)
          exact ⟨_, o1⟩
      obtain ⟨out, o1⟩ := hsel
      unfold flushStep
      rw [if_neg (by simp [Tracker.considers])]
      simp only []
      rw [e1]
      have hh : trackerHandle f p (.auto fk) ev st1.sel .panicking st1.env = .error .noHandler := by
        unfold trackerHandle
        simp only []
        rw [peek_ok (by rw [e2]; exact hw _), okBind, o1, okBind]
        rfl
      rw [hh]
      rfl

/-- C61: a flush with an event that neither creates nor removes and whose handler is the panicking one (the default for
such events) panics exactly if something is marked and the table has a foreign_auto dependant — whatever the dependant
holds. If not, it returns, with the lock given back and no table changed. -/
theorem C61_exact {ev : Event} (hse : Searchable cfg) {p : T} (hh : cfg.handlers[ev.id]? = some .panicking)
    (hr : ev.isRemoval = false) (n : Nat) (w : W (S p)) (env : Env S) (hl : Holding env p)
    (hrd : Ready key cfg (Function.update env.tbl p w.tbl)) (hpd : (w.pushed && w.delete) = false) :
    (w.changes.isEmpty = false ∧ (∃ fk, IsFK cfg p fk) → flush cfg (n + 1) p w ev env = .error .noHandler) ∧
    (¬ (w.changes.isEmpty = false ∧ ∃ fk, IsFK cfg p fk) → ∃ env', flush cfg (n + 1) p w ev env = .ok env' ∧ Unlocked env' ∧
      env'.tbl = Function.update env.tbl p w.tbl) := by
  constructor
  · rintro ⟨hw, fk, hfk⟩
    unfold flush flushWith
    rw [if_neg (by simp [hw])]
    simp only [doFlush]
    rw [if_neg (by simp [hpd, hr])]
    have : cfg.handler ev = .ok .panicking := by unfold Cfg.handler; rw [hh]
    rw [this, okBind, unhandledLoop (key := key) hse (cfg.trackers p) (fun _ h => h) ⟨fk, hfk⟩
      ⟨w.changes, w.changes.isAll, env.unlock p w.tbl⟩ (by cases w.changes <;> simp [Select.isAll, SelSorted]) hrd
      (hl.unlock w.tbl).2]
    rfl
  · intro h
    cases he : w.changes.isEmpty with
    | true =>
      refine ⟨env.unlock p w.tbl, ?_, hl.unlock _, rfl⟩
      unfold flush flushWith; rw [if_pos he]
    | false =>
      have hno : ∀ fk, ¬ IsFK cfg p fk := fun fk hfk => h ⟨he, fk, hfk⟩
      refine C61_unhandled_event_harmless (fun tr htr => ?_) hh hr n w env hl hpd
      cases tr with
      | observer o => exact ⟨o, rfl⟩
      | auto fk => exact absurd htr (hno fk)

/-- C61 applies: the demo universe, table 0 selected; it has a dependant. -/
example : flush uniCfg 3 0 ((W.lock (uniTbl 0)).selectAll) evUpdate (uniEnv.lock 0 |>.toOption.map (·.2) |>.getD uniEnv) = .error .noHandler ∧
    Searchable uniCfg ∧ (∃ fk, IsFK uniCfg 0 fk) :=
  ⟨by rfl, uniStandard.searchable, _, uniIsFK.2 (Or.inl ⟨rfl, rfl⟩)⟩

end V11
