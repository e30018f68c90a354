import Verif.Lemmas.FlushPartly
import Verif.Lemmas.Flush
import Verif.Lemmas.FlushPanic

/-!
# Where a flush panics by itself
-/

set_option linter.unusedSimpArgs false
set_option linter.unusedSectionVars false
set_option linter.unusedVariables false

namespace V11
variable {T : Type} [DecidableEq T] {S : T → Schema} [LS : ∀ t, LawfulSchema (S t)] [LV : ∀ t, LeavesSchema (S t)] {K : Type} [LinearOrder K]
  {key : (t : T) → Row (S t) → K} {cfg : Cfg S} {rank : T → Nat}

omit LV in
/-- What the trackers of `p` did, whatever comes of the rows themselves. -/
theorem Post.dependants (hst : Standard cfg) (hac : Acyclic cfg rank) {p : T} (hp : (S p).kind = .consistent)
    {rows : List Nat} {ev : Event} {env env' : Env S} (h : Ready key cfg env.tbl)
    (hpost : Post key cfg rank p rows (cfg.trackers p) ev env env') (x : Tbl (S p)) :
    DependantsGone cfg env.tbl (Function.update env'.tbl p x) p rows := by
  have hsh := hpost.sound (Doomed cfg env.tbl p rows) (doomed_closed _ _ _) (fun _ i hi => Doomed.seed hi)
  have hchild : ∀ t i, Doomed cfg env.tbl p rows t i → ∀ fk, IsFK cfg t fk → fk.child ≠ p := by
    intro t i hd fk hfk e
    have := hac t fk hfk
    rw [e] at this
    rcases doomed_rank hac hd with ⟨rfl, -⟩ | h' <;> omega
  have hmain : ∀ t i, Doomed cfg env.tbl p rows t i →
      ((t ≠ p → (S t).kind = .consistent → (env'.tbl t).view i = none) ∧
      ∀ fk, IsFK cfg t fk → Unreferenced env'.tbl fk i) := by
    intro t i hd
    induction hd with
    | seed hi => exact ⟨fun e => absurd rfl e, fun fk hfk => hpost.unref fk hfk _ hi⟩
    | @step q t k i fk r hq hfk hv hr ih =>
      have hun := ih.2 fk hfk
      have hnone : (S t).kind = .consistent → (env'.tbl t).view i = none := by
        intro hk
        rcases hsh.cons t hk i with e | ⟨e, -⟩
        · rw [hv] at e
          obtain ⟨e', hre⟩ := hr
          subst e'
          exact absurd hre (hun i r e)
        · exact e
      refine ⟨fun _ hk => hnone hk, fun fk' hfk' => ?_⟩
      have hk := hst.parent t (List.ne_nil_of_mem hfk')
      exact hpost.killed t hk i (by rw [hv]; simp) (hnone hk) fk' hfk'
  refine ⟨?_, ?_, ?_, ?_⟩
  · intro t htp hk i hd
    rw [Function.update_of_ne htp]
    exact (hmain t i hd).1 htp hk
  · intro t htp hk i hd
    rw [Function.update_of_ne htp]
    rcases hsh.cons t hk i with e | ⟨-, e⟩
    · exact e
    · exact absurd e hd
  · intro t hk
    have hne : (S t).kind ≠ .consistent := by rw [hk]; simp
    have htp : t ≠ p := by rintro rfl; exact hne hp
    obtain ⟨keep, k1, k2⟩ := hsh.sorted t hk
    classical
    refine ⟨fun r => decide (¬ ∃ q fk k, IsFK cfg q fk ∧ Refers fk r k ∧ Doomed cfg env.tbl p rows q k), ?_, ?_⟩
    · intro r; simp
    · intro M hM
      have hW : WF (env.tbl t) M := ((h.reach t).wf_of_holds hne hM).1
      have hW' := k2 M hW
      rw [Function.update_of_ne htp]
      have hfil : M.filter (fun r => decide (¬ ∃ q fk k, IsFK cfg q fk ∧ Refers fk r k ∧ Doomed cfg env.tbl p rows q k)) = M.filter keep := by
        apply List.filter_congr
        intro r hr
        cases hkr : keep r with
        | false =>
          have := k1 r hkr
          simpa using this
        | true =>
          rw [decide_eq_true_eq]
          rintro ⟨q, fk, k, a, b, c⟩
          have hm : r ∈ M.filter keep := List.mem_filter.2 ⟨hr, hkr⟩
          obtain ⟨i, hi⟩ := List.mem_iff_getElem?.1 hm
          rw [← hW'.view_iff' hne] at hi
          obtain ⟨e, hre⟩ := b
          subst e
          exact (hmain q k c).2 fk a i r hi hre
      rw [hfil]
      exact hW'.holds' hne
  · intro t hk hk'
    have htp : t ≠ p := by rintro rfl; exact hk hp
    rw [Function.update_of_ne htp]
    exact hsh.other t hk hk'

omit LV in
theorem LeftBy.partly {p : T} {rows : List Nat} {u v : (t : T) → Tbl (S t)} (hu : Ready key cfg u) (h : LeftBy key cfg p rows u v) :
    PartlyRemoved cfg u v p rows := by
  have hs := h.sound (Doomed cfg u p rows) (doomed_closed _ _ _) (fun _ i hi => Doomed.seed hi)
  refine ⟨hs.cons, ?_, hs.other⟩
  intro t hk
  have hne : (S t).kind ≠ .consistent := by rw [hk]; simp
  obtain ⟨keep, k1, k2⟩ := hs.sorted t hk
  exact ⟨keep, k1, fun L hL => (k2 L ((hu.reach t).wf_of_holds hne hL).1).holds' hne⟩

section
omit LS

theorem steps_true : StepsKeep (S := S) (fun _ _ => True) := fun _ _ _ _ => ⟨trivial, trivial⟩

/-- A tracker whose table is poisoned stops the loop. -/
theorem loop_poisoned {f : GFlushFn S} (hf : ∀ t ev pushed delete sel, PrEnds (fun _ _ => True) (f t ev pushed delete sel)) (boom : Boom S) (p : T) (ev : Event)
    (hd : Handler) (fk : FK S) (ts : List (Tracker S)) (hts : Tracker.auto fk ∈ ts) :
    ∀ st e, e.bad fk.child = true → ∀ a, (gFlushLoop boom f p ev hd ts st e).2 ≠ .ok a := by
  induction ts with
  | nil => cases hts
  | cons tr ts ih =>
    intro st e hb a
    rw [gFlushLoop]
    unfold Pr.andThen
    rcases ex : gFlushStep boom f p ev hd st tr e with ⟨e1, r⟩
    cases r with
    | error q => intro h; cases h
    | ok st' =>
      simp only []
      rcases List.mem_cons.1 hts with rfl | hts
      · exfalso
        unfold gFlushStep at ex
        rw [if_neg (by simp [Tracker.considers])] at ex
        simp only [gTrackerHandle, gSelect, Pr.andThen] at ex
        have hpk : ∃ q, gPeek (S := S) fk.child e = (e, .error q) := by
          unfold gPeek
          split
          · exact ⟨_, rfl⟩
          · first
            | exact ⟨_, rfl⟩
            | (rw [if_pos hb]; exact ⟨_, rfl⟩)
        obtain ⟨q, hpk⟩ := hpk
        rw [hpk] at ex
        injection ex with _ ex
        cases ex
      · have := PrEnds.flushStep steps_true hf boom p ev hd st tr e
        rw [ex] at this
        exact ih hts st' e1 (this.worse _ hb) a

theorem doFlush_poisoned (cfg : Cfg S) (boom : Boom S) (n : Nat) (p : T) (fk : FK S) (hfk : IsFK cfg p fk) (ev : Event) (pushed delete : Bool)
    (changes : Select (List Nat)) (e : PEnv S) (hb : e.bad fk.child = true) (sel : Select (List Nat)) :
    (gDoFlush cfg boom n p ev pushed delete changes e).2 ≠ .ok sel := by
  intro ex
  cases n with
  | zero => rw [gDoFlush] at ex; cases ex
  | succ n =>
    rw [gDoFlush] at ex
    split at ex
    · cases ex
    · cases hh : cfg.handler ev with
      | error q => rw [hh] at ex; cases ex
      | ok hd =>
        rw [hh] at ex
        simp only [Pr.andThen] at ex
        have := loop_poisoned (fun t ev pushed delete sel => PrEnds.doFlush steps_true cfg boom n t ev pushed delete sel) boom p ev hd fk (cfg.trackers p) hfk
          (changes, changes.isAll) e hb
        rcases el : gFlushLoop boom (gDoFlush cfg boom n) p ev hd (cfg.trackers p) (changes, changes.isAll) e with ⟨e2, r⟩
        rw [el] at this ex
        cases r with
        | error q => cases ex
        | ok st => exact this st rfl

theorem flush_poisoned (cfg : Cfg S) (boom : Boom S) (n : Nat) (p : T) (fk : FK S) (hfk : IsFK cfg p fk) (w : W (S p)) (hw : w.changes.isEmpty = false)
    (ev : Event) (e : PEnv S) (hb : e.bad fk.child = true) (a : Unit) : (gFlush cfg boom n p w ev e).2 ≠ .ok a := by
  unfold gFlush
  rw [if_neg (by simp [hw])]
  unfold gTell Pr.andThen
  rcases ex : gDoFlush cfg boom n p ev w.pushed w.delete w.changes { e with env := e.env.unlock p w.tbl } with ⟨e1, r⟩
  cases r with
  | error q => intro h; cases h
  | ok sel =>
    exact absurd (by rw [ex]) (doFlush_poisoned cfg boom n p fk hfk ev w.pushed w.delete w.changes { e with env := e.env.unlock p w.tbl } hb sel)

end

/-- Work under a free lock. -/
theorem work_free {t : T} {work : Cr (S t) Unit} {e : PEnv S} (hr : e.env.reads t = 0) (hw : e.env.writer t = false) (hb : e.bad t = false) :
    gWork t work e = match work (e.env.tbl t) with
      | (x, .ok _) => ({ e with env := e.env.put t x }, .ok ())
      | (x, .error p) => ({ env := e.env.put t x, bad := Function.update e.bad t true }, .error p) := by
  unfold gWork
  rw [if_neg (by simp [hr, hw]), if_neg (by simp [hb])]
  all_goals
    rcases work (e.env.tbl t) with ⟨x, r⟩
    cases r <;> rfl

/-- A flush that removes rows of which not all exist. -/
theorem flush_range {ev : Event} (hst : Standard cfg) (hac : Acyclic cfg rank) (hc : ev.isCreation = false)
    (hr : ev.isRemoval = true) (hh : cfg.handlers[ev.id]? = some .delete) {n : Nat} {p : T} (hn : rank p < n)
    (hp : (S p).kind = .consistent) {w : W (S p)} {e : PEnv S} (hl : Holding e.env p) (hb : ∀ t, e.bad t = false)
    (hrd : Ready key cfg (Function.update e.env.tbl p w.tbl)) {rows : List Nat} (hw : w.changes = .these rows)
    (hpd : (w.pushed && w.delete) = false) (ht : Tame cfg rows) (hlt : ∃ i ∈ rows, w.tbl.len ≤ i) :
    ∃ (rows' : List Nat) (env' : Env S), rows'.Perm rows ∧
      gFlush cfg (fun _ => none) n p w ev e = ({ env := env', bad := Function.update e.bad p true }, .error .assertRow) ∧
      Unlocked env' ∧ Ready key cfg env'.tbl ∧ DependantsGone cfg (Function.update e.env.tbl p w.tbl) env'.tbl p rows ∧
      (∀ i, (env'.tbl p).view i = if i ∈ rows'.takeWhile (· < w.tbl.len) then none else w.tbl.view i) := by
  have hu := hl.unlock w.tbl
  obtain ⟨rows', env1, a1, a2, a3⟩ := doFlush_ok (key := key) hst hac hc hh n p hn w.pushed w.delete rows (e.env.unlock p w.tbl) hpd ht
    (by rw [unlock_tbl]; exact hrd) (hu.free _)
  obtain ⟨-, -, new, -, b⟩ := (ties_doFlush cfg (fun _ => none) n p ev w.pushed w.delete (.these rows)
    { e with env := e.env.unlock p w.tbl } hb).ok _ _ a1
  rw [outcome_never (fun _ => rfl)] at b
  have hsame : env1.tbl p = w.tbl := by rw [a3.same p (le_refl _), unlock_tbl, Function.update_self]
  obtain ⟨c1, c2, c3⟩ := removePrefix a3.ready hst.searchable p hp rows'
  rw [hsame] at c1 c2 c3
  obtain ⟨i, hi, hge⟩ := hlt
  have hne : rows' ≠ [] := by
    intro e0; rw [e0] at a2
    have := a2.mem_iff.2 hi
    cases this
  rw [if_neg (by intro hx; have := hx i (a2.mem_iff.2 hi); omega)] at c3
  refine ⟨rows', env1.put p (Cr.removeSel (.these rows') w.tbl).1, a2, ?_, ?_, ?_, ?_, ?_⟩
  · unfold gFlush
    rw [if_neg (by rw [hw]; simp only [Select.isEmpty]; intro hx; cases rows with | nil => cases hi | cons a l => simp at hx)]
    unfold gTell
    rw [hw, andThen_ok b]
    have he : (ev.isRemoval && !(Select.these rows').isEmpty) = true := by simp [hr, Select.isEmpty, hne]
    simp only [he, if_true]
    rw [work_free (e := { e with env := env1 }) (by show env1.reads p = 0; rw [a3.reads]; exact hu.1 p) (by show env1.writer p = false; rw [a3.writer]; exact hu.2 p) (hb p)]
    simp only [hsame]
    rcases ex : Cr.removeSel (.these rows') w.tbl with ⟨x, r⟩
    rw [ex] at c3
    simp only [] at c3
    subst c3
    rfl
  · exact ⟨fun t => by show env1.reads t = 0; rw [a3.reads]; exact hu.1 t, fun t => by show env1.writer t = false; rw [a3.writer]; exact hu.2 t⟩
  · exact c1
  · exact Post.dependants hst hac hp (by rw [unlock_tbl]; exact hrd) a3 _
  · intro i
    show (Function.update env1.tbl p (Cr.removeSel (.these rows') w.tbl).1 p).view i = _
    rw [Function.update_self]
    exact c2 i

/-! ## Events that remove nothing -/

section
omit LS

/-- Changes no table and poisons no lock. -/
def Idles {α : Type} (x : Pr S α) : Prop := ∀ e, (x e).1.env.tbl = e.env.tbl ∧ (x e).1.bad = e.bad

omit LV in
theorem Idles.andThen {α β : Type} {x : Pr S α} {g : α → Pr S β} (hx : Idles x) (hg : ∀ a, Idles (g a)) : Idles (x.andThen g) := by
  intro e
  unfold Pr.andThen
  have h := hx e
  rcases ex : x e with ⟨e1, r⟩
  rw [ex] at h
  cases r with
  | error p => exact h
  | ok a => exact ⟨(hg a e1).1.trans h.1, (hg a e1).2.trans h.2⟩

theorem Idles.peek (t : T) : Idles (gPeek t : Pr S _) := by
  intro e
  rcases peek_cases t e with h | ⟨q, h⟩ <;> rw [h] <;> exact ⟨rfl, rfl⟩

omit LV in
theorem Idles.underRead {α : Type} {y : Pr S α} (hy : Idles y) (t : T) : Idles (gUnderRead t y) := by
  intro e
  unfold gUnderRead
  split
  · exact ⟨rfl, rfl⟩
  · split
    · exact ⟨rfl, rfl⟩
    · have := hy { e with env := { e.env with reads := Function.update e.env.reads t (e.env.reads t + 1) } }
      rcases ey : y { e with env := { e.env with reads := Function.update e.env.reads t (e.env.reads t + 1) } } with ⟨e1, r⟩
      rw [ey] at this
      cases r <;> exact this

theorem idles_doFlush (cfg : Cfg S) (boom : Boom S) {ev : Event} (hh : cfg.handlers[ev.id]? ≠ some .delete) (n : Nat) :
    ∀ t pushed delete sel, Idles (gDoFlush cfg boom n t ev pushed delete sel) := by
  induction n with
  | zero => intro t pushed delete sel e; exact ⟨rfl, rfl⟩
  | succ n ih =>
    intro t pushed delete sel e
    rw [gDoFlush]
    split
    · exact ⟨rfl, rfl⟩
    · cases hd : cfg.handler ev with
      | error q => exact ⟨rfl, rfl⟩
      | ok h =>
        simp only []
        have hne : h ≠ .delete := by
          rintro rfl
          unfold Cfg.handler at hd
          cases hx : cfg.handlers[ev.id]? with
          | none => rw [hx] at hd; cases hd
          | some h' => rw [hx] at hd; injection hd with hd; subst hd; exact hh hx
        have hrun : ∀ c rows, Idles (gHandlerRun (gDoFlush cfg boom n) h c ev rows) := by
          intro c rows
          unfold gHandlerRun
          refine Idles.andThen ?_ (fun s => Idles.andThen ?_ (fun _ => (ih c _ _ _).underRead c))
          · cases h with
            | delete => exact absurd rfl hne
            | null => intro e; exact ⟨rfl, rfl⟩
            | panicking => intro e; exact ⟨rfl, rfl⟩
          · cases h with
            | delete => exact absurd rfl hne
            | null => intro e; exact ⟨rfl, rfl⟩
            | panicking => intro e; exact ⟨rfl, rfl⟩
        have hhandle : ∀ tr rows, Idles (gTrackerHandle boom (gDoFlush cfg boom n) t tr ev rows h) := by
          intro tr rows
          cases tr with
          | auto fk =>
            unfold gTrackerHandle
            simp only []
            refine Idles.andThen ?_ (fun sel => hrun _ _)
            unfold gSelect
            refine (Idles.peek _).andThen (fun x => ?_)
            intro e
            cases fk.select x rows <;> exact ⟨rfl, rfl⟩
          | observer o =>
            intro e
            unfold gTrackerHandle
            simp only []
            cases boom (e.env.log ++ [⟨t, o.name, ev, rows, e.env.tbl⟩]) <;> exact ⟨rfl, rfl⟩
        have hloop : ∀ (ts : List (Tracker S)) st, Idles (gFlushLoop boom (gDoFlush cfg boom n) t ev h ts st) := by
          intro ts
          induction ts with
          | nil => intro st e; exact ⟨rfl, rfl⟩
          | cons tr ts iht =>
            intro st
            rw [gFlushLoop]
            refine Idles.andThen ?_ (fun st => iht st)
            unfold gFlushStep
            split
            · intro e; exact ⟨rfl, rfl⟩
            · exact (hhandle _ _).andThen (fun _ e => ⟨rfl, rfl⟩)
        exact ((hloop _ _).andThen (fun _ e => ⟨rfl, rfl⟩)) e

end

end V11
