import Verif.Spec.TrackTie
import Verif.Props.TrackThreads
import Verif.Lemmas.Threads

/-!
# C85: the programs of `Model/Threads` take the locks `Model/TrackThreads` says
-/

set_option linter.unusedSimpArgs false
set_option linter.unusedSectionVars false
set_option linter.unusedVariables false

namespace V11
variable {T : Type} [DecidableEq T] {S : T → Schema} {cfg : Cfg S}

open Prog

theorem traces_bind {α β : Type} {p : Prog S α} {g : α → Prog S β} {as : List (LockAct T)} {b : β} (h : Traces (p >>= g) as b) :
    ∃ as1 a as2, Traces p as1 a ∧ Traces (g a) as2 b ∧ as = as1 ++ as2 := by
  change Traces (p.bind g) as b at h
  induction p generalizing as with
  | ret a => exact ⟨[], a, as, .ret, h, rfl⟩
  | fail q => cases h
  | acq l m k ih => cases h with | acq h => obtain ⟨a1, a, a2, h1, h2, rfl⟩ := ih h; exact ⟨_, a, a2, .acq h1, h2, rfl⟩
  | att t m yes no ih1 ih2 =>
    cases h with
    | attYes h => obtain ⟨a1, a, a2, h1, h2, rfl⟩ := ih1 h; exact ⟨_, a, a2, .attYes h1, h2, rfl⟩
    | attNo h => obtain ⟨a1, a, a2, h1, h2, rfl⟩ := ih2 _ h; exact ⟨_, a, a2, .attNo h1, h2, rfl⟩
  | rel l m k ih => cases h with | rel h => obtain ⟨a1, a, a2, h1, h2, rfl⟩ := ih h; exact ⟨_, a, a2, .rel h1, h2, rfl⟩
  | get t k ih => cases h with | get h => obtain ⟨a1, a, a2, h1, h2, rfl⟩ := ih _ h; exact ⟨_, a, a2, .get h1, h2, rfl⟩
  | put t x k ih => cases h with | put h => obtain ⟨a1, a, a2, h1, h2, rfl⟩ := ih h; exact ⟨_, a, a2, .put h1, h2, rfl⟩
  | getF t k ih => cases h with | getF hf h => obtain ⟨a1, a, a2, h1, h2, rfl⟩ := ih _ h; exact ⟨_, a, a2, .getF hf h1, h2, rfl⟩
  | putF t f k ih => cases h with | putF h => obtain ⟨a1, a, a2, h1, h2, rfl⟩ := ih h; exact ⟨_, a, a2, .putF h1, h2, rfl⟩
  | forget t k ih => cases h with | forget h => obtain ⟨a1, a, a2, h1, h2, rfl⟩ := ih h; exact ⟨_, a, a2, .forget h1, h2, rfl⟩
  | see p o ev rows k ih => cases h with | see h => obtain ⟨a1, a, a2, h1, h2, rfl⟩ := ih h; exact ⟨_, a, a2, .see h1, h2, rfl⟩

theorem traces_ofR {α : Type} {x : R α} {as : List (LockAct T)} {a : α} (h : Traces (S := S) (ofR x) as a) : as = [] := by
  cases x with
  | ok y => cases h; rfl
  | error q => cases h

theorem traces_peek {t : T} {as : List (LockAct T)} {x : Tbl (S t)} (h : Traces (peekP t) as x) :
    as = [.acq (.tbl t) .rd, .rel (.tbl t) .rd] := by
  unfold peekP at h
  cases h with | acq h => cases h with | get h => cases h with | rel h => cases h; rfl

theorem traces_lock {l : Lk T} {m : Mode} {as : List (LockAct T)} {u : Unit} (h : Traces (S := S) (lock l m) as u) : as = [.acq l m] := by
  unfold lock at h
  cases h with | acq h => cases h; rfl

theorem traces_unlock {l : Lk T} {m : Mode} {as : List (LockAct T)} {u : Unit} (h : Traces (S := S) (unlock l m) as u) : as = [.rel l m] := by
  unfold unlock at h
  cases h with | rel h => cases h; rfl

theorem traces_lockP {t : T} {as : List (LockAct T)} {w : W (S t)} (h : Traces (lockP t) as w) :
    as = [.acq (.tbl t) .wr] ∧ ∃ x, w = W.lock x := by
  unfold lockP at h
  cases h with | acq h => cases h with | get h => cases h; exact ⟨rfl, _, rfl⟩

theorem traces_unlockP {t : T} {x : Tbl (S t)} {as : List (LockAct T)} {u : Unit} (h : Traces (unlockP t x) as u) : as = [.rel (.tbl t) .wr] := by
  unfold unlockP at h
  cases h with | put h => cases h with | rel h => cases h; rfl

/-- One program after another. -/
theorem TkLocks.append {X : Type} {trk : T → List X} {Code : T → X → List (TkOp T X) → Prop} {k1 k2 : List (TkAct T X)}
    {a1 a2 : List (LockAct T)} (h1 : TkLocks trk Code k1 a1) (h2 : TkLocks trk Code k2 a2) : TkLocks trk Code (k1 ++ k2) (a1 ++ a2) := by
  induction h1 with
  | nil => exact h2
  | acq _ ih => exact .acq ih
  | rel _ ih => exact .rel ih
  | enter _ ih => exact .enter ih
  | tell hx hc _ ih => exact .tell hx hc (by simpa using ih)
  | leave hx _ ih => exact .leave hx ih

/-- What is to be shown of `do_flush`: it takes the locks the loop over the trackers takes; the guard on the list is dropped after it. -/
def FlushLocks (cfg : Cfg S) (f : FlushProg S) : Prop :=
  ∀ t ev a b sel as r, Traces (f t ev a b sel) as r → TkLocks cfg.trackers (DerivedCode cfg) [.iter 0 t 0] (as ++ [.rel (.fl t) .rd])

theorem FlushLocks.enter {f : FlushProg S} (hf : FlushLocks cfg f) {t : T} {ev : Event} {a b : Bool} {sel r : Select (List Nat)}
    {as : List (LockAct T)} (h : Traces (f t ev a b sel) as r) :
    TkLocks cfg.trackers (DerivedCode cfg) [.enter t] (.acq (.fl t) .rd :: as ++ [.rel (.fl t) .rd]) := .enter (hf t ev a b sel as r h)

theorem traces_flushWith {f : FlushProg S} (hf : FlushLocks cfg f) {t : T} {w : W (S t)} {ev : Event} {as : List (LockAct T)}
    (h : Traces (flushWithP f t w ev) as ()) :
    (w.changes.isEmpty = true → as = [.rel (.tbl t) .wr]) ∧
      (w.changes.isEmpty = false → ∃ rm, (rm = true → ev.isRemoval = true) ∧ TkLocks cfg.trackers (DerivedCode cfg) (TkOp.flush t rm).acts as) := by
  unfold flushWithP at h
  by_cases he : w.changes.isEmpty = true
  · rw [if_pos he] at h
    exact ⟨fun _ => traces_unlockP h, fun h => by rw [he] at h; cases h⟩
  · rw [if_neg he] at h
    refine ⟨fun h => absurd h he, fun _ => ?_⟩
    replace h := traces_bind h; obtain ⟨a1, _, a2, h1, h, rfl⟩ := h
    replace h := traces_bind h; obtain ⟨a3, _, a4, h3, h, rfl⟩ := h
    replace h := traces_bind h; obtain ⟨a5, ch, a6, h5, h, rfl⟩ := h
    replace h := traces_bind h; obtain ⟨a7, _, a8, h7, h, rfl⟩ := h
    rw [traces_unlockP h1, traces_lock h3, traces_unlock h7]
    have hen : TkLocks cfg.trackers (DerivedCode cfg) [.rel t .wr, .enter t] ([.rel (.tbl t) .wr] ++ ([.acq (.fl t) .rd] ++ (a5 ++ [.rel (.fl t) .rd]))) :=
      .rel (by simpa using hf.enter h5)
    by_cases hb : (ev.isRemoval && !ch.isEmpty) = true
    · rw [if_pos hb] at h
      replace h := traces_bind h; obtain ⟨b1, w', b2, g1, h, rfl⟩ := h
      replace h := traces_bind h; obtain ⟨b3, x, b4, g3, h, rfl⟩ := h
      rw [(traces_lockP g1).1, traces_ofR g3, traces_unlockP h]
      refine ⟨true, fun _ => by simp only [Bool.and_eq_true] at hb; exact hb.1, ?_⟩
      have := hen.append (k2 := [.acq t .wr, .rel t .wr]) (.acq (.rel .nil))
      simpa [TkOp.acts] using this
    · rw [if_neg hb] at h
      cases h
      refine ⟨false, (fun h => by cases h), ?_⟩
      simpa [TkOp.acts] using hen

theorem traces_removeRows {f : FlushProg S} (hf : FlushLocks cfg f) {t : T} {ev : Event} {rows : Select (List Nat)} {as : List (LockAct T)}
    (h : Traces (tableRemoveRowsP f t ev rows) as ()) :
    ∃ all : Option Bool, TkLocks cfg.trackers (DerivedCode cfg)
      (tkActs ([.lock t .wr] ++ (match all with | some rm => [.flush t rm] | none => [.unlock t .wr]))) as := by
  have hall : ∀ (w' : W (S t)) (as : List (LockAct T)), Traces (flushWithP f t w' ev) as () →
      ∃ all : Option Bool, TkLocks cfg.trackers (DerivedCode cfg)
        (tkActs ([.lock t .wr] ++ (match all with | some rm => [.flush t rm] | none => [.unlock t .wr]))) ([.acq (.tbl t) .wr] ++ as) := by
    intro w' as h
    by_cases he : w'.changes.isEmpty = true
    · rw [(traces_flushWith hf h).1 he]
      exact ⟨none, .acq (.rel .nil)⟩
    · obtain ⟨rm, -, h2⟩ := (traces_flushWith hf h).2 (by simpa using he)
      exact ⟨some rm, by simpa [tkActs, TkOp.acts] using TkLocks.acq (t := t) (m := .wr) h2⟩
  unfold tableRemoveRowsP at h
  split at h
  · replace h := traces_bind h; obtain ⟨a1, w, a2, h1, h, rfl⟩ := h
    obtain ⟨hl, hw⟩ := traces_lockP h1
    rw [hl]
    split at h
    · replace h := traces_bind h; obtain ⟨a3, x, a4, h3, h, rfl⟩ := h
      rw [traces_ofR h3, List.nil_append]
      exact hall _ _ h
    · replace h := traces_bind h; obtain ⟨a3, x, a4, h3, h, rfl⟩ := h
      replace h := traces_bind h; obtain ⟨a5, w', a6, h5, h, rfl⟩ := h
      rw [traces_ofR h3, traces_ofR h5, List.nil_append, List.nil_append]
      exact hall w' _ h
  · replace h := traces_bind h; obtain ⟨a1, w, a2, h1, h, rfl⟩ := h
    obtain ⟨hl, hw⟩ := traces_lockP h1
    rw [hl]
    split at h
    · replace h := traces_bind h; obtain ⟨a3, x, a4, h3, h, rfl⟩ := h
      rw [traces_ofR h3, List.nil_append]
      exact hall _ _ h
    · replace h := traces_bind h; obtain ⟨a3, x, a4, h3, h, rfl⟩ := h
      replace h := traces_bind h; obtain ⟨a5, w', a6, h5, h, rfl⟩ := h
      rw [traces_ofR h3, traces_ofR h5, List.nil_append, List.nil_append]
      exact hall w' _ h
  · cases h

theorem traces_auto {f : FlushProg S} (hf : FlushLocks cfg f) {p : T} {fk : FK S} {ev : Event} {rows : Select (List Nat)} {hd : Handler}
    {as : List (LockAct T)} (h : Traces (trackerHandleP f p (.auto fk) ev rows hd) as ()) :
    ∃ all, TkLocks cfg.trackers (DerivedCode cfg) (tkActs (autoOps hd fk.child all)) as := by
  unfold trackerHandleP at h
  simp only [] at h
  replace h := traces_bind h; obtain ⟨a1, x, a2, h1, h, rfl⟩ := h
  replace h := traces_bind h; obtain ⟨a3, sel, a4, h3, h, rfl⟩ := h
  rw [traces_peek h1, traces_ofR h3]
  unfold handlerRunP at h
  replace h := traces_bind h; obtain ⟨b1, s, b2, h1', h, rfl⟩ := h
  replace h := traces_bind h; obtain ⟨b3, _, b4, h3', h, rfl⟩ := h
  replace h := traces_bind h; obtain ⟨b5, _, b6, h5, h, rfl⟩ := h
  replace h := traces_bind h; obtain ⟨b7, _, b8, h7, h, rfl⟩ := h
  replace h := traces_bind h; obtain ⟨b9, r, b10, h9, h, rfl⟩ := h
  replace h := traces_bind h; obtain ⟨b11, _, b12, h11, h, rfl⟩ := h
  rw [traces_lock h5, traces_lock h7, traces_unlock h11, traces_unlock h]
  have hrun : TkLocks cfg.trackers (DerivedCode cfg) (TkOp.run fk.child).acts
      ([.acq (.tbl fk.child) .rd] ++ ([.acq (.fl fk.child) .rd] ++ (b9 ++ ([.rel (.fl fk.child) .rd] ++ [.rel (.tbl fk.child) .rd])))) := by
    refine .acq ?_
    have := (hf.enter h9).append (k2 := [.rel fk.child .rd]) (.rel .nil)
    simpa using this
  cases hd with
  | null =>
    cases h1'
    cases h3'
    refine ⟨none, ?_⟩
    have : TkLocks cfg.trackers (DerivedCode cfg) _ _ := .acq (t := fk.child) (m := .rd) (.rel (t := fk.child) (m := .rd) hrun)
    simpa [tkActs, autoOps, TkOp.acts] using this
  | panicking =>
    unfold handlerHandleP at h3'
    cases h3'
  | delete =>
    unfold handlerNeedsSortP at h1'
    replace h1' := traces_bind h1'; obtain ⟨c1, y, c2, g1, g2, rfl⟩ := h1'
    cases g2
    unfold handlerHandleP at h3'
    replace h3' := traces_bind h3'; obtain ⟨c3, y, c4, g3, g4, rfl⟩ := h3'
    rw [traces_peek g1, traces_peek g3]
    obtain ⟨all, hrm⟩ := traces_removeRows hf g4
    refine ⟨all, ?_⟩
    have h2 := hrm.append hrun
    have : TkLocks cfg.trackers (DerivedCode cfg) _ _ := .acq (t := fk.child) (m := .rd) (.rel (t := fk.child) (m := .rd)
      (.acq (t := fk.child) (m := .rd) (.rel (t := fk.child) (m := .rd) (.acq (t := fk.child) (m := .rd) (.rel (t := fk.child) (m := .rd) h2)))))
    cases all <;> simpa [tkActs, autoOps, TkOp.acts] using this

theorem doFlushP_traces (cfg : Cfg S) (n : Nat) : FlushLocks cfg (doFlushP cfg n) := by
  induction n with
  | zero => intro t ev a b sel as r h; cases h
  | succ n ih =>
    intro t ev a b sel as r h
    unfold doFlushP at h
    by_cases hb : ((a && b) || (ev.isRemoval && ev.isCreation)) = true
    · rw [if_pos hb] at h; cases h
    rw [if_neg hb] at h
    replace h := traces_bind h; obtain ⟨a1, hd, a2, h1, h, rfl⟩ := h
    replace h := traces_bind h; obtain ⟨a3, st, a4, h3, h, rfl⟩ := h
    cases h
    rw [traces_ofR h1]
    have key : ∀ (ts pre : List (Tracker S)) (st st' : Select (List Nat) × Bool) (as : List (LockAct T)), cfg.trackers t = pre ++ ts →
        Traces (ts.foldlM (flushStepP (doFlushP cfg n) t ev hd) st) as st' →
        TkLocks cfg.trackers (DerivedCode cfg) [.iter 0 t pre.length] (as ++ [.rel (.fl t) .rd]) := by
      intro ts
      induction ts with
      | nil =>
        intro pre st st' as hp h
        cases h
        exact .leave (by rw [hp]; simp) .nil
      | cons tr ts ih' =>
        intro pre st st' as hp h
        rw [List.foldlM_cons] at h
        replace h := traces_bind h; obtain ⟨a5, st1, a6, h5, h, rfl⟩ := h
        have hrest := ih' (pre ++ [tr]) st1 st' a6 (by rw [hp]; simp) h
        rw [List.length_append, List.length_singleton] at hrest
        have hat : (cfg.trackers t)[pre.length]? = some tr := by rw [hp]; simp
        have hone : ∃ ops, DerivedCode cfg t tr ops ∧ TkLocks cfg.trackers (DerivedCode cfg) (tkActs ops) a5 := by
          unfold flushStepP at h5
          by_cases hc : tr.considers ev = false
          · rw [if_pos hc] at h5
            cases h5
            cases tr with
            | auto fk => cases hc
            | observer o => exact ⟨[], rfl, .nil⟩
          · rw [if_neg hc] at h5
            simp only [] at h5
            replace h5 := traces_bind h5; obtain ⟨a7, _, a8, h7, h8, rfl⟩ := h5
            cases h8
            cases tr with
            | observer o =>
              unfold trackerHandleP at h7
              cases h7 with
              | see h7 => cases h7; exact ⟨[], rfl, .nil⟩
            | auto fk =>
              obtain ⟨all, h9⟩ := traces_auto ih h7
              exact ⟨_, Or.inl ⟨by unfold IsFK; rw [hp]; simp, hd, all, rfl⟩, by simpa using h9⟩
        obtain ⟨ops, hc, ho⟩ := hone
        refine .tell hat hc ?_
        rw [List.append_assoc]
        exact ho.append hrest
    simpa using key (cfg.trackers t) [] _ _ _ rfl h3

/-- C85: a flush that comes to its end has taken and dropped exactly the locks `Model/TrackThreads` says, in that order, whatever it has
seen in the tables: of the flush itself, of every tracker it has called, and of the flushes those have begun. -/
theorem C85_flush_locks (cfg : Cfg S) (n : Nat) (t : T) (w : W (S t)) (ev : Event) (as : List (LockAct T))
    (hw : w.changes.isEmpty = false) (h : Traces (flushP cfg n t w ev) as ()) :
    ∃ rm, (rm = true → ev.isRemoval = true) ∧ TkLocks cfg.trackers (DerivedCode cfg) (tkActs [.flush t rm]) as := by
  obtain ⟨rm, h1, h2⟩ := (traces_flushWith (doFlushP_traces cfg n) h).2 hw
  exact ⟨rm, h1, by simpa [tkActs] using h2⟩

/-- C85: likewise a flush with nothing to tell, which only drops its guard, -/
theorem C85_flush_nothing_locks (cfg : Cfg S) (n : Nat) (t : T) (w : W (S t)) (ev : Event) (as : List (LockAct T))
    (hw : w.changes.isEmpty = true) (h : Traces (flushP cfg n t w ev) as ()) :
    TkLocks cfg.trackers (DerivedCode cfg) (tkActs [.unlock t .wr]) as := by
  rw [(traces_flushWith (doFlushP_traces cfg n) h).1 hw]
  exact .rel .nil

/-- C85: `live_flush`, -/
theorem C85_live_flush_locks (cfg : Cfg S) (n : Nat) (t : T) (w w' : W (S t)) (ev : Event) (as : List (LockAct T))
    (hw : w.changes.isEmpty = false) (h : Traces (liveFlushP cfg n t w ev) as w') :
    TkLocks cfg.trackers (DerivedCode cfg) (tkActs [.liveFlush t]) as := by
  unfold liveFlushP at h
  rw [if_neg (by simp [hw])] at h
  cases h with
  | put h =>
    replace h := traces_bind h; obtain ⟨a1, _, a2, h1, h, rfl⟩ := h
    replace h := traces_bind h; obtain ⟨a3, ch, a4, h3, h, rfl⟩ := h
    replace h := traces_bind h; obtain ⟨a5, x, a6, h5, h, rfl⟩ := h
    rw [traces_lock h1, traces_ofR h5]
    cases h with
    | put h =>
      cases h with
      | getF hf h =>
        simp only [hf, Bool.false_eq_true, if_false] at h
        cases h with
        | rel h =>
          cases h
          exact .enter (by simpa using doFlushP_traces cfg n _ _ _ _ _ _ _ h3)

/-- C85: and selecting through a read lock. -/
theorem C85_select_locks (cfg : Cfg S) (n : Nat) (t : T) (ev : Event) (sel : Select (List Nat)) (as : List (LockAct T))
    (h : Traces (readSelectP cfg n t ev sel) as ()) :
    TkLocks cfg.trackers (DerivedCode cfg) (tkActs [.select t]) as := by
  unfold readSelectP at h
  replace h := traces_bind h; obtain ⟨a1, _, a2, h1, h, rfl⟩ := h
  replace h := traces_bind h; obtain ⟨a3, _, a4, h3, h, rfl⟩ := h
  replace h := traces_bind h; obtain ⟨a5, ch, a6, h5, h, rfl⟩ := h
  rw [traces_unlock h1, traces_lock h3, traces_unlock h]
  exact .rel (.enter (by simpa using doFlushP_traces cfg n _ _ _ _ _ _ _ h5))

/-- C85: in an acyclic graph these trackers keep the order of the tables' ranks, so everything in C85 about code that keeps an order
is about them. -/
theorem C85_derived_code {rank : T → Nat} (hac : Acyclic cfg rank) :
    CodeInOrder (byRank rank) (DerivedCode cfg) ∧ ∀ t x, ∃ ops, DerivedCode cfg t x ops := by
  constructor
  · intro t x ops h
    have hnil : TkOrder (byRank rank) [] ([] : List (TkOp T (Tracker S))) ∧
        ∀ op ∈ ([] : List (TkOp T (Tracker S))), ∀ l ∈ op.asks, byRank rank l < byRank rank (.fl t) := ⟨rfl, by simp⟩
    cases x with
    | observer o => cases h; exact hnil
    | auto fk =>
      rcases h with ⟨hfk, hd, all, rfl⟩ | ⟨-, rfl⟩
      · exact C85_derived (fun t c => ∃ fk, IsFK cfg t fk ∧ c = fk.child) rank (by rintro t c ⟨fk, h, rfl⟩; exact hac t fk h) t (Tracker.auto fk) _
          ⟨hd, fk.child, all, ⟨fk, hfk, rfl⟩, rfl⟩
      · exact hnil
  · intro t x
    cases x with
    | observer o => exact ⟨[], rfl⟩
    | auto fk =>
      by_cases hfk : IsFK cfg t fk
      · exact ⟨_, Or.inl ⟨hfk, .null, none, rfl⟩⟩
      · exact ⟨[], Or.inr ⟨hfk, rfl⟩⟩

/-! ## A concrete case -/

/-- Flushing a table with one dependant, whose handler does nothing. -/
example (cfg : Cfg S) (t : T) (fk : FK S) (ev : Event) (w : W (S t)) (x : Tbl (S fk.child)) (sel : Select (List Nat)) (ht : cfg.trackers t = [.auto fk])
    (hc : cfg.trackers fk.child = []) (hns : (S fk.child).kind ≠ .sorted) (hw : w.changes.isEmpty = false) (hr : ev.isRemoval = false)
    (hpd : (w.pushed && w.delete) = false) (hh : cfg.handlers[ev.id]? = some .null) (hsel : fk.select x w.changes = .ok sel) :
    Traces (flushP cfg 2 t w ev) [.rel (.tbl t) .wr, .acq (.fl t) .rd, .acq (.tbl fk.child) .rd, .rel (.tbl fk.child) .rd, .acq (.tbl fk.child) .rd,
      .acq (.fl fk.child) .rd, .rel (.fl fk.child) .rd, .rel (.tbl fk.child) .rd, .rel (.fl t) .rd] () := by
  have hhd : cfg.handler ev = .ok .null := by unfold Cfg.handler; rw [hh]
  unfold flushP flushWithP
  rw [if_neg (by simp [hw])]
  refine .put (.rel (.acq ?_))
  unfold doFlushP
  rw [if_neg (by simp [hpd, hr]), hhd, ht]
  change Traces (Prog.bind _ _) _ _
  simp only [List.foldlM_cons, List.foldlM_nil, flushStepP, Tracker.considers, Bool.true_eq_false, if_false, Tracker.sort, hns, decide_false,
    Bool.and_false, Bool.false_eq_true, trackerHandleP]
  refine .acq (.get (x := x) (.rel ?_))
  simp only [hsel, ofR, handlerRunP, handlerNeedsSortP, handlerHandleP, Bind.bind, Prog.bind, lock, unlock, pure, Bool.false_eq_true, if_false]
  refine .acq (.acq ?_)
  unfold doFlushP
  rw [if_neg (by simp [hr]), hhd, hc]
  simp only [List.foldlM_nil, ofR, Bind.bind, Prog.bind, pure, hr, Bool.false_and, Bool.false_eq_true, if_false]
  exact .rel (.rel (.rel .ret))

end V11
