import Verif.Lemmas.FlushFail
import Verif.Lemmas.Reach
import Verif.Lemmas.Remove

/-!
# What a flush leaves, whether it panics or not
-/

set_option linter.unusedSimpArgs false
set_option linter.unusedSectionVars false
set_option linter.unusedVariables false

namespace V11
variable {T : Type} [DecidableEq T] {S : T → Schema} {α β : Type}

/-- What holds of a flush wherever it ends, given a property `P` of tables that the removal steps keep. -/
structure Ends (P : (t : T) → Tbl (S t) → Prop) (e e' : PEnv S) (r : R α) : Prop where
  reads : e'.env.reads = e.env.reads
  writer : e'.env.writer = e.env.writer
  log : e.env.log <+: e'.env.log
  worse : ∀ t, e.bad t = true → e'.bad t = true
  calm : ∀ a, r = .ok a → e'.bad = e.bad
  one : ∀ s t, e'.bad s = true → e.bad s = false → e'.bad t = true → e.bad t = false → s = t
  frozen : ∀ t, e.bad t = true ∨ e.env.writer t = true → e'.env.tbl t = e.env.tbl t
  keeps : ∀ t, P t (e.env.tbl t) → P t (e'.env.tbl t)

/-- Everywhere. -/
def PrEnds (P : (t : T) → Tbl (S t) → Prop) (x : Pr S α) : Prop := ∀ e, Ends P e (x e).1 (x e).2

variable {P : (t : T) → Tbl (S t) → Prop}

theorem Ends.same (e : PEnv S) (r : R α) : Ends P e e r where
  reads := rfl
  writer := rfl
  log := List.prefix_rfl
  worse _ h := h
  calm _ _ := rfl
  one s t h1 h2 := by rw [h1] at h2; cases h2
  frozen _ _ := rfl
  keeps _ h := h

theorem Ends.trans {e1 e2 e3 : PEnv S} {a : α} {r : R β} (h1 : Ends P e1 e2 (.ok a)) (h2 : Ends P e2 e3 r) : Ends P e1 e3 r where
  reads := h2.reads.trans h1.reads
  writer := h2.writer.trans h1.writer
  log := h1.log.trans h2.log
  worse t h := h2.worse t (h1.worse t h)
  calm b hb := (h2.calm b hb).trans (h1.calm a rfl)
  one s t a1 a2 a3 a4 := by
    have := h1.calm a rfl
    rw [← this] at a2 a4
    exact h2.one s t a1 a2 a3 a4
  frozen t h := (h2.frozen t (h.imp (h1.worse t) (fun hw => by rw [h1.writer]; exact hw))).trans (h1.frozen t h)
  keeps t h := h2.keeps t (h1.keeps t h)

theorem Ends.err {e1 e2 : PEnv S} {p : Panic} (h : Ends P e1 e2 (.error p : R α)) : Ends P e1 e2 (.error p : R β) where
  reads := h.reads
  writer := h.writer
  log := h.log
  worse := h.worse
  calm b hb := by cases hb
  one := h.one
  frozen := h.frozen
  keeps := h.keeps

theorem PrEnds.andThen {x : Pr S α} {g : α → Pr S β} (hx : PrEnds P x) (hg : ∀ a, PrEnds P (g a)) : PrEnds P (x.andThen g) := by
  intro e
  unfold Pr.andThen
  have h := hx e
  rcases ex : x e with ⟨e1, r⟩
  rw [ex] at h
  cases r with
  | error p => exact h.err
  | ok a => exact h.trans (hg a e1)

theorem PrEnds.ret (a : α) : PrEnds P (Pr.ret a : Pr S α) := fun e => Ends.same e _

theorem PrEnds.fail (p : Panic) : PrEnds P (Pr.fail p : Pr S α) := fun e => Ends.same e _

theorem PrEnds.peek (t : T) : PrEnds P (gPeek t : Pr S _) := by
  intro e
  unfold gPeek
  split
  · exact Ends.same _ _
  · split
    · exact Ends.same _ _
    · exact Ends.same _ _

variable [∀ t, LeavesSchema (S t)]

theorem PrEnds.work {t : T} {work : Cr (S t) Unit} (h : ∀ x, P t x → P t (work x).1) : PrEnds P (gWork t work) := by
  intro e
  unfold gWork
  split
  · exact Ends.same _ _
  · rename_i hwr
    split
    · exact Ends.same _ _
    · rename_i hb
      rcases ew : work (e.env.tbl t) with ⟨x, r⟩
      have hk : ∀ s, P s (e.env.tbl s) → P s (Function.update e.env.tbl t x s) := by
        intro s hp
        by_cases hs : s = t
        · subst hs
          rw [Function.update_self]
          have := h _ hp
          rwa [ew] at this
        · rw [Function.update_of_ne hs]; exact hp
      have hf : ∀ s, e.bad s = true ∨ e.env.writer s = true → Function.update e.env.tbl t x s = e.env.tbl s := by
        intro s hs
        have : s ≠ t := by
          rintro rfl
          rcases hs with hs | hs
          · exact hb hs
          · exact hwr (Or.inr hs)
        rw [Function.update_of_ne this]
      cases r with
      | ok a =>
        exact ⟨rfl, rfl, List.prefix_rfl, fun _ h => h, fun _ _ => rfl,
          fun s t h1 h2 => (by simp only [] at h1; rw [h1] at h2; cases h2), hf, hk⟩
      | error p =>
        refine ⟨rfl, rfl, List.prefix_rfl, ?_, (fun _ h => by cases h), ?_, hf, hk⟩
        · intro s hs
          by_cases hst : s = t
          · subst hst; exact Function.update_self ..
          · simp only [Function.update_of_ne hst]; exact hs
        · intro s s' h1 h2 h3 h4
          have hx : ∀ s, Function.update e.bad t true s = true → e.bad s = false → s = t := by
            intro s h1 h2
            by_contra hst
            rw [Function.update_of_ne hst] at h1
            rw [h1] at h2; cases h2
          rw [hx s h1 h2, hx s' h3 h4]

/-- The removal steps keep `P`. -/
def StepsKeep (P : (t : T) → Tbl (S t) → Prop) : Prop :=
  ∀ t sel x, P t x → P t (Cr.removeSel sel x).1 ∧ P t (gRemovePart t sel x).1

section
variable {x : GFlushFn S} (hP : StepsKeep P) (h : ∀ t ev pushed delete sel, PrEnds P (x t ev pushed delete sel))
include hP h

theorem PrEnds.tell (t : T) (pushed delete : Bool) (changes : Select (List Nat)) (ev : Event) : PrEnds P (gTell x t pushed delete changes ev) := by
  unfold gTell
  refine (h t ev pushed delete changes).andThen (fun changes => ?_)
  split
  · exact PrEnds.work (fun y hy => (hP t changes y hy).1)
  · exact PrEnds.ret ()

theorem PrEnds.tableRemoveRows (t : T) (ev : Event) (rows : Select (List Nat)) : PrEnds P (gTableRemoveRows x t ev rows) := by
  unfold gTableRemoveRows
  split
  · refine (PrEnds.work (fun y hy => (hP t rows y hy).2)).andThen (fun _ => ?_)
    split
    · exact PrEnds.tell hP h t false true .all ev
    · exact PrEnds.ret ()
  · exact PrEnds.fail _

theorem PrEnds.handlerHandle (hd : Handler) (t : T) (ev : Event) (rows : Select (List Nat)) : PrEnds P (gHandlerHandle x hd t ev rows) := by
  cases hd with
  | null => exact PrEnds.ret ()
  | delete => exact (PrEnds.peek t).andThen (fun _ => PrEnds.tableRemoveRows hP h t ev rows)
  | panicking => exact PrEnds.fail _

omit hP h in
theorem PrEnds.underRead {y : Pr S α} (hy : PrEnds P y) (t : T) : PrEnds P (gUnderRead t y) := by
  intro e
  unfold gUnderRead
  split
  · exact Ends.same _ _
  · split
    · exact Ends.same _ _
    · have := hy { e with env := { e.env with reads := Function.update e.env.reads t (e.env.reads t + 1) } }
      rcases ey : y { e with env := { e.env with reads := Function.update e.env.reads t (e.env.reads t + 1) } } with ⟨e1, r⟩
      rw [ey] at this
      have hr : (e1.env.releaseRead t).reads = e.env.reads := by
        have h1 : e1.env.reads = Function.update e.env.reads t (e.env.reads t + 1) := this.reads
        unfold Env.releaseRead
        simp only [h1, Function.update_idem, Function.update_self, Nat.add_sub_cancel, Function.update_eq_self]
      cases r with
      | ok a => exact ⟨hr, this.writer, this.log, this.worse, (fun b _ => this.calm a rfl), this.one, this.frozen, this.keeps⟩
      | error p => exact ⟨hr, this.writer, this.log, this.worse, (fun b hb => by cases hb), this.one, this.frozen, this.keeps⟩

theorem PrEnds.handlerRun (hd : Handler) (t : T) (ev : Event) (rows : Select (List Nat)) : PrEnds P (gHandlerRun x hd t ev rows) := by
  unfold gHandlerRun
  refine PrEnds.andThen ?_ (fun s => (PrEnds.handlerHandle hP h hd t ev _).andThen (fun _ => PrEnds.underRead (h t ev _ _ _) t))
  unfold gNeedsSort
  cases hd with
  | null => exact PrEnds.ret _
  | delete => exact (PrEnds.peek t).andThen (fun _ => PrEnds.ret _)
  | panicking => exact PrEnds.ret _

theorem PrEnds.trackerHandle (boom : Boom S) (p : T) (tr : Tracker S) (ev : Event) (rows : Select (List Nat)) (hd : Handler) :
    PrEnds P (gTrackerHandle boom x p tr ev rows hd) := by
  cases tr with
  | auto fk =>
    refine PrEnds.andThen ?_ (fun sel => PrEnds.handlerRun hP h hd fk.child ev sel)
    unfold gSelect
    refine (PrEnds.peek fk.child).andThen (fun y => ?_)
    split
    · exact PrEnds.ret _
    · exact PrEnds.fail _
  | observer o =>
    intro e
    unfold gTrackerHandle
    simp only []
    cases boom (e.env.log ++ [⟨p, o.name, ev, rows, e.env.tbl⟩]) with
    | none =>
      exact ⟨rfl, rfl, List.prefix_append _ _, fun _ h => h, fun _ _ => rfl,
        fun s t h1 h2 => (by simp only [] at h1; rw [h1] at h2; cases h2), fun _ _ => rfl, fun _ h => h⟩
    | some q =>
      exact ⟨rfl, rfl, List.prefix_append _ _, fun _ h => h, fun _ _ => rfl,
        fun s t h1 h2 => (by simp only [] at h1; rw [h1] at h2; cases h2), fun _ _ => rfl, fun _ h => h⟩

theorem PrEnds.flushStep (boom : Boom S) (p : T) (ev : Event) (hd : Handler) (st : Select (List Nat) × Bool) (tr : Tracker S) :
    PrEnds P (gFlushStep boom x p ev hd st tr) := by
  unfold gFlushStep
  split
  · exact PrEnds.ret _
  · exact (PrEnds.trackerHandle hP h boom p tr ev _ hd).andThen (fun _ => PrEnds.ret _)

theorem PrEnds.flushLoop (boom : Boom S) (p : T) (ev : Event) (hd : Handler) (ts : List (Tracker S)) :
    ∀ st, PrEnds P (gFlushLoop boom x p ev hd ts st) := by
  induction ts with
  | nil => exact fun st => PrEnds.ret _
  | cons tr ts ih => exact fun st => (PrEnds.flushStep hP h boom p ev hd st tr).andThen ih

end

theorem PrEnds.doFlush (hP : StepsKeep P) (cfg : Cfg S) (boom : Boom S) (n : Nat) :
    ∀ t ev pushed delete sel, PrEnds P (gDoFlush cfg boom n t ev pushed delete sel) := by
  induction n with
  | zero => intro t ev pushed delete sel; exact PrEnds.fail _
  | succ n ih =>
    intro t ev pushed delete sel
    rw [gDoFlush]
    split
    · exact PrEnds.fail _
    · split
      · exact PrEnds.fail _
      · exact (PrEnds.flushLoop hP ih boom t ev _ _ _).andThen (fun _ => PrEnds.ret _)

/-- The whole flush, seen from where its lock has been released. -/
theorem flush_ends (hP : StepsKeep P) (cfg : Cfg S) (boom : Boom S) (n : Nat) (t : T) (w : W (S t)) (ev : Event) (e : PEnv S) :
    Ends P { e with env := e.env.unlock t w.tbl } (gFlush cfg boom n t w ev e).1 (gFlush cfg boom n t w ev e).2 := by
  unfold gFlush
  split
  · exact Ends.same _ _
  · exact PrEnds.tell hP (PrEnds.doFlush hP cfg boom n) t _ _ _ ev _

/-! ## The removal steps -/

section
variable {S : Schema} [LS : LawfulSchema S] [LV : LeavesSchema S] {K : Type} [LinearOrder K] {key : Row S → K}

/-- The loop that deletes consistent rows, up to its panic. -/
theorem deleteLoop_left {t : Tbl S} {L : List (Row S)} {d : Nat → Prop} (h : Aligned t L d) (hk : S.kind = .consistent) (rows : List Nat) :
    ∃ x, t.deleteLoop L.length (rows.takeWhile (· < L.length)) = .ok x ∧
      Cr.deleteLoop L.length rows t = (x, if (∀ i ∈ rows, i < L.length) then .ok () else .error .assertRow) := by
  induction rows generalizing t d with
  | nil => exact ⟨t, rfl, rfl⟩
  | cons r rs ih =>
    by_cases hr : r < L.length
    · obtain ⟨t1, e1, e2, e3⟩ := h.deleteRaw_consistent hk hr
      obtain ⟨x, x1, x2⟩ := ih e3
      refine ⟨x, ?_, ?_⟩
      · rw [List.takeWhile_cons_of_pos (by simpa using hr)]
        unfold Tbl.deleteLoop at x1 ⊢
        rw [List.foldlM_cons, if_pos hr, e1, okBind]
        exact x1
      · have e1' : Cr.deleteRaw r t = (t1, .ok ()) := out_ok.1 (by rw [out_deleteRaw, e1]; rfl)
        unfold Cr.deleteLoop
        rw [if_pos hr]
        show (Cr.andThen (Cr.deleteRaw r) fun _ => Cr.deleteLoop L.length rs) t = _
        unfold Cr.andThen
        rw [e1']
        simp only []
        rw [x2]
        simp [hr]
    · refine ⟨t, ?_, ?_⟩
      · rw [List.takeWhile_cons_of_neg (by simpa using hr)]; rfl
      · unfold Cr.deleteLoop
        rw [if_neg hr]
        have : ¬ ∀ i ∈ r :: rs, i < L.length := fun h => hr (h r (by simp))
        rw [if_neg this]; rfl

/-- Selected rows are removed up to the first that does not exist. -/
theorem removeSel_left {t : Tbl S} {L : List (Row S)} {d : Nat → Prop} (h : Aligned t L d) (hk : S.kind = .consistent) (rows : List Nat) :
    ∃ x, t.removeSel (.these (rows.takeWhile (· < t.len))) = .ok x ∧
      Cr.removeSel (.these rows) t = (x, if (∀ i ∈ rows, i < t.len) then .ok () else .error .assertRow) := by
  have hl : t.len = L.length := h.rep.len
  obtain ⟨x, x1, x2⟩ := deleteLoop_left h hk rows
  refine ⟨x, ?_, ?_⟩
  · unfold Tbl.removeSel; simp only []; rw [hl]; exact x1
  · show Cr.deleteLoop t.len rows t = _
    rw [hl]; exact x2

/-- Sorted rows are removed all or none. -/
theorem removeRows_left {t : Tbl S} {L : List (Row S)} (h : WF t L) (hf : t.free = []) (ids : List Nat) {x : Tbl S} {p : Panic}
    (hr : Cr.removeRows ids t = (x, .error p)) : x = t := by
  cases ids with
  | nil => cases hr
  | cons r rs =>
    by_cases hp : (r :: rs).Pairwise (· < ·)
    · by_cases hl : ∀ i ∈ r :: rs, i < L.length
      · obtain ⟨t', e, -⟩ := (removeRows_ok h hf (r :: rs)).1 hp hl
        have := out_removeRows (r :: rs) t
        rw [e] at this
        rw [out_ok.1 (this : (Cr.removeRows (r :: rs)).out t = .ok (t', ()))] at hr
        cases hr
      · have hlast : ¬ ((r :: rs).getLast?).getD 0 < t.len := by
          intro hlt
          have hoob := (removeRows_ok h hf (r :: rs)).2.2 hp hl
          refine hl (fun i hi => ?_)
          have hd := List.dropLast_append_getLast (l := r :: rs) (by simp)
          rw [List.getLast?_eq_some_getLast (by simp)] at hlt
          simp only [Option.getD_some] at hlt
          rw [← h.len]
          rw [← hd] at hi hp
          rcases List.mem_append.1 hi with hi | hi
          · have := (List.pairwise_append.1 hp).2.2 i hi _ (List.mem_singleton.2 rfl)
            omega
          · simp only [List.mem_singleton] at hi
            omega
        unfold Cr.removeRows at hr
        simp only [removeCheck_start, if_pos hp] at hr
        have : (Cr.fail .removeOob : Cr S Unit) t = (x, .error p) := by
          rw [← hr]
          show _ = (if ((r :: rs).getLast?).getD 0 < t.len then _ else Cr.fail .removeOob : Cr S Unit) t
          rw [if_neg hlast]
        injection this with h1 h2
        exact h1.symm
    · unfold Cr.removeRows at hr
      simp only [removeCheck_start, if_neg hp] at hr
      injection hr with h1 h2
      exact h1.symm

/-- The loop of a bag, up to its panic. -/
theorem bagLoop_left {t : Tbl S} {L : List (Row S)} (h : WF t L) (hk : S.kind = .bag) (len : Nat) (rows : List Nat) :
    ∃ pre, t.deleteLoop len pre = .ok (Cr.deleteLoop len rows t).1 := by
  induction rows generalizing t L with
  | nil => exact ⟨[], rfl⟩
  | cons r rs ih =>
    by_cases hr : r < len
    · by_cases hne : L = []
      · subst hne
        refine ⟨[], ?_⟩
        have hl : t.len = 0 := by rw [h.len]; rfl
        have e1 : Cr.deleteRaw r t = (t, .error .subOverflow) := by
          unfold Cr.deleteRaw
          simp only [hk]
          show (Cr.andThen (Cr.look fun t => .ok t.len) fun len => if len = 0 then Cr.fail .subOverflow else _) t = _
          unfold Cr.andThen Cr.look
          simp only [hl, if_true]
          rfl
        unfold Cr.deleteLoop
        rw [if_pos hr]
        show _ = Except.ok ((Cr.andThen (Cr.deleteRaw r) fun _ => Cr.deleteLoop len rs) t).1
        unfold Cr.andThen
        rw [e1]
        rfl
      · obtain ⟨t1, e1, e2⟩ := h.deleteRaw_bag hk (i := r) hne
        obtain ⟨pre, hpre⟩ := ih e2
        refine ⟨r :: pre, ?_⟩
        have e1' : Cr.deleteRaw r t = (t1, .ok ()) := out_ok.1 (by rw [out_deleteRaw, e1]; rfl)
        have : Cr.deleteLoop len (r :: rs) t = Cr.deleteLoop len rs t1 := by
          rw [Cr.deleteLoop, if_pos hr]
          show (Cr.andThen (Cr.deleteRaw r) fun _ => Cr.deleteLoop len rs) t = _
          unfold Cr.andThen
          rw [e1']
        rw [this, ← hpre]
        unfold Tbl.deleteLoop
        rw [List.foldlM_cons, if_pos hr, e1, okBind]
    · refine ⟨[], ?_⟩
      rw [Cr.deleteLoop, if_neg hr]; rfl

/-- Tables that others than consistent and bag delete nothing from. -/
theorem noLoop_left (t : Tbl S) (hk : S.kind ≠ .consistent) (hk' : S.kind ≠ .bag) (len : Nat) (rows : List Nat) :
    (Cr.deleteLoop len rows t).1 = t := by
  cases rows with
  | nil => rfl
  | cons r rs =>
    rw [Cr.deleteLoop]
    split
    · have e1 : Cr.deleteRaw r t = (t, .error .badDelete) := by
        unfold Cr.deleteRaw
        cases hx : S.kind with
        | consistent => exact absurd hx hk
        | bag => exact absurd hx hk'
        | _ => rfl
      show ((Cr.andThen (Cr.deleteRaw r) fun _ => Cr.deleteLoop len rs) t).1 = t
      unfold Cr.andThen
      rw [e1]
    · rfl

/-- Emptying a table does not panic. -/
theorem clearRaw_left {c : Bool} {t : Tbl S} (h : Reach key c t) (hc : c = true → ∀ i < t.len, t.contains i = true) :
    Reach key c (Cr.clearRaw t).1 := by
  obtain ⟨L, d, hL⟩ := h.aligned
  obtain ⟨t', e1, -, -⟩ := hL.clearRaw
  have := out_ok.1 (by rw [out_clearRaw, e1]; rfl : (Cr.clearRaw (S := S)).out t = .ok (t', ()))
  rw [this]
  exact Reach.step (op := .clearRaw) h trivial (fun h1 _ => hc h1) e1

/-- Wherever the removal of selected rows stops, an operation that returns leads to the same table. -/
theorem removeThese_reach {c : Bool} {t : Tbl S} (h : Reach key c t) (rows : List Nat) : Reach key c (Cr.removeSel (.these rows) t).1 := by
  have e : (Cr.removeSel (.these rows) t).1 = (Cr.deleteLoop t.len rows t).1 := rfl
  by_cases hk : S.kind = .consistent
  · obtain ⟨L, d, hL⟩ := h.aligned
    obtain ⟨x, x1, x2⟩ := removeSel_left hL hk rows
    rw [x2]
    exact Reach.step (op := .remove (.these (rows.takeWhile (· < t.len)))) h trivial (by simp [TOp.clears]) x1
  · rw [e]
    by_cases hb : S.kind = .bag
    · obtain ⟨L, -, hL, -⟩ := h.holds hk
      obtain ⟨pre, hpre⟩ := bagLoop_left hL hb t.len rows
      exact Reach.step (op := .remove (.these pre)) h trivial (by simp [TOp.clears]) hpre
    · rw [noLoop_left t hk hb]; exact h

theorem removeSorted_reach {c : Bool} {t : Tbl S} (h : Reach key c t) (hk : S.kind = .sorted) (rows : List Nat) :
    Reach key c (Cr.removeRows rows t).1 := by
  obtain ⟨L, -, hL, hf⟩ := h.holds (by rw [hk]; simp)
  rcases e : Cr.removeRows rows t with ⟨x, r⟩
  cases r with
  | error p => rw [removeRows_left hL hf rows e]; exact h
  | ok a =>
    refine Reach.step (op := .removeRows rows) h hk (by simp [TOp.clears]) (?_ : t.removeRows rows = .ok x)
    have := out_removeRows rows t
    rw [out_ok.2 e] at this
    cases hr : t.removeRows rows with
    | error p => rw [hr] at this; cases this
    | ok y =>
      rw [hr] at this
      injection this with this; injection this with this
      rw [this]

end

section
variable [LS : ∀ t, LawfulSchema (S t)] {K : Type} [LinearOrder K] {key : (t : T) → Row (S t) → K}

omit LS in
theorem removePart_cases (t : T) (sel : Select (List Nat)) :
    ((S t).kind = .consistent ∧ ∃ rows, sel = .these rows ∧ gRemovePart (S := S) t sel = Cr.removeSel (.these rows)) ∨
    ((S t).kind = .sorted ∧ ∃ rows, sel = .these rows ∧ gRemovePart (S := S) t sel = Cr.removeRows rows) ∨
    (sel = .all ∧ gRemovePart (S := S) t sel = Cr.clearRaw) ∨ gRemovePart (S := S) t sel = Cr.fail .notRemovable := by
  unfold gRemovePart
  cases sel with
  | all => exact Or.inr (Or.inr (Or.inl ⟨rfl, by cases (S t).kind <;> rfl⟩))
  | these rows =>
    cases hk : (S t).kind with
    | consistent => exact Or.inl ⟨rfl, rows, rfl, rfl⟩
    | sorted => exact Or.inr (Or.inl ⟨rfl, rows, rfl, rfl⟩)
    | _ => exact Or.inr (Or.inr (Or.inr rfl))

/-- Tables that public operations lead to. -/
theorem steps_reach : StepsKeep (fun t (x : Tbl (S t)) => Reach (key t) false x) := by
  intro t sel x h
  have hs : Reach (key t) false (Cr.removeSel sel x).1 := by
    cases sel with
    | all => exact clearRaw_left h (by simp)
    | these rows => exact removeThese_reach h rows
  refine ⟨hs, ?_⟩
  show Reach (key t) false _
  rcases removePart_cases (S := S) t sel with ⟨-, rows, -, e⟩ | ⟨hk, rows, -, e⟩ | ⟨-, e⟩ | e <;> rw [e]
  · exact removeThese_reach h _
  · exact removeSorted_reach h hk _
  · exact clearRaw_left h (by simp)
  · exact h

omit LS in
/-- Tables that panics have been through. -/
theorem steps_salvaged : StepsKeep (fun t (x : Tbl (S t)) => Salvaged (key t) x) := by
  intro t sel x h
  refine ⟨h.step (op := .remove sel) trivial, ?_⟩
  show Salvaged (key t) _
  rcases removePart_cases (S := S) t sel with ⟨-, rows, -, e⟩ | ⟨hk, rows, -, e⟩ | ⟨-, e⟩ | e <;> rw [e]
  · exact h.step (op := .remove (.these rows)) trivial
  · exact h.step (op := .removeRows rows) hk
  · exact h.step (op := .clearRaw) trivial
  · exact h

end

end V11
