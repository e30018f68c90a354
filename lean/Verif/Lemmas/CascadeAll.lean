import Verif.Lemmas.Cascade

/-!
# The cascade of `clear`, and events that remove nothing
-/

set_option linter.unusedSimpArgs false
set_option linter.unusedSectionVars false
set_option linter.unusedVariables false

namespace V11
variable {T : Type} [DecidableEq T] {S : T → Schema} [LS : ∀ t, LawfulSchema (S t)]
variable {K : Type} [LinearOrder K] {key : (t : T) → Row (S t) → K} {cfg : Cfg S} {rank : T → Nat}

/-- `t` is `c` or depends on it. -/
def AtOrBelow (cfg : Cfg S) (t c : T) : Prop := t = c ∨ DependsOn cfg t c

theorem atOrBelow_rank (hac : Acyclic cfg rank) {t c : T} (h : AtOrBelow cfg t c) : rank t ≤ rank c := by
  rcases h with rfl | h
  · exact le_refl _
  · induction h with
    | direct h => exact le_of_lt (hac _ _ h)
    | step h _ ih => exact le_trans ih (le_of_lt (hac _ _ h))

/-- What can be said of one table across such a cascade: its history goes on, and a table without deleted
rows has none afterwards. -/
def Evolves {S : Schema} {K : Type} [LinearOrder K] (key : Row S → K) (x x' : Tbl S) : Prop :=
  (Reach key false x → Reach key false x') ∧
  (Reach key true x → (∀ i < x.len, x.contains i = true) → Reach key true x' ∧ ∀ i < x'.len, x'.contains i = true) ∧
  (x.len = 0 → x'.len = 0)

theorem Evolves.refl {S : Schema} (key : Row S → K) (x : Tbl S) : Evolves key x x := ⟨id, fun a b => ⟨a, b⟩, id⟩

theorem Evolves.trans {S : Schema} {key : Row S → K} {x y z : Tbl S} (h1 : Evolves key x y) (h2 : Evolves key y z) :
    Evolves key x z :=
  ⟨fun h => h2.1 (h1.1 h), fun h h' => h2.2.1 (h1.2.1 h h').1 (h1.2.1 h h').2, fun h => h2.2.2 (h1.2.2 h)⟩

theorem clearRaw_evolves {S : Schema} [LS : LawfulSchema S] {key : Row S → K} {x : Tbl S} (h : Reach key false x) :
    ∃ x', x.clearRaw = .ok x' ∧ x'.len = 0 ∧ Evolves key x x' := by
  obtain ⟨L, d, ha⟩ := h.aligned
  obtain ⟨x', h1, h2, h3⟩ := ha.clearRaw
  have hl : x'.len = 0 := by rw [h3.rep.len]; rfl
  refine ⟨x', h1, hl, ⟨fun _ => ?_, fun hr hc => ⟨?_, by simp [hl]⟩, fun _ => hl⟩⟩
  · exact Reach.step (op := .clearRaw) h trivial (by simp) h1
  · exact Reach.step (op := .clearRaw) hr trivial (fun _ _ => hc) h1

/-- What the trackers `ts` of `p` did when everything was selected. -/
structure PostAll (key : (t : T) → Row (S t) → K) (cfg : Cfg S) (rank : T → Nat) (p : T)
    (ts : List (Tracker S)) (ev : Event) (env env' : Env S) : Prop where
  evolves : ∀ t, Evolves (key t) (env.tbl t) (env'.tbl t)
  empty : ∀ fk, Tracker.auto fk ∈ ts → ∀ t, AtOrBelow cfg t fk.child → (env'.tbl t).len = 0
  keep : ∀ t, (∀ fk, Tracker.auto fk ∈ ts → ¬ AtOrBelow cfg t fk.child) → env'.tbl t = env.tbl t
  reads : env'.reads = env.reads
  writer : env'.writer = env.writer
  log : ∃ new, env'.log = env.log ++ new ∧
    List.Forall₂ (fun (o : Observer) (c : Call S) => c.name = o.name ∧ c.event = ev ∧ c.sel = .all ∧ c.seen p = env.tbl p)
      (observers ev ts) (new.filter (fun c => c.table = p)) ∧
    ∀ c ∈ new, c.table ≠ p → rank c.table < rank p

theorem PostAll.same (hac : Acyclic cfg rank) {p : T} {ts : List (Tracker S)} (hts : ∀ tr ∈ ts, tr ∈ cfg.trackers p)
    {ev : Event} {e1 e2 : Env S} (h : PostAll key cfg rank p ts ev e1 e2) {t : T} (ht : rank p ≤ rank t) :
    e2.tbl t = e1.tbl t := by
  refine h.keep t (fun fk hfk hb => ?_)
  have := atOrBelow_rank hac hb
  have := hac p fk (hts _ hfk)
  omega

theorem PostAll.nil (p : T) (ev : Event) (env : Env S) : PostAll key cfg rank p [] ev env env where
  evolves _ := Evolves.refl _ _
  empty := by simp
  keep _ _ := rfl
  reads := rfl
  writer := rfl
  log := ⟨[], by simp, List.Forall₂.nil, by simp⟩

theorem PostAll.trans (hac : Acyclic cfg rank) {p : T} {ts ts' : List (Tracker S)} (hts : ∀ tr ∈ ts, tr ∈ cfg.trackers p)
    {ev : Event} {e1 e2 e3 : Env S}
    (h1 : PostAll key cfg rank p ts ev e1 e2) (h2 : PostAll key cfg rank p ts' ev e2 e3) :
    PostAll key cfg rank p (ts ++ ts') ev e1 e3 where
  evolves t := (h1.evolves t).trans (h2.evolves t)
  empty fk hm t ht := by
    rcases List.mem_append.1 hm with hm | hm
    · exact (h2.evolves t).2.2 (h1.empty fk hm t ht)
    · exact h2.empty fk hm t ht
  keep t ht := (h2.keep t (fun fk hm => ht fk (by simp [hm]))).trans (h1.keep t (fun fk hm => ht fk (by simp [hm])))
  reads := h2.reads.trans h1.reads
  writer := h2.writer.trans h1.writer
  log := by
    obtain ⟨n1, a1, b1, c1⟩ := h1.log
    obtain ⟨n2, a2, b2, c2⟩ := h2.log
    refine ⟨n1 ++ n2, by rw [a2, a1, List.append_assoc], ?_, ?_⟩
    · unfold observers at *
      rw [List.filterMap_append, List.filter_append]
      refine List.rel_append b1 ?_
      rw [h1.same hac hts (le_refl _)] at b2
      exact b2
    · intro c hc
      rcases List.mem_append.1 hc with hc | hc
      · exact c1 c hc
      · exact c2 c hc

/-- `f` handles clearing of tables below rank `r`. -/
def RecAll (key : (t : T) → Row (S t) → K) (cfg : Cfg S) (rank : T → Nat) (ev : Event) (f : FlushFn S) (r : Nat) : Prop :=
  ∀ p, rank p < r → ∀ pushed delete env, (pushed && delete) = false → (∀ t, Reach (key t) false (env.tbl t)) →
    FreeBelow rank env (rank p) → ∃ env', f p ev pushed delete .all env = .ok (.all, env') ∧
      PostAll key cfg rank p (cfg.trackers p) ev env env'

/-- One foreign_auto tracker. -/
theorem autoHandleAll {ev : Event} (hst : Standard cfg) (hac : Acyclic cfg rank) {f : FlushFn S} (hev : ev.isCreation = false)
    (hrm : ev.isRemoval = true)
    (p : T) (hrec : RecAll key cfg rank ev f (rank p)) (fk : FK S) (hfk : IsFK cfg p fk) (env : Env S)
    (h : ∀ t, Reach (key t) false (env.tbl t)) (hl : FreeBelow rank env (rank p)) :
    ∃ env', trackerHandle f p (.auto fk) ev .all .delete env = .ok env' ∧
      PostAll key cfg rank p [.auto fk] ev env env' := by
  have hrk : rank fk.child < rank p := hac p fk hfk
  obtain ⟨hr0, hw0⟩ := hl fk.child hrk
  obtain ⟨x, x1, x2, x3⟩ := clearRaw_evolves (h fk.child)
  have hne : ∀ t, rank t < rank fk.child → t ≠ fk.child := by rintro t ht rfl; omega
  have hsub : ∀ tr ∈ cfg.trackers fk.child, tr ∈ cfg.trackers fk.child := fun _ h => h
  -- the effect of `remove_rows(All)`
  have hev1 : ∀ t, Evolves (key t) (env.tbl t) ((env.put fk.child x).tbl t) := by
    intro t
    show Evolves (key t) (env.tbl t) (Function.update env.tbl fk.child x t)
    by_cases e : t = fk.child
    · subst e; simpa using x3
    · rw [Function.update_of_ne e]; exact Evolves.refl _ _
  have step1 : ∃ env1, tableRemoveRows f fk.child ev .all env = .ok env1 ∧ (env1.tbl fk.child).len = 0 ∧
      (∀ t, Evolves (key t) (env.tbl t) (env1.tbl t)) ∧
      (∀ t, ¬ AtOrBelow cfg t fk.child → env1.tbl t = env.tbl t) ∧ env1.reads = env.reads ∧ env1.writer = env.writer ∧
      ∃ new, env1.log = env.log ++ new ∧ ∀ c ∈ new, rank c.table ≤ rank fk.child := by
    rcases hst.child p fk hfk with hk | hk
    · let env1 : Env S := env.put fk.child x
      have hfb : FreeBelow rank env1 (rank fk.child) := fun t ht => hl t (by omega)
      obtain ⟨env2, b1, b2⟩ := hrec fk.child hrk false true env1 rfl (fun t => (hev1 t).1 (h t)) hfb
      have hsame := b2.same hac hsub (le_refl (rank fk.child))
      have h2 : (env2.tbl fk.child) = x := by rw [hsame]; show Function.update env.tbl fk.child x fk.child = x; simp
      have hr2 : Reach (key fk.child) false (env2.tbl fk.child) := (b2.evolves _).1 ((hev1 _).1 (h _))
      obtain ⟨y, y1, y2, y3⟩ := clearRaw_evolves hr2
      have hr' : env2.reads fk.child = 0 := by rw [b2.reads]; exact hr0
      have hw' : env2.writer fk.child = false := by rw [b2.writer]; exact hw0
      refine ⟨env2.put fk.child y, ?_, ?_, ?_, ?_, b2.reads, b2.writer, ?_⟩
      · unfold tableRemoveRows
        rw [hk]
        simp only []
        rw [lock_ok hr0 hw0, okBind]
        simp only [W.lock]
        rw [x1, okBind]
        unfold W.clear
        rw [hk]
        simp only [okBind]
        unfold flushWith
        simp only [Select.isEmpty, Bool.false_eq_true, if_false]
        rw [unlock_lock hw0, b1, okBind]
        simp only [hrm, Select.isEmpty, Bool.not_false, Bool.and_self, if_true]
        rw [lock_ok hr' hw', okBind]
        simp only [W.lock, Tbl.removeSel]
        rw [y1, okBind, unlock_lock hw']
      · show (Function.update env2.tbl fk.child y fk.child).len = 0
        simpa using y2
      · intro t
        refine ((hev1 t).trans (b2.evolves t)).trans ?_
        show Evolves (key t) (env2.tbl t) (Function.update env2.tbl fk.child y t)
        by_cases e : t = fk.child
        · subst e; simpa using y3
        · rw [Function.update_of_ne e]; exact Evolves.refl _ _
      · intro t ht
        have e : t ≠ fk.child := fun e => ht (Or.inl e)
        show Function.update env2.tbl fk.child y t = env.tbl t
        rw [Function.update_of_ne e, b2.keep t (fun fk' hm hb => ?_)]
        · show Function.update env.tbl fk.child x t = env.tbl t
          rw [Function.update_of_ne e]
        · apply ht
          right
          rcases hb with rfl | hb
          · exact DependsOn.direct hm
          · exact DependsOn.step hm hb
      · obtain ⟨new, n1, n2, n3⟩ := b2.log
        refine ⟨new, n1, ?_⟩
        intro c hc
        by_cases e : c.table = fk.child
        · rw [e]
        · exact le_of_lt (n3 c hc e)
    · refine ⟨env.put fk.child x, ?_, ?_, hev1, ?_, rfl, rfl, [], by simp [Env.put], by simp⟩
      · unfold tableRemoveRows
        rw [hk]
        simp only []
        rw [lock_ok hr0 hw0, okBind]
        simp only [W.lock]
        rw [x1, okBind]
        unfold W.clear
        rw [hk]
        simp only [okBind]
        rw [flushWith_empty rfl]
        simp only []
        rw [unlock_lock hw0]
      · show (Function.update env.tbl fk.child x fk.child).len = 0
        simpa using x2
      · intro t ht
        have e : t ≠ fk.child := fun e => ht (Or.inl e)
        show Function.update env.tbl fk.child x t = env.tbl t
        rw [Function.update_of_ne e]
  obtain ⟨env1, c1, c2, c3, c4, c5, c6, c7⟩ := step1
  let env2 : Env S := { env1 with reads := Function.update env1.reads fk.child (env1.reads fk.child + 1) }
  have hfb : FreeBelow rank env2 (rank fk.child) := by
    intro t ht
    refine ⟨?_, ?_⟩
    · show Function.update env1.reads fk.child _ t = 0
      rw [Function.update_of_ne (hne t ht), c5]
      exact (hl t (by omega)).1
    · show env1.writer t = false
      rw [c6]
      exact (hl t (by omega)).2
  obtain ⟨env3, d1, d2⟩ := hrec fk.child hrk ev.isCreation ev.isRemoval env2 (by simp [hev]) (fun t => (c3 t).1 (h t)) hfb
  refine ⟨env3.releaseRead fk.child, ?_, ?_⟩
  · unfold trackerHandle
    simp only []
    rw [peek_ok hw0, okBind]
    unfold FK.select
    simp only [okBind]
    unfold handlerRun handlerNeedsSort
    simp only []
    rw [peek_ok hw0, okBind, okBind]
    have : (if decide ((S fk.child).kind = Kind.sorted) = true then (Select.all : Select (List Nat)).sort else Select.all) = .all := by
      split <;> rfl
    rw [this]
    unfold handlerHandle
    simp only []
    rw [peek_ok hw0, okBind, c1, okBind]
    have : Env.acquireRead env1 fk.child = .ok env2 := by
      unfold Env.acquireRead
      rw [if_neg (by rw [c6, hw0]; simp)]
    rw [this, okBind, d1, okBind]
  · refine ⟨fun t => (c3 t).trans (d2.evolves t), ?_, ?_, ?_, ?_, ?_⟩
    · intro fk' hm t ht
      have e : fk' = fk := by simpa using hm
      subst e
      show (env3.tbl t).len = 0
      rcases ht with rfl | ht
      · exact (d2.evolves _).2.2 c2
      · cases ht with
        | direct hd => exact d2.empty _ hd _ (Or.inl rfl)
        | step hd hd' => exact d2.empty _ hd _ (Or.inr hd')
    · intro t ht
      have hb := ht fk (by simp)
      show env3.tbl t = env.tbl t
      rw [d2.keep t (fun fk' hm hb' => hb ?_)]
      · exact c4 t hb
      · right
        rcases hb' with rfl | hb'
        · exact DependsOn.direct hm
        · exact DependsOn.step hm hb'
    · show Function.update env3.reads fk.child (env3.reads fk.child - 1) = env.reads
      rw [d2.reads]
      show Function.update (Function.update env1.reads fk.child (env1.reads fk.child + 1)) fk.child
        (Function.update env1.reads fk.child (env1.reads fk.child + 1) fk.child - 1) = env.reads
      rw [← c5]
      simp
    · show env3.writer = env.writer
      rw [d2.writer]; exact c6
    · obtain ⟨n1, a1, b1⟩ := c7
      obtain ⟨n2, a2, b2, b2'⟩ := d2.log
      have hall : ∀ c ∈ n1 ++ n2, rank c.table < rank p := by
        intro c hc
        rcases List.mem_append.1 hc with hc | hc
        · have := b1 c hc; omega
        · by_cases e : c.table = fk.child
          · rw [e]; exact hrk
          · have := b2' c hc e; omega
      refine ⟨n1 ++ n2, ?_, ?_, fun c hc _ => hall c hc⟩
      · show env3.log = _
        rw [a2]
        show env1.log ++ n2 = _
        rw [a1, List.append_assoc]
      · have : (n1 ++ n2).filter (fun c => c.table = p) = [] := by
          rw [List.filter_eq_nil_iff]
          intro c hc
          simp only [decide_eq_true_eq]
          intro e
          have := hall c hc
          rw [e] at this; omega
        rw [this]
        exact List.Forall₂.nil

theorem flushLoopAll_ok {ev : Event} (hst : Standard cfg) (hac : Acyclic cfg rank) {f : FlushFn S} (hev : ev.isCreation = false)
    (hrm : ev.isRemoval = true)
    (p : T) (hrec : RecAll key cfg rank ev f (rank p)) (ts : List (Tracker S)) (hts : ∀ tr ∈ ts, tr ∈ cfg.trackers p)
    (env : Env S) (h : ∀ t, Reach (key t) false (env.tbl t)) (hl : FreeBelow rank env (rank p)) :
    ∃ env', ts.foldlM (flushStep f p ev .delete) ⟨.all, true, env⟩ = .ok ⟨.all, true, env'⟩ ∧
      PostAll key cfg rank p ts ev env env' := by
  induction ts generalizing env with
  | nil => exact ⟨env, rfl, PostAll.nil p ev env⟩
  | cons tr ts ih =>
    have step : ∃ env1, flushStep f p ev .delete ⟨.all, true, env⟩ tr = .ok ⟨.all, true, env1⟩ ∧
        PostAll key cfg rank p [tr] ev env env1 := by
      unfold flushStep
      by_cases hc : tr.considers ev = false
      · rw [if_pos hc]
        refine ⟨env, rfl, ?_⟩
        cases tr with
        | auto fk => simp [Tracker.considers] at hc
        | observer o =>
          refine ⟨fun _ => Evolves.refl _ _, by simp, fun _ _ => rfl, rfl, rfl, [], by simp, ?_, by simp⟩
          have : observers ev [Tracker.observer (S := S) o] = [] := by
            simp only [Tracker.considers] at hc
            simp [observers, hc]
          rw [this]
          exact List.Forall₂.nil
      · rw [if_neg hc]
        simp only [Bool.not_true, Bool.false_and, Bool.false_eq_true, if_false]
        cases tr with
        | auto fk =>
          obtain ⟨env', e1, e2⟩ := autoHandleAll hst hac hev hrm p hrec fk (hts _ (by simp)) env h hl
          rw [e1, okBind]
          exact ⟨env', rfl, e2⟩
        | observer o =>
          unfold trackerHandle
          simp only [okBind]
          refine ⟨_, rfl, fun _ => Evolves.refl _ _, by simp, fun _ _ => rfl, rfl, rfl, _, rfl, ?_, by simp⟩
          have : observers ev [Tracker.observer (S := S) o] = [o] := by
            simp only [Tracker.considers, Bool.not_eq_false] at hc
            simp [observers, hc]
          rw [this]
          simp only [List.filter_cons, decide_true, if_true, List.filter_nil]
          exact List.Forall₂.cons ⟨rfl, rfl, rfl, rfl⟩ List.Forall₂.nil
    obtain ⟨env1, a1, a2⟩ := step
    rw [List.foldlM_cons, a1, okBind]
    obtain ⟨env2, b1, b2⟩ := ih (fun t ht => hts t (by simp [ht])) env1 (fun t => (a2.evolves t).1 (h t)) (by
      intro t ht
      rw [a2.reads, a2.writer]
      exact hl t ht)
    exact ⟨env2, b1, PostAll.trans hac (ts := [tr]) (fun t ht => hts t (by simp at ht; simp [ht])) a2 b2⟩

/-- `do_flush` of a clear with enough stack. -/
theorem doFlushAll_ok {ev : Event} (hst : Standard cfg) (hac : Acyclic cfg rank) (hev : ev.isCreation = false)
    (hrm : ev.isRemoval = true) (hh : cfg.handlers[ev.id]? = some .delete) (n : Nat) :
    RecAll key cfg rank ev (doFlush cfg n) n := by
  induction n with
  | zero => intro p hp; omega
  | succ n ih =>
    intro p hp pushed delete env hpd h hl
    unfold doFlush
    rw [if_neg (by simp [hpd, hev])]
    have : cfg.handler ev = .ok .delete := by unfold Cfg.handler; rw [hh]
    rw [this, okBind]
    obtain ⟨env', e1, e2⟩ := flushLoopAll_ok hst hac hev hrm p (fun q hq => ih q (by omega)) (cfg.trackers p) (fun _ h => h) env h hl
    refine ⟨env', ?_, e2⟩
    have hsel : (Select.all : Select (List Nat)).isAll = true := rfl
    rw [hsel, e1, okBind]

end V11
