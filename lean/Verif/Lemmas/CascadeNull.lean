import Verif.Lemmas.Cascade

/-!
# Events whose handler does nothing
-/

set_option linter.unusedSimpArgs false
set_option linter.unusedSectionVars false
set_option linter.unusedVariables false

namespace V11
variable {T : Type} [DecidableEq T] {S : T → Schema} [LS : ∀ t, LawfulSchema (S t)]
variable {K : Type} [LinearOrder K] {key : (t : T) → Row (S t) → K} {cfg : Cfg S} {rank : T → Nat}

theorem SelPerm.refl (a : Select (List Nat)) : SelPerm a a := by
  cases a <;> simp [SelPerm]

theorem SelPerm.trans {a b c : Select (List Nat)} (h : SelPerm a b) (h' : SelPerm b c) : SelPerm a c := by
  cases a <;> cases b <;> cases c <;> simp_all [SelPerm]
  exact h.trans h'

theorem SelPerm.sort (a : Select (List Nat)) : SelPerm a.sort a := by
  cases a with
  | all => trivial
  | these l => exact List.perm_insertionSort (· ≤ ·) l

theorem SelSorted.sort (a : Select (List Nat)) : SelSorted a.sort := by
  cases a with
  | all => trivial
  | these l => exact insertionSort_le l

/-- What the trackers `ts` of `p` did: no table changed; observers were told. -/
structure PostNull (rank : T → Nat) (p : T) (sel : Select (List Nat))
    (ts : List (Tracker S)) (ev : Event) (env env' : Env S) : Prop where
  tbl : env'.tbl = env.tbl
  reads : env'.reads = env.reads
  writer : env'.writer = env.writer
  log : ∃ new, env'.log = env.log ++ new ∧
    List.Forall₂ (fun (o : Observer) (c : Call S) => c.name = o.name ∧ c.event = ev ∧ SelPerm c.sel sel ∧
        (o.sort = true → SelSorted c.sel) ∧ c.seen = env.tbl)
      (observers ev ts) (new.filter (fun c => c.table = p)) ∧
    ∀ c ∈ new, c.table ≠ p → rank c.table < rank p

theorem PostNull.trans {p : T} {sel : Select (List Nat)} {ts ts' : List (Tracker S)} {ev : Event} {e1 e2 e3 : Env S}
    (h1 : PostNull rank p sel ts ev e1 e2) (h2 : PostNull rank p sel ts' ev e2 e3) :
    PostNull rank p sel (ts ++ ts') ev e1 e3 where
  tbl := h2.tbl.trans h1.tbl
  reads := h2.reads.trans h1.reads
  writer := h2.writer.trans h1.writer
  log := by
    obtain ⟨n1, a1, b1, c1⟩ := h1.log
    obtain ⟨n2, a2, b2, c2⟩ := h2.log
    refine ⟨n1 ++ n2, by rw [a2, a1, List.append_assoc], ?_, ?_⟩
    · unfold observers at *
      rw [List.filterMap_append, List.filter_append]
      refine List.rel_append b1 ?_
      rw [h1.tbl] at b2
      exact b2
    · intro c hc
      rcases List.mem_append.1 hc with hc | hc
      · exact c1 c hc
      · exact c2 c hc

theorem Standard.searchable (h : Standard cfg) : Searchable cfg := ⟨h.sorted, h.indexed⟩

/-- `f` handles such events on tables below rank `r`. -/
def RecNull (key : (t : T) → Row (S t) → K) (cfg : Cfg S) (rank : T → Nat) (ev : Event) (f : FlushFn S) (r : Nat) : Prop :=
  ∀ p, rank p < r → ∀ pushed delete sel env, (pushed && delete) = false → Ready key cfg env.tbl →
    (∀ t, rank t < rank p → env.writer t = false) → ∃ sel' env', f p ev pushed delete sel env = .ok (sel', env') ∧
      SelPerm sel' sel ∧ PostNull rank p sel (cfg.trackers p) ev env env'

theorem autoHandleNull {ev : Event} (hse : Searchable cfg) (hac : Acyclic cfg rank) {f : FlushFn S}
    (hev : (ev.isCreation && ev.isRemoval) = false)
    (p : T) (hrec : RecNull key cfg rank ev f (rank p)) (fk : FK S) (hfk : IsFK cfg p fk) (sel : Select (List Nat))
    (hs : (S fk.child).kind = .sorted → SelSorted sel) (env : Env S) (h : Ready key cfg env.tbl)
    (hl : ∀ t, rank t < rank p → env.writer t = false) :
    ∃ env', trackerHandle f p (.auto fk) ev sel .null env = .ok env' ∧
      PostNull rank p sel [.auto fk] ev env env' := by
  have hrk : rank fk.child < rank p := hac p fk hfk
  have hw0 := hl fk.child hrk
  obtain ⟨L, hL, hlen⟩ := h.wf fk.child
  obtain ⟨out, o1⟩ : ∃ out, fk.select (env.tbl fk.child) sel = .ok out := by
    cases sel with
    | all => exact ⟨.all, rfl⟩
    | these rows =>
      obtain ⟨out, o1, -⟩ := fkSelect_ok fk hL hlen
        (fun hb => ⟨hse.sorted p fk hfk hb,
          h.inOrder p fk hfk hb L (hL.holds' (by rw [hse.sorted p fk hfk hb]; simp))⟩)
        (hse.indexed p fk hfk) rows hs
      exact ⟨_, o1⟩
  let env2 : Env S := { env with reads := Function.update env.reads fk.child (env.reads fk.child + 1) }
  obtain ⟨sel', env3, b1, b2, b3⟩ := hrec fk.child hrk ev.isCreation ev.isRemoval out env2 hev h
    (fun t ht => hl t (by omega))
  refine ⟨env3.releaseRead fk.child, ?_, ?_⟩
  · unfold trackerHandle
    simp only []
    rw [peek_ok hw0, okBind, o1, okBind]
    unfold handlerRun handlerNeedsSort handlerHandle
    simp only [okBind, Bool.false_eq_true, if_false]
    have : Env.acquireRead env fk.child = .ok env2 := by
      unfold Env.acquireRead
      rw [if_neg (by rw [hw0]; simp)]
    rw [this, okBind, b1, okBind]
  · refine ⟨b3.tbl, ?_, b3.writer, ?_⟩
    · show Function.update env3.reads fk.child (env3.reads fk.child - 1) = env.reads
      rw [b3.reads]
      show Function.update (Function.update env.reads fk.child (env.reads fk.child + 1)) fk.child
        (Function.update env.reads fk.child (env.reads fk.child + 1) fk.child - 1) = env.reads
      simp
    · obtain ⟨new, n1, n2, n3⟩ := b3.log
      have hall : ∀ c ∈ new, rank c.table < rank p := by
        intro c hc
        by_cases e : c.table = fk.child
        · rw [e]; exact hrk
        · have := n3 c hc e; omega
      refine ⟨new, n1, ?_, fun c hc _ => hall c hc⟩
      have : new.filter (fun c => c.table = p) = [] := by
        rw [List.filter_eq_nil_iff]
        intro c hc
        simp only [decide_eq_true_eq]
        intro e
        have := hall c hc
        rw [e] at this; omega
      rw [this]
      exact List.Forall₂.nil

theorem flushLoopNull_ok {ev : Event} (hse : Searchable cfg) (hac : Acyclic cfg rank) {f : FlushFn S}
    (hev : (ev.isCreation && ev.isRemoval) = false)
    (p : T) (hrec : RecNull key cfg rank ev f (rank p)) (ts : List (Tracker S)) (hts : ∀ tr ∈ ts, tr ∈ cfg.trackers p)
    (sel sel0 : Select (List Nat)) (hp : SelPerm sel0 sel) (sorted : Bool) (hs : sorted = true → SelSorted sel0)
    (env : Env S) (h : Ready key cfg env.tbl)
    (hl : ∀ t, rank t < rank p → env.writer t = false) :
    ∃ sel' sorted' env', ts.foldlM (flushStep f p ev .null) ⟨sel0, sorted, env⟩ = .ok ⟨sel', sorted', env'⟩ ∧
      SelPerm sel' sel ∧ PostNull rank p sel ts ev env env' := by
  induction ts generalizing sel0 sorted env with
  | nil => exact ⟨sel0, sorted, env, rfl, hp, rfl, rfl, rfl, [], by simp, List.Forall₂.nil, by simp⟩
  | cons tr ts ih =>
    have step : ∃ sel1 s1 env1, flushStep f p ev .null ⟨sel0, sorted, env⟩ tr = .ok ⟨sel1, s1, env1⟩ ∧
        SelPerm sel1 sel ∧ (s1 = true → SelSorted sel1) ∧ PostNull rank p sel [tr] ev env env1 := by
      unfold flushStep
      by_cases hc : tr.considers ev = false
      · rw [if_pos hc]
        refine ⟨sel0, sorted, env, rfl, hp, hs, rfl, rfl, rfl, [], by simp, ?_, by simp⟩
        cases tr with
        | auto fk => simp [Tracker.considers] at hc
        | observer o =>
          have : observers ev [Tracker.observer (S := S) o] = [] := by
            simp only [Tracker.considers] at hc
            simp [observers, hc]
          rw [this]
          exact List.Forall₂.nil
      · rw [if_neg hc]
        simp only []
        obtain ⟨sel1, s1, e, hp', hs', ht'⟩ : ∃ sel1 s1,
            (if (!sorted && tr.sort) = true then (⟨sel0.sort, true, env⟩ : FlushSt S) else ⟨sel0, sorted, env⟩) =
              ⟨sel1, s1, env⟩ ∧ SelPerm sel1 sel ∧ (s1 = true → SelSorted sel1) ∧ (tr.sort = true → SelSorted sel1) := by
          by_cases hb : (!sorted && tr.sort) = true
          · rw [if_pos hb]
            exact ⟨_, _, rfl, (SelPerm.sort sel0).trans hp, fun _ => SelSorted.sort sel0, fun _ => SelSorted.sort sel0⟩
          · rw [if_neg hb]
            refine ⟨sel0, sorted, rfl, hp, hs, ?_⟩
            intro ht
            cases sorted with
            | true => exact hs rfl
            | false => simp [ht] at hb
        simp only [e]
        cases tr with
        | auto fk =>
          obtain ⟨env', e1, e2⟩ := autoHandleNull hse hac hev p hrec fk (hts _ (by simp)) sel1
            (fun hk => ht' (by simp [Tracker.sort, hk])) env h hl
          rw [e1, okBind]
          refine ⟨sel1, s1, env', rfl, hp', hs', e2.tbl, e2.reads, e2.writer, ?_⟩
          obtain ⟨new, n1, n2, n3⟩ := e2.log
          exact ⟨new, n1, n2.imp (fun o c ⟨a, b, d, e, f⟩ => ⟨a, b, d.trans hp', e, f⟩), n3⟩
        | observer o =>
          unfold trackerHandle
          simp only [okBind]
          refine ⟨sel1, s1, _, rfl, hp', hs', rfl, rfl, rfl, _, rfl, ?_, by simp⟩
          have : observers ev [Tracker.observer (S := S) o] = [o] := by
            simp only [Tracker.considers, Bool.not_eq_false] at hc
            simp [observers, hc]
          rw [this]
          simp only [List.filter_cons, decide_true, if_true, List.filter_nil]
          exact List.Forall₂.cons ⟨rfl, rfl, hp', ht', rfl⟩ List.Forall₂.nil
    obtain ⟨sel1, s1, env1, a1, a2, a3, a4⟩ := step
    rw [List.foldlM_cons, a1, okBind]
    obtain ⟨sel2, s2, env2, b1, b2, b3⟩ := ih (fun t ht => hts t (by simp [ht])) sel1 a2 s1 a3 env1
      (by rw [a4.tbl]; exact h) (by intro t ht; rw [a4.writer]; exact hl t ht)
    exact ⟨sel2, s2, env2, b1, b2, PostNull.trans (ts := [tr]) a4 b3⟩

theorem doFlushNull_ok {ev : Event} (hse : Searchable cfg) (hac : Acyclic cfg rank)
    (hev : (ev.isCreation && ev.isRemoval) = false) (hh : cfg.handlers[ev.id]? = some .null) (n : Nat) :
    RecNull key cfg rank ev (doFlush cfg n) n := by
  induction n with
  | zero => intro p hp; omega
  | succ n ih =>
    intro p hp pushed delete sel env hpd h hl
    unfold doFlush
    rw [if_neg (by rw [hpd, Bool.and_comm ev.isRemoval, hev]; simp)]
    have : cfg.handler ev = .ok .null := by unfold Cfg.handler; rw [hh]
    rw [this, okBind]
    obtain ⟨sel', s, env', e1, e2, e3⟩ := flushLoopNull_ok hse hac hev p (fun q hq => ih q (by omega)) (cfg.trackers p)
      (fun _ h => h) sel sel (SelPerm.refl _) sel.isAll (by cases sel <;> simp [Select.isAll, SelSorted]) env h hl
    refine ⟨sel', env', ?_, e2, e3⟩
    rw [e1, okBind]

end V11
