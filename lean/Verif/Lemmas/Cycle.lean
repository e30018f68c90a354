import Verif.Lemmas.CascadeAll
import Verif.Lemmas.CascadeNull
import Mathlib.Data.Fintype.Card

/-!
# Cascades in graphs that may have cycles: a flush returns, waits for itself or exhausts the stack
-/

set_option linter.unusedSimpArgs false
set_option linter.unusedSectionVars false
set_option linter.unusedVariables false

namespace V11
variable {T : Type} [DecidableEq T] {S : T → Schema} [LS : ∀ t, LawfulSchema (S t)]
variable {K : Type} [LinearOrder K] {key : (t : T) → Row (S t) → K} {cfg : Cfg S} {rank : T → Nat}

/-! ## Deleting rows -/

/-- The tables this thread does not read-lock. -/
def Env.free [Fintype T] (env : Env S) : Finset T := Finset.univ.filter (fun t => env.reads t = 0)

/-- What a removal left, if it returned. -/
structure PostCyc (key : (t : T) → Row (S t) → K) (cfg : Cfg S) (env env' : Env S) : Prop where
  ready : Ready key cfg env'.tbl
  reads : env'.reads = env.reads
  writer : env'.writer = env.writer

/-- With enough stack for the tables not locked yet, `f` returns or waits for itself. -/
def RecCyc [Fintype T] (key : (t : T) → Row (S t) → K) (cfg : Cfg S) (ev : Event) (f : FlushFn S) (n : Nat) : Prop :=
  ∀ p pushed delete rows env, (pushed && delete) = false → Tame cfg rows → Ready key cfg env.tbl →
    (∀ t, env.writer t = false) → env.free.card < n →
    (∃ rows' env', f p ev pushed delete (.these rows) env = .ok (.these rows', env') ∧ PostCyc key cfg env env') ∨
      f p ev pushed delete (.these rows) env = .error .deadlock

/-- One foreign_auto tracker. -/
theorem autoHandleCyc [Fintype T] {ev : Event} (hst : Standard cfg) {f : FlushFn S} (hev : ev.isCreation = false) (n : Nat)
    (hrec : RecCyc key cfg ev f n) (p : T) (fk : FK S) (hfk : IsFK cfg p fk) (rows : List Nat) (hn : Tame cfg rows)
    (hs : (S fk.child).kind = .sorted → rows.Pairwise (· ≤ ·)) (env : Env S) (h : Ready key cfg env.tbl)
    (hw : ∀ t, env.writer t = false) (hc : env.free.card < n + 1) :
    (∃ env', trackerHandle f p (.auto fk) ev (.these rows) .delete env = .ok env' ∧ PostCyc key cfg env env') ∨
      trackerHandle f p (.auto fk) ev (.these rows) .delete env = .error .deadlock := by
  have hw0 := hw fk.child
  obtain ⟨out, out', x, a1, a2, a3, a4, a5, -, -, -⟩ := autoRemove hst h p fk hfk rows hn hs
  have hsort : (if decide ((S fk.child).kind = Kind.sorted) = true then (Select.these out).sort else Select.these out) = .these out' := by
    simpa using a2
  by_cases hr0 : env.reads fk.child = 0
  · let env1 : Env S := env.put fk.child x
    let env2 : Env S := { env1 with reads := Function.update env1.reads fk.child (env1.reads fk.child + 1) }
    have hfree : env2.free.card < n := by
      have hss : env2.free ⊂ env.free := by
        refine Finset.ssubset_iff_of_subset ?_ |>.2 ⟨fk.child, ?_, ?_⟩
        · intro t ht
          unfold Env.free at ht ⊢
          simp only [Finset.mem_filter, Finset.mem_univ, true_and] at ht ⊢
          by_cases e : t = fk.child
          · subst e; exact hr0
          · have : Function.update env1.reads fk.child (env1.reads fk.child + 1) t = 0 := ht
            rw [Function.update_of_ne e] at this
            exact this
        · unfold Env.free; simp [hr0]
        · unfold Env.free
          simp only [Finset.mem_filter, Finset.mem_univ, true_and]
          show ¬ Function.update env1.reads fk.child (env1.reads fk.child + 1) fk.child = 0
          simp
      have := Finset.card_lt_card hss
      omega
    have hacq : Env.acquireRead (env.put fk.child x) fk.child = .ok env2 := by
      unfold Env.acquireRead
      rw [if_neg (by show ¬ env.writer fk.child = true; rw [hw0]; simp)]
    have hred : trackerHandle f p (.auto fk) ev (.these rows) .delete env =
        (f fk.child ev ev.isCreation ev.isRemoval (.these out') env2 >>= fun q => .ok (q.2.releaseRead fk.child)) := by
      unfold trackerHandle
      simp only []
      rw [peek_ok hw0, okBind, a1, okBind]
      unfold handlerRun handlerNeedsSort
      simp only []
      rw [peek_ok hw0, okBind, okBind, hsort]
      unfold handlerHandle
      simp only []
      rw [peek_ok hw0, okBind, a4 f ev env rfl hr0 hw0, okBind, hacq, okBind]
    rcases hrec fk.child ev.isCreation ev.isRemoval out' env2 (by simp [hev]) a3 a5 hw hfree with ⟨rows', env3, b1, b2⟩ | b1
    · left
      refine ⟨env3.releaseRead fk.child, by rw [hred, b1, okBind], b2.ready, ?_, b2.writer⟩
      show Function.update env3.reads fk.child (env3.reads fk.child - 1) = env.reads
      rw [b2.reads]
      show Function.update (Function.update env.reads fk.child (env.reads fk.child + 1)) fk.child
        (Function.update env.reads fk.child (env.reads fk.child + 1) fk.child - 1) = env.reads
      simp
    · right
      rw [hred, b1]; rfl
  · right
    have hlock : env.lock fk.child = .error .deadlock := by
      unfold Env.lock; rw [if_pos (Or.inl hr0)]
    unfold trackerHandle
    simp only []
    rw [peek_ok hw0, okBind, a1, okBind]
    unfold handlerRun handlerNeedsSort
    simp only []
    rw [peek_ok hw0, okBind, okBind, hsort]
    unfold handlerHandle
    simp only []
    rw [peek_ok hw0, okBind]
    unfold tableRemoveRows
    rcases hst.child p fk hfk with hk | hk
    · rw [hk]; simp only []; rw [hlock]; rfl
    · rw [hk]; simp only []; rw [hlock]; rfl

/-- The loop over the trackers. -/
theorem flushLoopCyc [Fintype T] {ev : Event} (hst : Standard cfg) {f : FlushFn S} (hev : ev.isCreation = false) (n : Nat)
    (hrec : RecCyc key cfg ev f n) (p : T) (ts : List (Tracker S)) (hts : ∀ tr ∈ ts, tr ∈ cfg.trackers p)
    (rows : List Nat) (hn : Tame cfg rows) (sorted : Bool) (hs : sorted = true → rows.Pairwise (· ≤ ·)) (env : Env S)
    (h : Ready key cfg env.tbl) (hw : ∀ t, env.writer t = false) (hc : env.free.card < n + 1) :
    (∃ rs' sorted' env', ts.foldlM (flushStep f p ev .delete) ⟨.these rows, sorted, env⟩ = .ok ⟨.these rs', sorted', env'⟩ ∧
      PostCyc key cfg env env') ∨
    ts.foldlM (flushStep f p ev .delete) ⟨.these rows, sorted, env⟩ = .error .deadlock := by
  induction ts generalizing rows sorted env with
  | nil => exact Or.inl ⟨rows, sorted, env, rfl, h, rfl, rfl⟩
  | cons tr ts ih =>
    have step : (∃ rs s1 env1, flushStep f p ev .delete ⟨.these rows, sorted, env⟩ tr = .ok ⟨.these rs, s1, env1⟩ ∧
          Tame cfg rs ∧ (s1 = true → rs.Pairwise (· ≤ ·)) ∧ PostCyc key cfg env env1) ∨
        flushStep f p ev .delete ⟨.these rows, sorted, env⟩ tr = .error .deadlock := by
      unfold flushStep
      by_cases hcs : tr.considers ev = false
      · rw [if_pos hcs]
        exact Or.inl ⟨rows, sorted, env, rfl, hn, hs, h, rfl, rfl⟩
      · rw [if_neg hcs]
        simp only []
        obtain ⟨rs', sorted', e, hp', hs', ht'⟩ : ∃ rs' sorted',
            (if (!sorted && tr.sort) = true then (⟨(Select.these rows).sort, true, env⟩ : FlushSt S) else ⟨.these rows, sorted, env⟩) =
              ⟨.these rs', sorted', env⟩ ∧ rs'.Perm rows ∧ (sorted' = true → rs'.Pairwise (· ≤ ·)) ∧ (tr.sort = true → rs'.Pairwise (· ≤ ·)) := by
          by_cases hb : (!sorted && tr.sort) = true
          · rw [if_pos hb, sort_these]
            exact ⟨_, _, rfl, List.perm_insertionSort (· ≤ ·) rows, fun _ => insertionSort_le rows, fun _ => insertionSort_le rows⟩
          · rw [if_neg hb]
            refine ⟨rows, sorted, rfl, List.Perm.refl _, hs, ?_⟩
            intro ht
            cases sorted with
            | true => exact hs rfl
            | false => simp [ht] at hb
        simp only [e]
        cases tr with
        | auto fk =>
          rcases autoHandleCyc hst hev n hrec p fk (hts _ (by simp)) rs' (hn.perm hp')
            (fun hk => ht' (by simp [Tracker.sort, hk])) env h hw hc with ⟨env', e1, e2⟩ | e1
          · rw [e1, okBind]
            exact Or.inl ⟨rs', sorted', env', rfl, hn.perm hp', hs', e2⟩
          · rw [e1]; exact Or.inr rfl
        | observer o =>
          unfold trackerHandle
          simp only [okBind]
          exact Or.inl ⟨rs', sorted', _, rfl, hn.perm hp', hs', h, rfl, rfl⟩
    rw [List.foldlM_cons]
    rcases step with ⟨rs, s1, env1, a1, a2, a3, a4⟩ | a1
    · rw [a1, okBind]
      have hfree : env1.free = env.free := by unfold Env.free; rw [a4.reads]
      rcases ih (fun t ht => hts t (by simp [ht])) rs a2 s1 a3 env1 a4.ready (by rw [a4.writer]; exact hw)
        (by rw [hfree]; exact hc) with ⟨rs2, s2, env2, b1, b2⟩ | b1
      · exact Or.inl ⟨rs2, s2, env2, b1, b2.ready, b2.reads.trans a4.reads, b2.writer.trans a4.writer⟩
      · exact Or.inr b1
    · rw [a1]; exact Or.inr rfl

/-- `do_flush` of a removal, whatever the graph. -/
theorem doFlushCyc [Fintype T] {ev : Event} (hst : Standard cfg) (hev : ev.isCreation = false)
    (hh : cfg.handlers[ev.id]? = some .delete) (n : Nat) : RecCyc key cfg ev (doFlush cfg n) n := by
  induction n with
  | zero => intro p pushed delete rows env _ _ _ _ hc; omega
  | succ n ih =>
    intro p pushed delete rows env hpd hn h hw hc
    unfold doFlush
    rw [if_neg (by simp [hpd, hev])]
    have : cfg.handler ev = .ok .delete := by unfold Cfg.handler; rw [hh]
    rw [this, okBind]
    have hsel : (Select.these rows).isAll = false := rfl
    rw [hsel]
    rcases flushLoopCyc hst hev n ih p (cfg.trackers p) (fun _ h => h) rows hn false (by simp) env h hw hc with ⟨rs, s, env', e1, e2⟩ | e1
    · rw [e1, okBind]; exact Or.inl ⟨rs, env', rfl, e2⟩
    · rw [e1]; exact Or.inr rfl

/-! ## Events whose handler does nothing -/

/-- Such a flush returns, or the stack is too small. -/
theorem doFlushNullCyc {ev : Event} (hse : Searchable cfg) (hev : (ev.isCreation && ev.isRemoval) = false)
    (hh : cfg.handlers[ev.id]? = some .null) (n : Nat) (p : T) (pushed delete : Bool) (sel : Select (List Nat)) (env : Env S)
    (hpd : (pushed && delete) = false) (h : Ready key cfg env.tbl) (hw : ∀ t, env.writer t = false) :
    (∃ sel' env', doFlush cfg n p ev pushed delete sel env = .ok (sel', env') ∧ env'.tbl = env.tbl ∧ env'.writer = env.writer) ∨
      doFlush cfg n p ev pushed delete sel env = .error .stackOverflow := by
  induction n generalizing p pushed delete sel env with
  | zero => exact Or.inr rfl
  | succ n ih =>
    unfold doFlush
    rw [if_neg (by rw [hpd, Bool.and_comm ev.isRemoval, hev]; simp)]
    have hhd : cfg.handler ev = .ok .null := by unfold Cfg.handler; rw [hh]
    rw [hhd, okBind]
    have handle : ∀ (fk : FK S), IsFK cfg p fk → ∀ (sel : Select (List Nat)) (env : Env S), ((S fk.child).kind = .sorted → SelSorted sel) →
        Ready key cfg env.tbl → (∀ t, env.writer t = false) →
        (∃ env', trackerHandle (doFlush cfg n) p (.auto fk) ev sel .null env = .ok env' ∧ env'.tbl = env.tbl ∧ env'.writer = env.writer) ∨
        trackerHandle (doFlush cfg n) p (.auto fk) ev sel .null env = .error .stackOverflow := by
      intro fk hfk sel env hs h hw
      obtain ⟨L, hL, hlen⟩ := h.wf fk.child
      obtain ⟨out, o1⟩ : ∃ out, fk.select (env.tbl fk.child) sel = .ok out := by
        cases sel with
        | all => exact ⟨.all, rfl⟩
        | these rows =>
          obtain ⟨out, o1, -⟩ := fkSelect_ok fk hL hlen
            (fun hb => ⟨hse.sorted p fk hfk hb,
              h.inOrder p fk hfk hb L (hL.holds' (by rw [hse.sorted p fk hfk hb]; simp))⟩)
            (hse.indexed p fk hfk) rows hs
          exact ⟨_, o1⟩
      let env2 : Env S := { env with reads := Function.update env.reads fk.child (env.reads fk.child + 1) }
      have hred : trackerHandle (doFlush cfg n) p (.auto fk) ev sel .null env =
          (doFlush cfg n fk.child ev ev.isCreation ev.isRemoval out env2 >>= fun q => .ok (q.2.releaseRead fk.child)) := by
        unfold trackerHandle
        simp only []
        rw [peek_ok (hw _), okBind, o1, okBind]
        unfold handlerRun handlerNeedsSort handlerHandle
        simp only [okBind, Bool.false_eq_true, if_false]
        have : Env.acquireRead env fk.child = .ok env2 := by
          unfold Env.acquireRead
          rw [if_neg (by rw [hw]; simp)]
        rw [this, okBind]
      rcases ih fk.child ev.isCreation ev.isRemoval out env2 hev h hw with ⟨sel', env3, b1, b2, b3⟩ | b1
      · exact Or.inl ⟨env3.releaseRead fk.child, by rw [hred, b1, okBind], b2, b3⟩
      · exact Or.inr (by rw [hred, b1]; rfl)
    have loop : ∀ (ts : List (Tracker S)), (∀ tr ∈ ts, tr ∈ cfg.trackers p) → ∀ (sel : Select (List Nat)) (sorted : Bool) (env : Env S),
        (sorted = true → SelSorted sel) → Ready key cfg env.tbl → (∀ t, env.writer t = false) →
        (∃ st, ts.foldlM (flushStep (doFlush cfg n) p ev .null) ⟨sel, sorted, env⟩ = .ok st ∧ st.env.tbl = env.tbl ∧ st.env.writer = env.writer) ∨
        ts.foldlM (flushStep (doFlush cfg n) p ev .null) ⟨sel, sorted, env⟩ = .error .stackOverflow := by
      intro ts
      induction ts with
      | nil => intro _ sel sorted env _ _ _; exact Or.inl ⟨_, rfl, rfl, rfl⟩
      | cons tr ts iht =>
        intro hts sel sorted env hs h hw
        have step : (∃ sel1 s1 env1, flushStep (doFlush cfg n) p ev .null ⟨sel, sorted, env⟩ tr = .ok ⟨sel1, s1, env1⟩ ∧
              (s1 = true → SelSorted sel1) ∧ env1.tbl = env.tbl ∧ env1.writer = env.writer) ∨
            flushStep (doFlush cfg n) p ev .null ⟨sel, sorted, env⟩ tr = .error .stackOverflow := by
          unfold flushStep
          by_cases hcs : tr.considers ev = false
          · rw [if_pos hcs]
            exact Or.inl ⟨sel, sorted, env, rfl, hs, rfl, rfl⟩
          · rw [if_neg hcs]
            simp only []
            obtain ⟨sel1, s1, e, hs', ht'⟩ : ∃ sel1 s1,
                (if (!sorted && tr.sort) = true then (⟨sel.sort, true, env⟩ : FlushSt S) else ⟨sel, sorted, env⟩) =
                  ⟨sel1, s1, env⟩ ∧ (s1 = true → SelSorted sel1) ∧ (tr.sort = true → SelSorted sel1) := by
              by_cases hb : (!sorted && tr.sort) = true
              · rw [if_pos hb]
                exact ⟨_, _, rfl, fun _ => SelSorted.sort sel, fun _ => SelSorted.sort sel⟩
              · rw [if_neg hb]
                refine ⟨sel, sorted, rfl, hs, ?_⟩
                intro ht
                cases sorted with
                | true => exact hs rfl
                | false => simp [ht] at hb
            simp only [e]
            cases tr with
            | auto fk =>
              rcases handle fk (hts _ (by simp)) sel1 env (fun hk => ht' (by simp [Tracker.sort, hk])) h hw with ⟨env', e1, e2, e3⟩ | e1
              · rw [e1, okBind]; exact Or.inl ⟨sel1, s1, env', rfl, hs', e2, e3⟩
              · rw [e1]; exact Or.inr rfl
            | observer o =>
              unfold trackerHandle
              simp only [okBind]
              exact Or.inl ⟨sel1, s1, _, rfl, hs', rfl, rfl⟩
        rw [List.foldlM_cons]
        rcases step with ⟨sel1, s1, env1, a1, a2, a3, a4⟩ | a1
        · rw [a1, okBind]
          rcases iht (fun t ht => hts t (by simp [ht])) sel1 s1 env1 a2 (by rw [a3]; exact h) (by rw [a4]; exact hw) with ⟨st, b1, b2, b3⟩ | b1
          · exact Or.inl ⟨st, b1, b2.trans a3, b3.trans a4⟩
          · exact Or.inr b1
        · rw [a1]; exact Or.inr rfl
    rcases loop (cfg.trackers p) (fun _ h => h) sel sel.isAll env (by cases sel <;> simp [Select.isAll, SelSorted]) h hw with ⟨st, b1, b2, b3⟩ | b1
    · rw [b1, okBind]; exact Or.inl ⟨_, _, rfl, b2, b3⟩
    · rw [b1]; exact Or.inr rfl

/-! ## Clearing -/

theorem DependsOn.tracked {t p : T} (h : DependsOn cfg t p) : cfg.trackers p ≠ [] := by
  cases h with
  | direct hd => exact List.ne_nil_of_mem hd
  | step hd _ => exact List.ne_nil_of_mem hd

/-- No table that depends on `p` is locked by this thread. -/
def BelowFree (cfg : Cfg S) (env : Env S) (p : T) : Prop := ∀ t, DependsOn cfg t p → env.reads t = 0

/-- A clear returns, or the stack is too small: while it goes down it holds no lock. (`hret`: what returns has no cycle
below.) -/
theorem doFlushAllCyc {ev : Event} (hst : Standard cfg) (hev : ev.isCreation = false) (hrm : ev.isRemoval = true)
    (hh : cfg.handlers[ev.id]? = some .delete)
    (hret : ∀ n p pushed delete env r, doFlush cfg n p ev pushed delete .all env = .ok r → ¬ DependsOn cfg p p)
    (n : Nat) (p : T) (pushed delete : Bool) (env : Env S)
    (hpd : (pushed && delete) = false) (h : ∀ t, Reach (key t) false (env.tbl t)) (hw : ∀ t, env.writer t = false)
    (hb : BelowFree cfg env p) :
    (∃ env', doFlush cfg n p ev pushed delete .all env = .ok (.all, env') ∧ (∀ t, Reach (key t) false (env'.tbl t)) ∧
      env'.reads = env.reads ∧ env'.writer = env.writer) ∨
      doFlush cfg n p ev pushed delete .all env = .error .stackOverflow := by
  induction n generalizing p pushed delete env with
  | zero => exact Or.inr rfl
  | succ n ih =>
    unfold doFlush
    rw [if_neg (by simp [hpd, hev])]
    have hhd : cfg.handler ev = .ok .delete := by unfold Cfg.handler; rw [hh]
    rw [hhd, okBind]
    have handle : ∀ (fk : FK S), IsFK cfg p fk → ∀ (env : Env S),
        (∀ t, Reach (key t) false (env.tbl t)) → (∀ t, env.writer t = false) → BelowFree cfg env p →
        (∃ env', trackerHandle (doFlush cfg n) p (.auto fk) ev .all .delete env = .ok env' ∧ (∀ t, Reach (key t) false (env'.tbl t)) ∧
          env'.reads = env.reads ∧ env'.writer = env.writer) ∨
        trackerHandle (doFlush cfg n) p (.auto fk) ev .all .delete env = .error .stackOverflow := by
      intro fk hfk env h hw hb
      have hr0 : env.reads fk.child = 0 := hb _ (DependsOn.direct hfk)
      have hw0 := hw fk.child
      obtain ⟨x, x1, x2, x3⟩ := clearRaw_evolves (h fk.child)
      have hput : ∀ (e : Env S) (y : Tbl (S fk.child)), (∀ t, Reach (key t) false (e.tbl t)) → Reach (key fk.child) false y →
          ∀ t, Reach (key t) false ((e.put fk.child y).tbl t) := by
        intro e y he hy t
        show Reach (key t) false (Function.update e.tbl fk.child y t)
        by_cases ht : t = fk.child
        · subst ht; simpa using hy
        · rw [Function.update_of_ne ht]; exact he t
      have hbc : ∀ (e : Env S), e.reads = env.reads → BelowFree cfg e fk.child := by
        intro e he t ht
        rw [he]; exact hb t (DependsOn.step hfk ht)
      -- `remove_rows(All)`
      have step1 : (∃ env1, tableRemoveRows (doFlush cfg n) fk.child ev .all env = .ok env1 ∧ (∀ t, Reach (key t) false (env1.tbl t)) ∧
            env1.reads = env.reads ∧ env1.writer = env.writer ∧ ((S fk.child).kind = .consistent → ¬ DependsOn cfg fk.child fk.child)) ∨
          tableRemoveRows (doFlush cfg n) fk.child ev .all env = .error .stackOverflow := by
        rcases hst.child p fk hfk with hk | hk
        · have hred : tableRemoveRows (doFlush cfg n) fk.child ev .all env =
              (doFlush cfg n fk.child ev false true .all (env.put fk.child x) >>= fun q =>
                if ev.isRemoval && !q.1.isEmpty then (do
                  let (w, env) ← q.2.lock fk.child
                  let x ← w.tbl.removeSel q.1
                  .ok (env.unlock fk.child x))
                else .ok q.2) := by
            unfold tableRemoveRows
            rw [hk]
            simp only []
            rw [lock_ok hr0 hw0, okBind]
            simp only [W.lock]
            rw [x1, okBind]
            unfold W.clear
            rw [hk]
            simp only [okBind]
            unfold flushWith
            simp only [Select.isEmpty, Bool.false_eq_true, if_false]
            rw [unlock_lock hw0]
          rcases ih fk.child false true (env.put fk.child x) rfl (hput env x h (x3.1 (h _))) hw (hbc _ rfl) with ⟨env2, b1, b2, b3, b4⟩ | b1
          · left
            obtain ⟨y, y1, y2, y3⟩ := clearRaw_evolves (b2 fk.child)
            have hr' : env2.reads fk.child = 0 := by rw [b3]; exact hr0
            have hw' : env2.writer fk.child = false := by rw [b4]; exact hw0
            refine ⟨env2.put fk.child y, ?_, hput env2 y b2 (y3.1 (b2 _)), b3, b4, fun _ => hret _ _ _ _ _ _ b1⟩
            rw [hred, b1, okBind]
            simp only [hrm, Select.isEmpty, Bool.not_false, Bool.and_self, if_true]
            rw [lock_ok hr' hw', okBind]
            simp only [W.lock, Tbl.removeSel]
            rw [y1, okBind, unlock_lock hw']
          · right
            rw [hred, b1]; rfl
        · left
          refine ⟨env.put fk.child x, ?_, hput env x h (x3.1 (h _)), rfl, rfl, fun hc => by rw [hk] at hc; cases hc⟩
          unfold tableRemoveRows
          rw [hk]
          simp only []
          rw [lock_ok hr0 hw0, okBind]
          simp only [W.lock]
          rw [x1, okBind]
          unfold W.clear
          rw [hk]
          simp only [okBind]
          rw [flushWith_empty rfl]
          simp only []
          rw [unlock_lock hw0]
      have hpre : trackerHandle (doFlush cfg n) p (.auto fk) ev .all .delete env =
          (tableRemoveRows (doFlush cfg n) fk.child ev .all env >>= fun env1 => (do
            let env2 ← env1.acquireRead fk.child
            let (_, env3) ← doFlush cfg n fk.child ev ev.isCreation ev.isRemoval .all env2
            .ok (env3.releaseRead fk.child))) := by
        unfold trackerHandle
        simp only []
        rw [peek_ok hw0, okBind]
        unfold FK.select
        simp only [okBind]
        unfold handlerRun handlerNeedsSort
        simp only []
        rw [peek_ok hw0, okBind, okBind]
        have : (if decide ((S fk.child).kind = Kind.sorted) = true then (Select.all : Select (List Nat)).sort else Select.all) = .all := by
          split <;> rfl
        rw [this]
        unfold handlerHandle
        simp only []
        rw [peek_ok hw0, okBind]
      rcases step1 with ⟨env1, c1, c2, c3, c4, c5⟩ | c1
      · let env2 : Env S := { env1 with reads := Function.update env1.reads fk.child (env1.reads fk.child + 1) }
        have hacq : env1.acquireRead fk.child = .ok env2 := by
          unfold Env.acquireRead
          rw [if_neg (by rw [c4, hw0]; simp)]
        have hb2 : BelowFree cfg env2 fk.child := by
          intro t ht
          show Function.update env1.reads fk.child (env1.reads fk.child + 1) t = 0
          have hne : t ≠ fk.child := by
            rintro rfl
            exact c5 (hst.parent _ ht.tracked) ht
          rw [Function.update_of_ne hne, c3]
          exact hb t (DependsOn.step hfk ht)
        rcases ih fk.child ev.isCreation ev.isRemoval env2 (by simp [hev]) c2 (by intro t; show env1.writer t = false; rw [c4]; exact hw t) hb2 with
          ⟨env3, d1, d2, d3, d4⟩ | d1
        · left
          refine ⟨env3.releaseRead fk.child, ?_, d2, ?_, ?_⟩
          · rw [hpre, c1, okBind, hacq, okBind, d1, okBind]
          · show Function.update env3.reads fk.child (env3.reads fk.child - 1) = env.reads
            rw [d3]
            show Function.update (Function.update env1.reads fk.child (env1.reads fk.child + 1)) fk.child
              (Function.update env1.reads fk.child (env1.reads fk.child + 1) fk.child - 1) = env.reads
            rw [← c3]
            simp
          · show env3.writer = env.writer
            rw [d4]; exact c4
        · right
          rw [hpre, c1, okBind, hacq, okBind, d1]; rfl
      · right
        rw [hpre, c1]; rfl
    have loop : ∀ (ts : List (Tracker S)), (∀ tr ∈ ts, tr ∈ cfg.trackers p) → ∀ (env : Env S),
        (∀ t, Reach (key t) false (env.tbl t)) → (∀ t, env.writer t = false) → BelowFree cfg env p →
        (∃ env', ts.foldlM (flushStep (doFlush cfg n) p ev .delete) ⟨.all, true, env⟩ = .ok ⟨.all, true, env'⟩ ∧
          (∀ t, Reach (key t) false (env'.tbl t)) ∧ env'.reads = env.reads ∧ env'.writer = env.writer) ∨
        ts.foldlM (flushStep (doFlush cfg n) p ev .delete) ⟨.all, true, env⟩ = .error .stackOverflow := by
      intro ts
      induction ts with
      | nil => intro _ env h _ _; exact Or.inl ⟨env, rfl, h, rfl, rfl⟩
      | cons tr ts iht =>
        intro hts env h hw hb
        have step : (∃ env1, flushStep (doFlush cfg n) p ev .delete ⟨.all, true, env⟩ tr = .ok ⟨.all, true, env1⟩ ∧
              (∀ t, Reach (key t) false (env1.tbl t)) ∧ env1.reads = env.reads ∧ env1.writer = env.writer) ∨
            flushStep (doFlush cfg n) p ev .delete ⟨.all, true, env⟩ tr = .error .stackOverflow := by
          unfold flushStep
          by_cases hcs : tr.considers ev = false
          · rw [if_pos hcs]; exact Or.inl ⟨env, rfl, h, rfl, rfl⟩
          · rw [if_neg hcs]
            simp only [Bool.not_true, Bool.false_and, Bool.false_eq_true, if_false]
            cases tr with
            | auto fk =>
              rcases handle fk (hts _ (by simp)) env h hw hb with ⟨env', e1, e2⟩ | e1
              · rw [e1, okBind]; exact Or.inl ⟨env', rfl, e2⟩
              · rw [e1]; exact Or.inr rfl
            | observer o =>
              unfold trackerHandle
              simp only [okBind]
              exact Or.inl ⟨_, rfl, h, rfl, rfl⟩
        rw [List.foldlM_cons]
        rcases step with ⟨env1, a1, a2, a3, a4⟩ | a1
        · rw [a1, okBind]
          rcases iht (fun t ht => hts t (by simp [ht])) env1 a2 (by rw [a4]; exact hw) (by intro t ht; rw [a3]; exact hb t ht) with
            ⟨env2, b1, b2, b3, b4⟩ | b1
          · exact Or.inl ⟨env2, b1, b2, b3.trans a3, b4.trans a4⟩
          · exact Or.inr b1
        · rw [a1]; exact Or.inr rfl
    have hsel : (Select.all : Select (List Nat)).isAll = true := rfl
    rw [hsel]
    rcases loop (cfg.trackers p) (fun _ h => h) env h hw hb with ⟨env', b1, b2, b3, b4⟩ | b1
    · rw [b1, okBind]; exact Or.inl ⟨_, rfl, b2, b3, b4⟩
    · rw [b1]; exact Or.inr rfl

end V11
