import Verif.Spec.Custom
import Verif.Lemmas.Salvage
import Verif.Lemmas.Leftovers
import Verif.Lemmas.Flush
import Verif.Props.DemoUni

/-!
# Flushing with trackers and handlers of any kind (C75)
-/

set_option linter.unusedSectionVars false
set_option linter.unusedVariables false
set_option linter.unusedSimpArgs false

namespace V11
section
variable {T : Type} [DecidableEq T] {S : T → Schema}

theorem Xr.andThen_ok {α β : Type} {x : Xr S α} {f : α → Xr S β} {env env' : Env S} {a : α} (h : x env = (env', .ok a)) :
    x.andThen f env = f a env' := by unfold Xr.andThen; rw [h]

theorem Xr.andThen_err {α β : Type} {x : Xr S α} {f : α → Xr S β} {env env' : Env S} {p : Panic} (h : x env = (env', .error p)) :
    x.andThen f env = (env', .error p) := by unfold Xr.andThen; rw [h]

/-- `toldOf` when the selection may be sorted already. -/
def toldFrom (b : Bool) (trackers : List (XTracker S)) (ev : Event) (sel : Select (List Nat)) :
    List (XTracker S × Select (List Nat)) :=
  let want := trackers.filter (fun tr => tr.considers ev)
  want.mapIdx fun k tr => (tr, if (b || (want.take (k + 1)).any (fun tr => tr.sort)) then sel.sort else sel)

theorem sort_sort (s : Select (List Nat)) : s.sort.sort = s.sort := by
  cases s with
  | all => rfl
  | these rows =>
    show Select.these _ = Select.these _
    congr 1
    exact (List.perm_insertionSort (· ≤ ·) (rows.insertionSort (· ≤ ·))).eq_of_pairwise
      (fun a b _ _ => le_antisymm) (List.pairwise_insertionSort _ _) (List.pairwise_insertionSort _ _)

theorem toldFrom_skip (b : Bool) {tr : XTracker S} (trs : List (XTracker S)) {ev : Event} (sel : Select (List Nat))
    (h : tr.considers ev = false) : toldFrom b (tr :: trs) ev sel = toldFrom b trs ev sel := by
  unfold toldFrom
  rw [List.filter_cons_of_neg (by simp [h])]

theorem toldFrom_cons (b : Bool) {tr : XTracker S} (trs : List (XTracker S)) {ev : Event} (sel : Select (List Nat))
    (h : tr.considers ev = true) : toldFrom b (tr :: trs) ev sel =
      (tr, if (b || tr.sort) then sel.sort else sel) :: toldFrom (b || tr.sort) trs ev sel := by
  unfold toldFrom
  rw [List.filter_cons_of_pos (by simpa using h)]
  simp only [List.mapIdx_cons, List.take_succ_cons, List.any_cons, List.take_zero, List.any_nil, Bool.or_false, Bool.or_assoc]
  rfl

theorem xFlushLoop_told (ev : Event) (h : XHandler S) (trs : List (XTracker S)) (sel : Select (List Nat)) (b : Bool)
    (env : Env S) (c : Bool) (hc : c = (sel.isAll || b)) :
    xFlushLoop ev h trs (if b then sel.sort else sel, c) env =
      match inTurn ((toldFrom b trs ev sel).map fun q => q.1.handle ev q.2 h) env with
      | (env', .ok _) => (env', .ok
          (if (b || (trs.filter (fun tr => tr.considers ev)).any (fun tr => tr.sort)) then sel.sort else sel,
            sel.isAll || (b || (trs.filter (fun tr => tr.considers ev)).any (fun tr => tr.sort))))
      | (env', .error p) => (env', .error p) := by
  induction trs generalizing b c env with
  | nil => subst hc; unfold xFlushLoop; simp [toldFrom, inTurn, Xr.ret]
  | cons tr trs ih =>
    unfold xFlushLoop
    cases hcons : tr.considers ev with
    | false =>
      rw [toldFrom_skip b trs sel hcons, List.filter_cons_of_neg (by simp [hcons])]
      have : xFlushStep ev h (if b then sel.sort else sel, c) tr env = (env, .ok (if b then sel.sort else sel, c)) := by
        unfold xFlushStep; rw [if_pos hcons]; rfl
      rw [Xr.andThen_ok this]
      exact ih b env c hc
    | true =>
      rw [toldFrom_cons b trs sel hcons, List.filter_cons_of_pos (by simpa using hcons)]
      have hst : (if !c && tr.sort then ((if b then sel.sort else sel).sort, true) else (if b then sel.sort else sel, c)) =
          ((if (b || tr.sort) then sel.sort else sel), (sel.isAll || (b || tr.sort))) := by
        subst hc
        cases sel with
        | all => cases b <;> cases tr.sort <;> rfl
        | these rows => cases b <;> cases tr.sort <;> simp [Select.isAll]
      have hstep : xFlushStep ev h (if b then sel.sort else sel, c) tr env =
          ((tr.handle ev (if (b || tr.sort) then sel.sort else sel) h).andThen fun _ =>
            Xr.ret ((if (b || tr.sort) then sel.sort else sel), (sel.isAll || (b || tr.sort)))) env := by
        unfold xFlushStep
        rw [if_neg (by simp [hcons])]
        simp only []
        rw [hst]
      simp only [List.map_cons, inTurn]
      cases hx : tr.handle ev (if (b || tr.sort) then sel.sort else sel) h env with
      | mk env1 r =>
        cases r with
        | error p =>
          rw [Xr.andThen_err (p := p) (env' := env1)]
          rw [hstep, Xr.andThen_err hx]
        | ok u =>
          rw [Xr.andThen_ok (a := ((if (b || tr.sort) then sel.sort else sel), (sel.isAll || (b || tr.sort)))) (env' := env1)]
          · rw [ih (b || tr.sort) env1 _ rfl]
            simp only [List.any_cons, Bool.or_assoc]
            rfl
          · rw [hstep, Xr.andThen_ok hx]; rfl

/-- C75: `do_flush`, whatever the trackers do: those that want the event are called in registration order, each once, each
with the flushed selection — sorted from the first one on that asks for it — until one panics. What the call makes of the
universe is what they make of it, one after the other. -/
theorem C75_told (cfg : XCfg S) (t : T) (ev : Event) (h : XHandler S) (pushed delete : Bool) (sel : Select (List Nat)) (env : Env S)
    (hb : ((pushed && delete) || (ev.isRemoval && ev.isCreation)) = false) (hh : cfg.handlers[ev.id]? = some h) :
    xDoFlush cfg t ev pushed delete sel false env =
      match inTurn ((toldOf (cfg.trackers t) ev sel).map fun c => c.1.handle ev c.2 h) env with
      | (env', .ok _) => (env', .ok
          (if ((cfg.trackers t).filter (fun tr => tr.considers ev)).any (fun tr => tr.sort) then sel.sort else sel))
      | (env', .error p) => (env', .error p) := by
  have key := xFlushLoop_told ev h (cfg.trackers t) sel false env sel.isAll (by simp)
  have ht : toldOf (cfg.trackers t) ev sel = toldFrom false (cfg.trackers t) ev sel := by
    unfold toldOf toldFrom; simp
  unfold xDoFlush XCfg.handler
  rw [if_neg (by simp [hb]), hh, ht]
  simp only [Bool.false_eq_true, if_false] at key ⊢
  cases hx : inTurn ((toldFrom false (cfg.trackers t) ev sel).map fun c => c.1.handle ev c.2 h) env with
  | mk env' r =>
    rw [hx] at key
    cases r with
    | error p => rw [Xr.andThen_err key]
    | ok u =>
      rw [Xr.andThen_ok key]
      simp [Xr.ret]

/-- C75: `do_flush` that includes the table itself: after its trackers, the handler of the event is called with the table
and the flushed selection, which is sorted if a tracker asked for that or else the handler does. -/
theorem C75_include_self (cfg : XCfg S) (t : T) (ev : Event) (h : XHandler S) (pushed delete : Bool) (sel : Select (List Nat))
    (env env' : Env S)
    (hb : ((pushed && delete) || (ev.isRemoval && ev.isCreation)) = false) (hh : cfg.handlers[ev.id]? = some h)
    (ht : inTurn ((toldOf (cfg.trackers t) ev sel).map fun c => c.1.handle ev c.2 h) env = (env', .ok ())) (needs : Bool)
    (hn : h.needsSort t env' = .ok needs) (env'' : Env S) (r : R Unit)
    (hd : h.handle t ev (if needs || ((cfg.trackers t).filter (fun tr => tr.considers ev)).any (fun tr => tr.sort)
      then sel.sort else sel) env' = (env'', r)) :
    xDoFlush cfg t ev pushed delete sel true env =
      (env'', r.map fun _ => if needs || ((cfg.trackers t).filter (fun tr => tr.considers ev)).any (fun tr => tr.sort)
        then sel.sort else sel) := by
  have key := xFlushLoop_told ev h (cfg.trackers t) sel false env sel.isAll (by simp)
  have ht' : toldOf (cfg.trackers t) ev sel = toldFrom false (cfg.trackers t) ev sel := by
    unfold toldOf toldFrom; simp
  unfold xDoFlush XCfg.handler
  rw [if_neg (by simp [hb]), hh]
  simp only [Bool.false_eq_true, if_false, Bool.false_or] at key ⊢
  rw [← ht', ht] at key
  rw [Xr.andThen_ok key]
  simp only [if_true]
  unfold xFlushSelf
  generalize ((cfg.trackers t).filter (fun tr => tr.considers ev)).any (fun tr => tr.sort) = b at *
  have hsel : ∃ s, (if (sel.isAll || b) = true then (Except.ok false : R Bool) else h.needsSort t env') = .ok s ∧
      (if s then (if b then sel.sort else sel).sort else (if b then sel.sort else sel)) = (if (needs || b) then sel.sort else sel) := by
    rw [hn]
    cases sel with
    | all => exact ⟨false, by simp [Select.isAll], by cases b <;> cases needs <;> rfl⟩
    | these rows =>
      cases b with
      | true => exact ⟨false, by simp, by simp⟩
      | false => exact ⟨needs, by simp [Select.isAll], by cases needs <;> simp⟩
  obtain ⟨s, hs1, hs2⟩ := hsel
  rw [hs1]
  simp only []
  rw [hs2]
  cases r with
  | error p => rw [Xr.andThen_err hd]; rfl
  | ok u => rw [Xr.andThen_ok hd]; rfl

/-- What the trackers of a flush do, in the universe with the lock released. -/
def theirDoing (cfg : XCfg S) (t : T) (w : W (S t)) (ev : Event) (h : XHandler S) (env : Env S) : Env S × R Unit :=
  inTurn ((toldOf (cfg.trackers t) ev w.changes).map fun c => c.1.handle ev c.2 h) (env.unlock t w.tbl)

/-- A universe with other contents in one table, its locks as they are. -/
theorem put_same {env : Env S} (t : T) : env.put t (env.tbl t) = env := by
  unfold Env.put; rw [Function.update_eq_self]

variable [LV : ∀ t, LeavesSchema (S t)]

theorem xFlush_told (cfg : XCfg S) (t : T) (w : W (S t)) (ev : Event) (h : XHandler S) (env : Env S)
    (hb : ((w.pushed && w.delete) || (ev.isRemoval && ev.isCreation)) = false) (hh : cfg.handlers[ev.id]? = some h)
    (hne : w.changes.isEmpty = false) :
    xFlush cfg t w ev env =
      match theirDoing cfg t w ev h env with
      | (env', .error p) => (env', .error p)
      | (env', .ok _) =>
        if ev.isRemoval then
          xRemove t (if ((cfg.trackers t).filter (fun tr => tr.considers ev)).any (fun tr => tr.sort) then w.changes.sort else w.changes) env'
        else (env', .ok ()) := by
  unfold xFlush
  simp only [hne, Bool.false_eq_true, if_false]
  have ht := C75_told cfg t ev h w.pushed w.delete w.changes (env.unlock t w.tbl) hb hh
  unfold theirDoing
  cases hx : inTurn ((toldOf (cfg.trackers t) ev w.changes).map fun c => c.1.handle ev c.2 h) (env.unlock t w.tbl) with
  | mk env' r =>
    rw [hx] at ht
    cases r with
    | error p => rw [Xr.andThen_err ht]
    | ok u =>
      rw [Xr.andThen_ok ht]
      have hs : ∀ b : Bool, (if b then w.changes.sort else w.changes).isEmpty = false := by
        intro b
        cases b with
        | false => exact hne
        | true =>
          cases hc : w.changes with
          | all => rfl
          | these rows =>
            rw [hc] at hne
            have hr : rows ≠ [] := by
              intro e; rw [e] at hne; simp [Select.isEmpty] at hne
            have : (rows.insertionSort (· ≤ ·)).isEmpty = false := by
              cases e : rows.insertionSort (· ≤ ·) with
              | nil =>
                have := (List.perm_insertionSort (· ≤ ·) rows).length_eq
                rw [e] at this
                exact absurd (List.length_eq_zero_iff.1 this.symm) hr
              | cons _ _ => rfl
            exact this
      simp only []
      rw [hs]
      cases ev.isRemoval <;> simp [Xr.ret]

/-- C75: if a tracker panics, the flush panics with it and the universe is what the trackers that were called made of it:
the later trackers are not called and no row is removed. -/
theorem C75_tracker_panics (cfg : XCfg S) (t : T) (w : W (S t)) (ev : Event) (h : XHandler S) (env env' : Env S) (p : Panic)
    (hb : ((w.pushed && w.delete) || (ev.isRemoval && ev.isCreation)) = false) (hh : cfg.handlers[ev.id]? = some h)
    (hne : w.changes.isEmpty = false) (hp : theirDoing cfg t w ev h env = (env', .error p)) :
    xFlush cfg t w ev env = (env', .error p) := by
  rw [xFlush_told cfg t w ev h env hb hh hne, hp]

/-- C75: an event that is not a removal removes nothing itself: the universe is what the trackers made of it. -/
theorem C75_not_removal (cfg : XCfg S) (t : T) (w : W (S t)) (ev : Event) (h : XHandler S) (env : Env S)
    (hb : ((w.pushed && w.delete) || (ev.isRemoval && ev.isCreation)) = false) (hh : cfg.handlers[ev.id]? = some h)
    (hne : w.changes.isEmpty = false) (hr : ev.isRemoval = false) :
    xFlush cfg t w ev env = theirDoing cfg t w ev h env := by
  rw [xFlush_told cfg t w ev h env hb hh hne, hr]
  cases theirDoing cfg t w ev h env with
  | mk env' r => cases r <;> rfl

variable [LS : ∀ t, LawfulSchema (S t)] {K : Type} [LinearOrder K] {key : (t : T) → Row (S t) → K}

theorem cr_removeSel_ok {S : Schema} [LawfulSchema S] [LeavesSchema S] {sel : Select (List Nat)} {t t' : Tbl S}
    (h : t.removeSel sel = .ok t') : Cr.removeSel sel t = (t', .ok ()) := by
  have ho := out_removeSel sel t
  rw [h] at ho
  unfold Cr.out Cr.outOf at ho
  cases hx : Cr.removeSel sel t with
  | mk t1 r =>
    rw [hx] at ho
    cases r with
    | error p => cases ho
    | ok u =>
      have ho : Except.ok (t1, u) = Except.ok (t', ()) := ho
      cases ho
      rfl

theorem split_first (q : Nat → Prop) [DecidablePred q] : ∀ l : List Nat, (∃ i ∈ l, ¬ q i) →
    ∃ pre i0 rest, l = pre ++ i0 :: rest ∧ (∀ i ∈ pre, q i) ∧ ¬ q i0
  | [], h => by obtain ⟨i, hi, -⟩ := h; cases hi
  | a :: l, h => by
    by_cases ha : q a
    · obtain ⟨pre, i0, rest, h1, h2, h3⟩ := split_first q l (by
        obtain ⟨i, hi, hn⟩ := h
        rcases List.mem_cons.1 hi with rfl | hi
        · exact absurd ha hn
        · exact ⟨i, hi, hn⟩)
      exact ⟨a :: pre, i0, rest, by rw [h1]; rfl, by
        intro i hi
        rcases List.mem_cons.1 hi with rfl | hi
        · exact ha
        · exact h2 i hi, h3⟩
    · exact ⟨[], a, l, rfl, by simp, ha⟩

theorem cr_deleteLoop_stop {S : Schema} [LeavesSchema S] {len i0 : Nat} {rest : List Nat} (hi0 : len ≤ i0) :
    ∀ (pre : List Nat) (t t' : Tbl S), (∀ i ∈ pre, i < len) → Cr.deleteLoop len pre t = (t', .ok ()) →
      Cr.deleteLoop len (pre ++ i0 :: rest) t = (t', .error .assertRow)
  | [], t, t', _, h => by
    unfold Cr.deleteLoop at h
    cases h
    show Cr.deleteLoop len (i0 :: rest) t = _
    unfold Cr.deleteLoop
    rw [if_neg (by omega)]
    rfl
  | a :: pre, t, t', hp, h => by
    have ha : a < len := hp a (by simp)
    unfold Cr.deleteLoop at h
    rw [if_pos ha] at h
    show Cr.deleteLoop len (a :: (pre ++ i0 :: rest)) t = _
    unfold Cr.deleteLoop
    rw [if_pos ha]
    cases hx : Cr.deleteRaw a t with
    | mk t1 r =>
      cases r with
      | error p => rw [cr_err hx] at h; cases h
      | ok u =>
        rw [cr_ok hx] at h ⊢
        exact cr_deleteLoop_stop hi0 pre t1 t' (fun i hi => hp i (by simp [hi])) h

theorem cr_removeSel_stop {S : Schema} [LawfulSchema S] [LeavesSchema S] {pre rest : List Nat} {i0 : Nat} {t t' : Tbl S}
    (h : t.removeSel (.these pre) = .ok t') (hp : ∀ i ∈ pre, i < t.len) (hi0 : t.len ≤ i0) :
    Cr.removeSel (.these (pre ++ i0 :: rest)) t = (t', .error .assertRow) := by
  have h := cr_removeSel_ok h
  exact cr_deleteLoop_stop hi0 pre t t' hp h

/-- C75: a removal flush of a consistent table whose trackers return: exactly the flushed rows are removed from whatever
the trackers made of the table; everything else is as the trackers left it. The trackers must have given back the table's
lock, or the flush hangs; and the flushed ids must still be in the table, or the flush panics at the first that is not,
when the ids before it — in the order they were marked, or ascending if some tracker asked for that — are gone; the
table's lock is given back also then. -/
theorem C75_removal (cfg : XCfg S) (t : T) (w : W (S t)) (ev : Event) (h : XHandler S) (env env' : Env S) (rows : List Nat)
    (hb : ((w.pushed && w.delete) || (ev.isRemoval && ev.isCreation)) = false) (hh : cfg.handlers[ev.id]? = some h)
    (hrows : w.changes = .these rows) (hne : rows ≠ []) (hr : ev.isRemoval = true) (hk : (S t).kind = .consistent)
    (hp : theirDoing cfg t w ev h env = (env', .ok ())) (hreach : Reach (key t) true (env'.tbl t)) :
    (env'.reads t = 0 → env'.writer t = false → (∀ i ∈ rows, i < (env'.tbl t).len) →
      ∃ x, xFlush cfg t w ev env = (env'.put t x, .ok ()) ∧ Reach (key t) true x ∧
        ∀ i, x.view i = if i ∈ rows then none else (env'.tbl t).view i) ∧
    (¬ (env'.reads t = 0 ∧ env'.writer t = false) → xFlush cfg t w ev env = (env', .error .deadlock)) ∧
    (env'.reads t = 0 → env'.writer t = false → (∃ i ∈ rows, (env'.tbl t).len ≤ i) →
      ∃ x, xFlush cfg t w ev env = (env'.put t x, .error .assertRow) ∧ Reach (key t) true x ∧
        ∀ i, x.view i = if i ∈ (if ((cfg.trackers t).filter (fun tr => tr.considers ev)).any (fun tr => tr.sort)
          then rows.insertionSort (· ≤ ·) else rows).takeWhile (· < (env'.tbl t).len) then none else (env'.tbl t).view i) := by
  have hemp : w.changes.isEmpty = false := by
    rw [hrows]; cases rows with
    | nil => exact absurd rfl hne
    | cons _ _ => rfl
  have hf := xFlush_told cfg t w ev h env hb hh hemp
  rw [hp, hr] at hf
  simp only [if_true] at hf
  obtain ⟨rows', hsel, hperm, hord⟩ : ∃ rows', (if ((cfg.trackers t).filter (fun tr => tr.considers ev)).any (fun tr => tr.sort)
      then w.changes.sort else w.changes) = .these rows' ∧ rows'.Perm rows ∧
      (if ((cfg.trackers t).filter (fun tr => tr.considers ev)).any (fun tr => tr.sort)
          then rows.insertionSort (· ≤ ·) else rows) = rows' := by
    rw [hrows]
    split
    · exact ⟨_, rfl, List.perm_insertionSort _ _, rfl⟩
    · exact ⟨_, rfl, List.Perm.refl _, rfl⟩
  rw [hsel] at hf
  rw [hord]
  have hwr : env'.writer t = false → Function.update (Function.update env'.writer t true) t false = env'.writer := by
    intro h2
    rw [Function.update_idem]
    rw [← h2]
    exact Function.update_eq_self _ _
  have hlock : env'.reads t = 0 → env'.writer t = false →
      env'.lock t = .ok (W.lock (env'.tbl t), { env' with writer := Function.update env'.writer t true }) := by
    intro h1 h2
    unfold Env.lock
    rw [if_neg (by simp [h1, h2])]
  obtain ⟨L, hL⟩ := hreach.wf
  refine ⟨?_, ?_, ?_⟩
  · intro h1 h2 h3
    have hall : ∀ i ∈ rows', i < L.length := by
      intro i hi; rw [← hL.len]; exact h3 i (hperm.mem_iff.1 hi)
    obtain ⟨x, e1, e2, e3⟩ := hL.deleteLoop hk rows' hall
    have hrm : (env'.tbl t).removeSel (.these rows') = .ok x := by
      unfold Tbl.removeSel; simp only []; rw [hL.len]; exact e1
    refine ⟨x, ?_, Reach.step (op := .remove (.these rows')) hreach trivial (by simp [TOp.clears]) hrm, ?_⟩
    · rw [hf]
      unfold xRemove
      rw [hlock h1 h2]
      simp only [W.lock]
      rw [cr_removeSel_ok hrm]
      simp only [Env.unlock, Env.put]
      rw [hwr h2]
    · intro i
      rw [e3.view, hL.view]
      by_cases hi : i ∈ rows
      · simp [e2 i, hperm.mem_iff, hi]
      · simp [e2 i, hperm.mem_iff, hi]
  · intro hn
    rw [hf]
    unfold xRemove
    have : env'.lock t = .error .deadlock := by
      unfold Env.lock
      rw [if_pos]
      by_contra hc
      push Not at hc
      exact hn ⟨hc.1, by simpa using hc.2⟩
    rw [this]
  · intro h1 h2 h3
    obtain ⟨pre, i0, rest, hsplit, hpre, hi0⟩ : ∃ pre i0 rest, rows' = pre ++ i0 :: rest ∧ (∀ i ∈ pre, i < (env'.tbl t).len) ∧
        (env'.tbl t).len ≤ i0 := by
      obtain ⟨i, hi, hl⟩ := h3
      exact split_first (fun i => i < (env'.tbl t).len) rows' ⟨i, hperm.mem_iff.2 hi, by omega⟩ |>.imp
        fun pre h => h.imp fun i0 h => h.imp fun rest h => ⟨h.1, h.2.1, by have := h.2.2; omega⟩
    have htake : rows'.takeWhile (· < (env'.tbl t).len) = pre := by
      rw [hsplit, List.takeWhile_append_of_pos (by simpa using hpre), List.takeWhile_cons_of_neg (by simp [hi0])]
      simp
    obtain ⟨x, e1, e2, e3⟩ := hL.deleteLoop hk pre (by intro i hi; rw [← hL.len]; exact hpre i hi)
    have hrm : (env'.tbl t).removeSel (.these pre) = .ok x := by
      unfold Tbl.removeSel; simp only []; rw [hL.len]; exact e1
    refine ⟨x, ?_, Reach.step (op := .remove (.these pre)) hreach trivial (by simp [TOp.clears]) hrm, ?_⟩
    · rw [hf]
      unfold xRemove
      rw [hlock h1 h2]
      simp only [W.lock]
      rw [hsplit, cr_removeSel_stop hrm hpre hi0]
      simp only [Env.unlock, Env.put]
      rw [hwr h2]
    · intro i
      rw [htake, e3.view, hL.view]
      by_cases hi : i ∈ pre
      · simp [e2 i, hi]
      · simp [e2 i, hi]

/-- C75: whatever every tracker and handler of a universe keeps true — also when it panics — is true after a flush, if
removing rows of the flushed table and giving back its lock keep it true too. -/
theorem C75_invariant (cfg : XCfg S) (t : T) (w : W (S t)) (ev : Event) (env : Env S) (P : Env S → Prop)
    (htr : ∀ tr ∈ cfg.trackers t, ∀ sel h env, P env → P (tr.handle ev sel h env).1)
    (hrm : ∀ sel env, P env → P (xRemove t sel env).1) (h0 : P (env.unlock t w.tbl)) : P (xFlush cfg t w ev env).1 := by
  have hin : ∀ (xs : List (Xr S Unit)) (env : Env S), (∀ x ∈ xs, ∀ env, P env → P (x env).1) → P env → P (inTurn xs env).1 := by
    intro xs
    induction xs with
    | nil => intro env _ h; exact h
    | cons x xs ih =>
      intro env hx h
      have h1 := hx x (by simp) env h
      unfold inTurn
      cases he : x env with
      | mk env1 r =>
        rw [he] at h1
        cases r with
        | error p => exact h1
        | ok u => exact ih env1 (fun y hy => hx y (by simp [hy])) h1
  by_cases hemp : w.changes.isEmpty = true
  · unfold xFlush; simp only [hemp, if_true]; exact h0
  · by_cases hb : ((w.pushed && w.delete) || (ev.isRemoval && ev.isCreation)) = false
    · cases hh : cfg.handlers[ev.id]? with
      | none =>
        unfold xFlush xDoFlush XCfg.handler
        simp only [hemp, hb, hh, if_false]
        exact h0
      | some h =>
        rw [xFlush_told cfg t w ev h env hb hh (by simpa using hemp)]
        have hd : P (theirDoing cfg t w ev h env).1 := by
          unfold theirDoing
          apply hin _ _ _ h0
          intro x hx env1 he1
          obtain ⟨c, hc, rfl⟩ := List.mem_map.1 hx
          have hm : c.1 ∈ cfg.trackers t := by
            unfold toldOf at hc
            obtain ⟨k, hk, he⟩ := List.mem_mapIdx.1 hc
            rw [← he]
            exact (List.mem_filter.1 (List.getElem_mem hk)).1
          exact htr _ hm _ _ _ he1
        cases hx : theirDoing cfg t w ev h env with
        | mk env1 r =>
          rw [hx] at hd
          cases r with
          | error p => exact hd
          | ok u =>
            simp only []
            split
            · exact hrm _ _ hd
            · exact hd
    · unfold xFlush xDoFlush
      have hb : ((w.pushed && w.delete) || (ev.isRemoval && ev.isCreation)) = true := Bool.of_not_eq_false hb
      simp only [hemp, hb, if_false, if_true]
      exact h0

/-- C75: `Function::run` with a handler and trackers of any kind: the handler gets the rows (sorted if it needs that),
then the table's trackers are told, whatever the handler did; a panic of the handler means they are not. -/
theorem C75_run (cfg : XCfg S) (h h' : XHandler S) (t : T) (ev : Event) (rows : Select (List Nat)) (env env' : Env S) (s : Bool)
    (hb : (ev.isCreation && ev.isRemoval) = false) (hh : cfg.handlers[ev.id]? = some h') (hs : h.needsSort t env = .ok s) :
    (∀ p, h.handle t ev (if s then rows.sort else rows) env = (env', .error p) → xRun cfg h t ev rows env = (env', .error p)) ∧
    (h.handle t ev (if s then rows.sort else rows) env = (env', .ok ()) → env'.writer t = false →
      xRun cfg h t ev rows env =
        match inTurn ((toldOf (cfg.trackers t) ev (if s then rows.sort else rows)).map fun c => c.1.handle ev c.2 h')
          { env' with reads := Function.update env'.reads t (env'.reads t + 1) } with
        | (e, r) => (e.releaseRead t, r)) := by
  constructor
  · intro p hp
    unfold xRun
    rw [hs]
    simp only []
    rw [hp]
  · intro hp hw
    unfold xRun
    rw [hs]
    simp only []
    rw [hp]
    simp only []
    have ha : env'.acquireRead t = .ok { env' with reads := Function.update env'.reads t (env'.reads t + 1) } := by
      unfold Env.acquireRead; rw [if_neg (by simp [hw])]
    rw [ha]
    simp only []
    rw [C75_told cfg t ev h' _ _ _ _ (by cases hc : ev.isCreation <;> cases hd : ev.isRemoval <;> simp_all) hh]
    cases inTurn ((toldOf (cfg.trackers t) ev (if s = true then rows.sort else rows)).map fun c => c.1.handle ev c.2 h')
      { env' with reads := Function.update env'.reads t (env'.reads t + 1) } with
    | mk e r => cases r <;> rfl

/-! ### `Model/Universe` is an instance -/

/-- Forgets what a panic leaves. -/
def Xr.outOf {α : Type} : Env S × R α → R (α × Env S)
  | (env, .ok a) => .ok (a, env)
  | (_, .error p) => .error p

theorem xFlushLoop_code (cfg : Cfg S) (n : Nat) (t : T) (ev : Event) (h : Handler) (hh : cfg.handler ev = .ok h)
    (xh : XHandler S) (trs : List (Tracker S)) (st : Select (List Nat) × Bool) (env : Env S) :
    Xr.outOf (xFlushLoop ev xh (trs.map (Tracker.code cfg n t)) st env) =
      (trs.foldlM (flushStep (doFlush cfg n) t ev h) ⟨st.1, st.2, env⟩ >>= fun q => .ok ((q.sel, q.sorted), q.env)) := by
  induction trs generalizing st env with
  | nil => rfl
  | cons tr trs ih =>
    rw [List.map_cons, List.foldlM_cons, bindAssoc]
    unfold xFlushLoop
    have hstep : ∀ st' : Select (List Nat) × Bool, ∀ env', flushStep (doFlush cfg n) t ev h ⟨st.1, st.2, env⟩ tr = .ok ⟨st'.1, st'.2, env'⟩ →
        xFlushStep ev xh st (Tracker.code cfg n t tr) env = (env', .ok st') := by
      intro st' env' he
      unfold flushStep at he
      unfold xFlushStep
      have hcode : (Tracker.code cfg n t tr).considers ev = tr.considers ev := rfl
      rw [hcode]
      cases hc : tr.considers ev with
      | false =>
        rw [if_pos hc] at he
        injection he with he
        injection he with e1' e2' e3'
        rw [if_pos rfl, ← e3', show st' = st from Prod.ext e1'.symm e2'.symm]
        rfl
      | true =>
        rw [if_neg (by simp [hc])] at he
        rw [if_neg (by simp)]
        have hsort : (Tracker.code cfg n t tr).sort = tr.sort := rfl
        rw [hsort]
        have hhd : ∀ sel, (Tracker.code cfg n t tr).handle ev sel xh env = Xr.step (trackerHandle (doFlush cfg n) t tr ev sel h) env := by
          intro sel
          show Xr.step (fun env => match cfg.handler ev with
            | .ok h => trackerHandle (doFlush cfg n) t tr ev sel h env
            | .error p => .error p) env = _
          rw [hh]
        cases hs : (!st.2 && tr.sort) with
        | true =>
          simp only [hs, if_true] at he ⊢
          cases hx : trackerHandle (doFlush cfg n) t tr ev st.1.sort h env with
          | error p => rw [hx] at he; cases he
          | ok e1 =>
            rw [hx] at he
            have he : Except.ok _ = Except.ok _ := he
            injection he with he
            injection he with e1' e2' e3'
            have : (Tracker.code cfg n t tr).handle ev st.1.sort xh env = (e1, .ok ()) := by
              rw [hhd]; unfold Xr.step; rw [hx]
            rw [Xr.andThen_ok this]
            unfold Xr.ret
            rw [← e3']
            show (e1, Except.ok (st.1.sort, true)) = (e1, Except.ok st')
            rw [show st' = (st.1.sort, true) from Prod.ext e1'.symm e2'.symm]
        | false =>
          simp only [hs, Bool.false_eq_true, if_false] at he ⊢
          cases hx : trackerHandle (doFlush cfg n) t tr ev st.1 h env with
          | error p => rw [hx] at he; cases he
          | ok e1 =>
            rw [hx] at he
            have he : Except.ok _ = Except.ok _ := he
            injection he with he
            injection he with e1' e2' e3'
            have : (Tracker.code cfg n t tr).handle ev st.1 xh env = (e1, .ok ()) := by
              rw [hhd]; unfold Xr.step; rw [hx]
            rw [Xr.andThen_ok this]
            unfold Xr.ret
            rw [← e3']
            show (e1, Except.ok st) = (e1, Except.ok st')
            rw [show st' = st from Prod.ext e1'.symm e2'.symm]
    have hfail : ∀ p, flushStep (doFlush cfg n) t ev h ⟨st.1, st.2, env⟩ tr = .error p →
        ∃ env', xFlushStep ev xh st (Tracker.code cfg n t tr) env = (env', .error p) := by
      intro p he
      unfold flushStep at he
      unfold xFlushStep
      have hcode : (Tracker.code cfg n t tr).considers ev = tr.considers ev := rfl
      rw [hcode]
      cases hc : tr.considers ev with
      | false => rw [if_pos hc] at he; cases he
      | true =>
        rw [if_neg (by simp [hc])] at he
        rw [if_neg (by simp)]
        have hsort : (Tracker.code cfg n t tr).sort = tr.sort := rfl
        rw [hsort]
        have hhd : ∀ sel, (Tracker.code cfg n t tr).handle ev sel xh env = Xr.step (trackerHandle (doFlush cfg n) t tr ev sel h) env := by
          intro sel
          show Xr.step (fun env => match cfg.handler ev with
            | .ok h => trackerHandle (doFlush cfg n) t tr ev sel h env
            | .error p => .error p) env = _
          rw [hh]
        cases hs : (!st.2 && tr.sort) with
        | true =>
          simp only [hs, if_true] at he ⊢
          cases hx : trackerHandle (doFlush cfg n) t tr ev st.1.sort h env with
          | ok e1 => rw [hx] at he; cases he
          | error q =>
            rw [hx] at he
            have he : Except.error q = Except.error p := he
            cases he
            exact ⟨env, Xr.andThen_err (by rw [hhd]; unfold Xr.step; rw [hx])⟩
        | false =>
          simp only [hs, Bool.false_eq_true, if_false] at he ⊢
          cases hx : trackerHandle (doFlush cfg n) t tr ev st.1 h env with
          | ok e1 => rw [hx] at he; cases he
          | error q =>
            rw [hx] at he
            have he : Except.error q = Except.error p := he
            cases he
            exact ⟨env, Xr.andThen_err (by rw [hhd]; unfold Xr.step; rw [hx])⟩
    cases he : flushStep (doFlush cfg n) t ev h ⟨st.1, st.2, env⟩ tr with
    | error p =>
      obtain ⟨env', hx⟩ := hfail p he
      rw [Xr.andThen_err hx]
      rfl
    | ok q =>
      rw [Xr.andThen_ok (hstep (q.sel, q.sorted) q.env he), okBind]
      exact ih (q.sel, q.sorted) q.env

theorem xDoFlush_code (cfg : Cfg S) (n : Nat) (t : T) (ev : Event) (pushed delete : Bool) (sel : Select (List Nat)) (env : Env S) :
    Xr.outOf (xDoFlush (cfg.code n) t ev pushed delete sel false env) = doFlush cfg (n + 1) t ev pushed delete sel env := by
  unfold xDoFlush
  unfold doFlush
  by_cases hb : ((pushed && delete) || (ev.isRemoval && ev.isCreation)) = true
  · rw [if_pos hb, if_pos hb]; rfl
  · rw [if_neg hb, if_neg hb]
    cases hh : cfg.handler ev with
    | error p =>
      have : (cfg.code n).handler ev = .error p := by
        unfold Cfg.handler at hh
        unfold XCfg.handler Cfg.code
        rw [List.getElem?_map]
        cases hg : cfg.handlers[ev.id]? with
        | none => rw [hg] at hh; cases hh; rfl
        | some h => rw [hg] at hh; cases hh
      rw [this]
      rfl
    | ok h =>
      have : (cfg.code n).handler ev = .ok (h.code cfg n) := by
        unfold Cfg.handler at hh
        unfold XCfg.handler Cfg.code
        rw [List.getElem?_map]
        cases hg : cfg.handlers[ev.id]? with
        | none => rw [hg] at hh; cases hh
        | some h => rw [hg] at hh; cases hh; rfl
      rw [this, okBind]
      simp only []
      have hl := xFlushLoop_code cfg n t ev h hh (h.code cfg n) (cfg.trackers t) (sel, sel.isAll) env
      show Xr.outOf (Xr.andThen (xFlushLoop ev (h.code cfg n) ((cfg.trackers t).map (Tracker.code cfg n t)) (sel, sel.isAll))
        _ env) = _
      cases hx : xFlushLoop ev (h.code cfg n) ((cfg.trackers t).map (Tracker.code cfg n t)) (sel, sel.isAll) env with
      | mk env' r =>
        rw [hx] at hl
        cases hf : (cfg.trackers t).foldlM (flushStep (doFlush cfg n) t ev h) ⟨sel, sel.isAll, env⟩ with
        | error p =>
          rw [hf] at hl
          cases r with
          | ok a => cases hl
          | error q =>
            have hl : Except.error q = Except.error p := hl
            cases hl
            rw [Xr.andThen_err hx]
            rfl
        | ok q =>
          rw [hf] at hl
          cases r with
          | error p => cases hl
          | ok a =>
            have hl : Except.ok (a, env') = Except.ok ((q.sel, q.sorted), q.env) := hl
            cases hl
            rw [Xr.andThen_ok hx]
            rfl

/-- C75: a universe with derived trackers, observers and provided handlers is the special case the other properties are
about: the flush there and the flush here have the same result and panic with the same panic. -/
theorem C75_instance (cfg : Cfg S) (n : Nat) (t : T) (w : W (S t)) (ev : Event) (env : Env S) :
    (∀ env', flush cfg (n + 1) t w ev env = .ok env' ↔ xFlush (cfg.code n) t w ev env = (env', .ok ())) ∧
    (∀ p, flush cfg (n + 1) t w ev env = .error p ↔ ∃ env', xFlush (cfg.code n) t w ev env = (env', .error p)) := by
  have hout : Xr.outOf (xFlush (cfg.code n) t w ev env) = (flush cfg (n + 1) t w ev env >>= fun e => .ok ((), e)) := by
    unfold xFlush flush flushWith
    simp only []
    by_cases he : w.changes.isEmpty = true
    · rw [if_pos he, if_pos he]; rfl
    · rw [if_neg he, if_neg he, bindAssoc]
      have hd := xDoFlush_code cfg n t ev w.pushed w.delete w.changes (env.unlock t w.tbl)
      cases hx : xDoFlush (cfg.code n) t ev w.pushed w.delete w.changes false (env.unlock t w.tbl) with
      | mk env1 r =>
        rw [hx] at hd
        cases r with
        | error p =>
          have hd : Except.error p = _ := hd
          rw [← hd, Xr.andThen_err hx]
          rfl
        | ok ch =>
          have hd : Except.ok (ch, env1) = _ := hd
          rw [← hd, Xr.andThen_ok hx, okBind]
          simp only []
          cases hr : (ev.isRemoval && !ch.isEmpty) with
          | false => simp only [Bool.false_eq_true, if_false]; rfl
          | true =>
            simp only [if_true]
            unfold xRemove
            cases hl : env1.lock t with
            | error p => rfl
            | ok q =>
              rw [okBind]
              simp only []
              have ho := out_removeSel ch q.1.tbl
              unfold Cr.out at ho
              cases hy : Cr.removeSel ch q.1.tbl with
              | mk x r =>
                rw [hy] at ho
                cases hz : q.1.tbl.removeSel ch with
                | error p =>
                  rw [hz] at ho
                  cases r with
                  | ok u => cases ho
                  | error p' =>
                    have ho : Except.error p' = Except.error p := ho
                    cases ho
                    rfl
                | ok y =>
                  rw [hz] at ho
                  cases r with
                  | error p => cases ho
                  | ok u =>
                    have ho : Except.ok (x, u) = Except.ok (y, ()) := ho
                    cases ho
                    rfl
  cases hx : xFlush (cfg.code n) t w ev env with
  | mk env1 r =>
    rw [hx] at hout
    cases hf : flush cfg (n + 1) t w ev env with
    | error p =>
      rw [hf] at hout
      cases r with
      | ok u => cases hout
      | error q =>
        have hout : Except.error q = Except.error p := hout
        cases hout
        refine ⟨fun env' => ⟨fun h => (by cases h), fun h => (by cases h)⟩, fun p => ⟨?_, ?_⟩⟩
        · intro h; cases h; exact ⟨_, rfl⟩
        · rintro ⟨e, h⟩; cases h; rfl
    | ok e =>
      rw [hf] at hout
      cases r with
      | error q => cases hout
      | ok u =>
        have hout : Except.ok (u, env1) = Except.ok ((), e) := hout
        cases hout
        refine ⟨fun env' => ⟨fun h => (by cases h; rfl), fun h => (by cases h; rfl)⟩, fun p => ⟨fun h => (by cases h), ?_⟩⟩
        rintro ⟨e, h⟩; cases h

/-- C75: `live_flush` with trackers of any kind. If one panics the change list is lost with the panic (so the lock can be
dropped) and the table keeps the rows it had under the lock; otherwise the flushed rows go, and the lock is as new. -/
theorem C75_live_flush (cfg : XCfg S) (t : T) (w : W (S t)) (ev : Event) (h : XHandler S) (env env' : Env S)
    (hb : ((w.pushed && w.delete) || (ev.isRemoval && ev.isCreation)) = false) (hh : cfg.handlers[ev.id]? = some h)
    (hne : w.changes.isEmpty = false) :
    (∀ p, inTurn ((toldOf (cfg.trackers t) ev w.changes).map fun c => c.1.handle ev c.2 h) (env.put t w.tbl) = (env', .error p) →
      xLiveFlush cfg t w ev env = (env', { w with changes := .these [] }, .error p)) ∧
    (inTurn ((toldOf (cfg.trackers t) ev w.changes).map fun c => c.1.handle ev c.2 h) (env.put t w.tbl) = (env', .ok ()) →
      (ev.isRemoval = false → xLiveFlush cfg t w ev env = (env'.put t w.tbl, W.lock w.tbl, .ok ())) ∧
      (ev.isRemoval = true → ∀ rows, w.changes = .these rows → (S t).kind = .consistent → Reach (key t) true w.tbl →
        (∀ i ∈ rows, i < w.tbl.len) → ∃ x, xLiveFlush cfg t w ev env = (env'.put t x, W.lock x, .ok ()) ∧
          ∀ i, x.view i = if i ∈ rows then none else w.tbl.view i)) := by
  have hd := C75_told cfg t ev h w.pushed w.delete w.changes (env.put t w.tbl) hb hh
  constructor
  · intro p hp
    rw [hp] at hd
    unfold xLiveFlush
    rw [if_neg (by simp [hne]), hd]
  · intro hp
    rw [hp] at hd
    simp only [] at hd
    constructor
    · intro hr
      unfold xLiveFlush
      rw [if_neg (by simp [hne]), hd, hr]
      rfl
    · intro hr rows hrows hk hreach hlt
      obtain ⟨L, hL⟩ := hreach.wf
      obtain ⟨rows', hsel, hperm⟩ : ∃ rows', (if ((cfg.trackers t).filter (fun tr => tr.considers ev)).any (fun tr => tr.sort)
          then w.changes.sort else w.changes) = .these rows' ∧ rows'.Perm rows := by
        rw [hrows]
        split
        · exact ⟨_, rfl, List.perm_insertionSort _ _⟩
        · exact ⟨_, rfl, List.Perm.refl _⟩
      have hall : ∀ i ∈ rows', i < L.length := by
        intro i hi; rw [← hL.len]; exact hlt i (hperm.mem_iff.1 hi)
      obtain ⟨x, e1, e2, e3⟩ := hL.deleteLoop hk rows' hall
      have hrm : w.tbl.removeSel (.these rows') = .ok x := by
        unfold Tbl.removeSel; simp only []; rw [hL.len]; exact e1
      refine ⟨x, ?_, ?_⟩
      · unfold xLiveFlush
        rw [if_neg (by simp [hne]), hd, hsel, hr]
        simp only []
        have hne' : (Select.these rows').isEmpty = false := by
          cases rows' with
          | nil =>
            have := hperm.symm.eq_nil
            subst this
            rw [hrows] at hne
            cases hne
          | cons _ _ => rfl
        rw [hne']
        simp only [Bool.not_false, Bool.and_self, if_true]
        rw [cr_removeSel_ok hrm]
      · intro i
        rw [e3.view, hL.view]
        by_cases hi : i ∈ rows
        · simp [e2 i, hperm.mem_iff, hi]
        · simp [e2 i, hperm.mem_iff, hi]

end
/-! ### Examples -/

/-- A handler that does nothing (`NullHandler`, src/event.rs:122-126). -/
def quietCode : XHandler UniS := { needsSort := fun _ _ => .ok false, handle := fun _ _ _ => Xr.ret () }

/-- A tracker of table 0 that, told of a removal, runs `ops` on table 0 in sessions of its own (which it is not told of). -/
def meddler (ops : List (TOp (UniS 0))) : XTracker UniS where
  considers ev := ev == evDelete
  sort := true
  handle _ _ _ := Xr.step fun env => do
    let x ← runOps (uniKey 0) (env.tbl 0) ops
    .ok (env.put 0 x)

/-- A tracker that adds a row to table 1, then panics. -/
def faulty : XTracker UniS where
  considers _ := true
  sort := false
  handle _ _ _ := fun env =>
    match runOps (uniKey 1) (env.tbl 1) [.push (uniRow 1 0 99)] with
    | .ok x => (env.put 1 x, .error .userPanic)
    | .error p => (env, .error p)

/-- Table 0 with the given trackers. -/
def customCfg (trs : List (XTracker UniS)) : XCfg UniS :=
  { trackers := fun t => if t = 0 then trs else [], handlers := [quietCode, quietCode, quietCode] }

/-- The demo universe while a write lock on table 0 is held. -/
def lockedUni : Env UniS := { tbl := uniTbl, reads := fun _ => 0, writer := fun t => t == 0, log := [] }

/-- A write lock on table 0 through which row 1 was deleted. -/
def markedW : W (UniS 0) := { tbl := uniTbl 0, changes := .these [1], pushed := false, delete := true }

/-- C75: "making structural changes to it will likely cause trouble" (src/tracking.rs:209-210): a tracker that removes the
flushed row itself and adds a new one, which gets its id, loses the new row to the flush; a tracker that only adds rows
keeps them. -/
theorem C75_structural_trouble :
    ((fun r => (uniView (r.1.tbl 0) 4, r.2)) (xFlush (customCfg [meddler [.remove (.these [1]), .push (uniRow 0 77 77)]]) 0 markedW evDelete lockedUni)) =
      ([some (10, 0), none, some (12, 0), none], .ok ()) ∧
    ((fun r => (uniView (r.1.tbl 0) 4, r.2)) (xFlush (customCfg [meddler [.push (uniRow 0 77 77)]]) 0 markedW evDelete lockedUni)) =
      ([some (10, 0), none, some (12, 0), some (77, 77)], .ok ()) := by decide

/-- The second tracker panics: the first has done its work, the third is not called, row 1 stays. -/
example : ((fun r => (uniView (r.1.tbl 0) 4, uniView (r.1.tbl 1) 4, r.2))
      (xFlush (customCfg [meddler [.push (uniRow 0 77 77)], faulty, meddler [.push (uniRow 0 88 88)]]) 0 markedW evDelete lockedUni)) =
    ([some (10, 0), some (11, 0), some (12, 0), some (77, 77)], [some (0, 20), some (0, 21), some (2, 22), some (0, 99)], .error .userPanic) := by
  decide

/-- The hypotheses of `C75_removal` and `C75_told` are met. -/
example : ∃ env', theirDoing (customCfg [meddler [.push (uniRow 0 77 77)]]) 0 markedW evDelete quietCode lockedUni = (env', .ok ()) ∧
    Reach (uniKey 0) true (env'.tbl 0) ∧ env'.reads 0 = 0 ∧ env'.writer 0 = false ∧ (∀ i ∈ [1], i < (env'.tbl 0).len) ∧
    (customCfg [meddler [.push (uniRow 0 77 77)]]).handlers[evDelete.id]? = some quietCode ∧ (UniS 0).kind = .consistent := by
  cases hr : runOps (uniKey 0) (uniTbl 0) [.push (uniRow 0 77 77)] with
  | error p =>
    have : (runOps (uniKey 0) (uniTbl 0) [.push (uniRow 0 77 77)]).toOption.isSome = true := by decide
    rw [hr] at this
    cases this
  | ok x =>
    have hlen : (runOps (uniKey 0) (uniTbl 0) [.push (uniRow 0 77 77)]).toOption.map Tbl.len = some 4 := by decide
    rw [hr] at hlen
    have hlen : some x.len = some 4 := hlen
    injection hlen with hlen
    have hun : (lockedUni.unlock 0 markedW.tbl).tbl 0 = uniTbl 0 := by
      simp [Env.unlock, Env.put, markedW]
    refine ⟨(lockedUni.unlock 0 markedW.tbl).put 0 x, ?_, ?_, rfl, ?_, ?_, rfl, rfl⟩
    · show inTurn [(meddler [.push (uniRow 0 77 77)]).handle evDelete _ quietCode] _ = _
      unfold inTurn meddler Xr.step
      simp only []
      rw [hun, hr]
      rfl
    · have hput : ((lockedUni.unlock 0 markedW.tbl).put 0 x).tbl 0 = x := by simp [Env.put]
      rw [hput]
      refine Reach.ofOps (uniTbl_reach 0) ?_ hr
      intro op hop
      simp only [List.mem_cons, List.not_mem_nil, or_false] at hop
      subst hop
      simp [TOp.Allowed, TOp.clears]
    · simp [Env.unlock, Env.put]
    · have hput : ((lockedUni.unlock 0 markedW.tbl).put 0 x).tbl 0 = x := by simp [Env.put]
      rw [hput, hlen]
      decide

/-- A handler that wants sorted rows and removes them itself (as `DeleteHandler` with a consistent table). -/
def sortingCode : XHandler UniS where
  needsSort _ _ := .ok true
  handle t _ rows := fun env =>
    match (env.tbl t).removeSel rows with
    | .ok x => (env.put t x, .ok ())
    | .error p => (env, .error p)

/-- The hypotheses of `C75_include_self` are met: the tracker adds a row, then the handler gets the rows sorted. -/
example : ((fun r => (uniView (r.1.tbl 0) 4, r.2)) (xDoFlush { customCfg [{ meddler [.push (uniRow 0 77 77)] with sort := false }] with
      handlers := [sortingCode, sortingCode, sortingCode] } 0 evDelete false true (.these [2, 0]) true lockedUni)) =
    ([none, some (11, 0), none, some (77, 77)], .ok (.these [0, 2])) := by decide

end V11
