import Verif.Model.Race
import Verif.Props.Flush
import Verif.Props.Cascade
import Verif.Props.Consistent

/-!
# `flush` and other threads: C48
-/

set_option linter.unusedSectionVars false
set_option linter.unusedVariables false

namespace V11
variable {T : Type} [DecidableEq T] {S : T → Schema} [LS : ∀ t, LawfulSchema (S t)] {K : Type} [LinearOrder K]
  {key : (t : T) → Row (S t) → K} {cfg : Cfg S} {rank : T → Nat}

theorem foldlM_flushStep_perm {f : FlushFn S} {p : T} {ev : Event} {h : Handler} (ts : List (Tracker S)) {st st' : FlushSt S}
    (hs : ts.foldlM (flushStep f p ev h) st = .ok st') : SelPerm st'.sel st.sel := by
  induction ts generalizing st with
  | nil => injection hs with hs; subst hs; exact SelPerm.refl _
  | cons tr ts ih =>
    rw [List.foldlM_cons] at hs
    cases e : flushStep f p ev h st tr with
    | error q => rw [e] at hs; cases hs
    | ok st1 =>
      rw [e, okBind] at hs
      refine (ih hs).trans ?_
      unfold flushStep at e
      by_cases hc : tr.considers ev = false
      · rw [if_pos hc] at e; injection e with e; subst e; exact SelPerm.refl _
      · rw [if_neg hc] at e
        simp only [] at e
        by_cases hb : (!st.sorted && tr.sort) = true
        · rw [if_pos hb] at e
          cases e2 : trackerHandle f p tr ev st.sel.sort h st.env with
          | error q => simp only [e2] at e; cases e
          | ok env1 =>
            simp only [e2, okBind] at e
            injection e with e; subst e
            exact SelPerm.sort _
        · rw [if_neg hb] at e
          cases e2 : trackerHandle f p tr ev st.sel h st.env with
          | error q => simp only [e2] at e; cases e
          | ok env1 =>
            simp only [e2, okBind] at e
            injection e with e; subst e
            exact SelPerm.refl _

/-- `do_flush` returns the rows it was given, perhaps in another order. -/
theorem doFlush_sel {n : Nat} {p : T} {ev : Event} {pushed delete : Bool} {sel sel' : Select (List Nat)} {env env' : Env S}
    (h : doFlush cfg n p ev pushed delete sel env = .ok (sel', env')) : SelPerm sel' sel := by
  cases n with
  | zero => cases h
  | succ n =>
    unfold doFlush at h
    split at h
    · cases h
    · cases eh : cfg.handler ev with
      | error q => rw [eh] at h; cases h
      | ok hd =>
        rw [eh, okBind] at h
        cases e : (cfg.trackers p).foldlM (flushStep (doFlush cfg n) p ev hd) ⟨sel, sel.isAll, env⟩ with
        | error q => rw [e] at h; cases h
        | ok st =>
          rw [e, okBind] at h
          injection h with h
          injection h with h1 h2
          subst h1
          exact foldlM_flushStep_perm _ e

theorem Aligned.view' {S : Schema} [LawfulSchema S] {t : Tbl S} {L : List (Row S)} {d : Nat → Prop} (h : Aligned t L d) (i : Nat) :
    t.view i = if i ∈ t.free then none else L[i]? := by
  unfold Tbl.view
  rw [h.contains_eq]
  by_cases hl : i < L.length
  · by_cases hf : i ∈ t.free
    · simp [hf]
    · simp [hf, hl, h.rep.rowAt hl, Except.toOption]
  · simp [hl]

/-- What the removal at the end of a flush does to a consistent table. -/
theorem removeSel_exact {S : Schema} [LawfulSchema S] {key : Row S → K} {c : Bool} {t : Tbl S} (h : Reach key c t)
    (hk : S.kind = .consistent) (rows : List Nat) :
    ((∀ i ∈ rows, i < t.len) → ∃ t', t.removeSel (.these rows) = .ok t' ∧ ∀ i,
      (t'.view i = if i ∈ rows then none else t.view i) ∧ t'.contains i = if i ∈ rows then false else t.contains i) ∧
    ((∃ i ∈ rows, t.len ≤ i) → t.removeSel (.these rows) = .error .assertRow) := by
  obtain ⟨L, d, ha⟩ := h.aligned
  have hlen := ha.rep.len
  unfold Tbl.removeSel
  simp only []
  rw [hlen]
  refine ⟨fun hall => ?_, (ha.deleteLoop hk rows).2⟩
  obtain ⟨t', e1, e2, e3⟩ := (ha.deleteLoop hk rows).1 hall
  refine ⟨t', e1, ?_⟩
  intro i
  rw [e3.view', ha.view', e3.contains_eq, ha.contains_eq, e2]
  simp only [mem_foldl_insert, List.contains_eq_mem]
  by_cases hi : i ∈ rows <;> simp [hi]

theorem contains_len {S : Schema} {t : Tbl S} {i : Nat} (h : t.len ≤ i) : t.contains i = false := by
  unfold Tbl.contains
  have : decide (i < t.len) = false := by simpa using h
  split <;> simp [this]

/-- C48: without other threads this is a session. -/
theorem C48_quiet (n : Nat) (p : T) (ops : List (LOp (S p))) (ev : Event) (env : Env S) :
    racedSession cfg n key .ok .ok p ops ev env = session cfg n key p ops ev env := by
  have : racedFlush cfg n .ok .ok = doFlush cfg n := by
    funext t ev pu de sel env
    unfold racedFlush
    rw [okBind]
    cases doFlush cfg n t ev pu de sel env <;> rfl
  unfold racedSession session flush
  rw [this]

/-- C48, exactly: a session marks rows of `p` and flushes them with a removal event; other threads do whatever they
like before and after the trackers run, and leave the table in the state `env3` when the flushing thread gets its lock
back. Then the ids that were marked are removed from *that* state, whatever rows they hold by then; everything else
stays as the other threads left it. If by then the table is too short, `flush` panics. -/
theorem C48_window {ev : Event} (hr : ev.isRemoval = true) {n : Nat} {p : T} (hp : (S p).kind = .consistent)
    {env env1 env2 env3 : Env S} (hu : Unlocked env) {ops : List (LOp (S p))} (hm : ∀ op ∈ ops, op.mark.isSome = true)
    (hne : ops ≠ []) {w : W (S p)} (hs : (W.lock (env.tbl p)).steps (key p) ops = .ok w) {before after : Interference S}
    (hb : before env = .ok env1) {sel : Select (List Nat)}
    (hd : doFlush cfg n p ev w.pushed w.delete w.changes env1 = .ok (sel, env2)) (ha : after env2 = .ok env3)
    (hu3 : Unlocked env3) {c : Bool} (hr3 : Reach (key p) c (env3.tbl p)) :
    ((∀ i ∈ ops.filterMap LOp.mark, i < (env3.tbl p).len) →
      ∃ env', racedSession cfg n key before after p ops ev env = .ok env' ∧ Unlocked env' ∧
        (∀ i, ((env'.tbl p).view i = if i ∈ ops.filterMap LOp.mark then none else (env3.tbl p).view i) ∧
          (env'.tbl p).contains i = if i ∈ ops.filterMap LOp.mark then false else (env3.tbl p).contains i) ∧
        ∀ t, t ≠ p → env'.tbl t = env3.tbl t) ∧
    ((∃ i ∈ ops.filterMap LOp.mark, (env3.tbl p).len ≤ i) →
      racedSession cfg n key before after p ops ev env = .error .assertRow) := by
  obtain ⟨enva, a1, a2, a3, a4⟩ := unlocked_lock hu p
  obtain ⟨b1, b2⟩ := steps_marks (rows := []) hp rfl ops hm hs
  simp only [List.nil_append] at b2
  have hrows : ops.filterMap LOp.mark ≠ [] := by
    cases ops with
    | nil => exact absurd rfl hne
    | cons op ops =>
      have := hm op (by simp)
      obtain ⟨i, hi⟩ := Option.isSome_iff_exists.1 this
      simp [hi]
  have hsp := doFlush_sel hd
  rw [b2] at hsp
  obtain ⟨rows', rfl, hperm⟩ : ∃ rows', sel = .these rows' ∧ rows'.Perm (ops.filterMap LOp.mark) := by
    cases sel with
    | all => exact absurd hsp (by simp [SelPerm])
    | these r => exact ⟨r, rfl, hsp⟩
  have hbe : before (enva.unlock p w.tbl) = .ok env1 := by
    obtain ⟨e0, f1, f2⟩ := unlock_unlocked hu p
    rw [a1] at f1
    injection f1 with f1
    injection f1 with _ f1
    subst f1
    have : enva.unlock p w.tbl = env := by
      rw [f2, b1]
      unfold Env.put
      simp [W.lock]
    rw [this]; exact hb
  have hred : racedSession cfg n key before after p ops ev env = (do
      let (w, env) ← env3.lock p
      let x ← w.tbl.removeSel (.these rows')
      .ok (env.unlock p x)) := by
    unfold racedSession
    rw [a1, okBind]
    simp only []
    rw [hs, okBind]
    unfold flushWith
    have : w.changes.isEmpty = false := by rw [b2]; simp [Select.isEmpty, hrows]
    rw [if_neg (by simp [this])]
    simp only []
    unfold racedFlush
    rw [hbe, okBind, hd, okBind]
    simp only []
    rw [ha, okBind, okBind]
    simp only []
    have hne' : (Select.these rows').isEmpty = false := by
      cases rows' with
      | nil => exact absurd (hperm.symm.eq_nil) hrows
      | cons => rfl
    rw [if_pos (by simp [hr, hne'])]
  obtain ⟨env4, c1, c2⟩ := unlock_unlocked hu3 p
  obtain ⟨d1, d2⟩ := removeSel_exact hr3 hp rows'
  rw [hred, c1, okBind]
  simp only [W.lock]
  constructor
  · intro hlt
    obtain ⟨x, e1, e2⟩ := d1 (fun i hi => hlt i (hperm.mem_iff.1 hi))
    rw [e1, okBind]
    refine ⟨_, rfl, ?_, ?_, ?_⟩
    · rw [c2]; exact hu3
    · intro i
      rw [c2]
      simp only [Env.put, Function.update_self]
      have := e2 i
      simp only [hperm.mem_iff] at this
      exact this
    · intro t ht
      rw [c2]
      simp [Env.put, Function.update_of_ne ht]
  · rintro ⟨i, hi, hge⟩
    rw [d2 ⟨i, hperm.mem_iff.2 hi, hge⟩, errBind]

/-- C48: if whatever other threads do to the table in the window spares the marked rows — adds rows, edits other rows —
then the rows that go are exactly the rows that were marked, and no other row, old or new, is lost. -/
theorem C48_spared {ev : Event} (hr : ev.isRemoval = true) {n : Nat} {p : T} (hp : (S p).kind = .consistent)
    {env env1 env2 env3 : Env S} (hu : Unlocked env) (h0 : Reach (key p) true (env.tbl p)) {ops : List (LOp (S p))}
    (hm : ∀ op ∈ ops, op.mark.isSome = true) (hlive : ∀ i ∈ ops.filterMap LOp.mark, (env.tbl p).contains i = true)
    (hne : ops ≠ []) {w : W (S p)} (hs : (W.lock (env.tbl p)).steps (key p) ops = .ok w) {before after : Interference S}
    (hb : before env = .ok env1) {sel : Select (List Nat)}
    (hd : doFlush cfg n p ev w.pushed w.delete w.changes env1 = .ok (sel, env2)) (ha : after env2 = .ok env3)
    (hu3 : Unlocked env3) (others : List (TOp (S p)))
    (ho : runOps (key p) (env.tbl p) others = .ok (env3.tbl p))
    (hsp : ∀ i ∈ ops.filterMap LOp.mark, ∀ op ∈ others, op.Spares i) :
    ∃ env', racedSession cfg n key before after p ops ev env = .ok env' ∧
      (∀ i ∈ ops.filterMap LOp.mark, (env3.tbl p).view i = (env.tbl p).view i ∧ (env'.tbl p).view i = none) ∧
      (∀ i, i ∉ ops.filterMap LOp.mark → (env'.tbl p).view i = (env3.tbl p).view i) ∧ ∀ t, t ≠ p → env'.tbl t = env3.tbl t := by
  have hst : ∀ i ∈ ops.filterMap LOp.mark, (env3.tbl p).contains i = true ∧ (env3.tbl p).view i = (env.tbl p).view i :=
    fun i hi => C03_ids_stable hp _ _ h0 i (hlive i hi) others (hsp i hi) ho
  have hr3 : Reach (key p) true (env3.tbl p) := by
    refine Reach.ofOps h0 ?_ ho
    intro op hop
    obtain ⟨i, hi⟩ : ∃ i, i ∈ ops.filterMap LOp.mark := by
      cases ops with
      | nil => exact absurd rfl hne
      | cons o os =>
        obtain ⟨i, hi⟩ := Option.isSome_iff_exists.1 (hm o (by simp))
        exact ⟨i, List.mem_filterMap.2 ⟨o, by simp, hi⟩⟩
    have := hsp i hi op hop
    cases op with
    | remove sel => cases sel <;> simp_all [TOp.Spares, TOp.clears, TOp.Allowed]
    | _ => simp_all [TOp.Spares, TOp.clears, TOp.Allowed]
  obtain ⟨h1, -⟩ := C48_window hr hp hu hm hne hs hb hd ha hu3 hr3
  obtain ⟨env', e1, e2, e3, e4⟩ := h1 (by
    intro i hi
    have := (hst i hi).1
    by_contra hc
    rw [contains_len (by omega)] at this
    cases this)
  refine ⟨env', e1, ?_, ?_, e4⟩
  · intro i hi
    exact ⟨(hst i hi).2, by rw [(e3 i).1, if_pos hi]⟩
  · intro i hi
    rw [(e3 i).1, if_neg hi]

/-- C48: a row that refers to a marked row and is there when the flushing thread takes its lock back is left dangling. -/
theorem C48_dangling {ev : Event} (hr : ev.isRemoval = true) {n : Nat} {p : T} (hp : (S p).kind = .consistent)
    {env env1 env2 env3 : Env S} (hu : Unlocked env) {ops : List (LOp (S p))} (hm : ∀ op ∈ ops, op.mark.isSome = true)
    (hne : ops ≠ []) {w : W (S p)} (hs : (W.lock (env.tbl p)).steps (key p) ops = .ok w) {before after : Interference S}
    (hb : before env = .ok env1) {sel : Select (List Nat)}
    (hd : doFlush cfg n p ev w.pushed w.delete w.changes env1 = .ok (sel, env2)) (ha : after env2 = .ok env3)
    (hu3 : Unlocked env3) {c : Bool} (hr3 : Reach (key p) c (env3.tbl p)) {fk : FK S} (hfk : IsFK cfg p fk) (hch : fk.child ≠ p)
    {j : Nat} {r : Row (S fk.child)} (hj : (env3.tbl fk.child).view j = some r) (hmk : fk.ref r ∈ ops.filterMap LOp.mark)
    {env' : Env S} (h : racedSession cfg n key before after p ops ev env = .ok env') :
    (env'.tbl fk.child).view j = some r ∧ (env'.tbl p).contains (fk.ref r) = false ∧ ¬ Integrity cfg env'.tbl := by
  obtain ⟨h1, h2⟩ := C48_window hr hp hu hm hne hs hb hd ha hu3 hr3
  have hlt : ∀ i ∈ ops.filterMap LOp.mark, i < (env3.tbl p).len := by
    intro i hi
    by_contra hc
    rw [h2 ⟨i, hi, by omega⟩] at h
    cases h
  obtain ⟨env4, e1, e2, e3, e4⟩ := h1 hlt
  rw [h] at e1
  injection e1 with e1
  subst e1
  have hv : (env'.tbl fk.child).view j = some r := by rw [e4 _ hch]; exact hj
  have hc : (env'.tbl p).contains (fk.ref r) = false := by rw [(e3 _).2, if_pos hmk]
  refine ⟨hv, hc, ?_⟩
  intro hi
  rw [hi p fk j r hfk hv] at hc
  cases hc

/-! ## The demo universe: one thread deletes parent 0 -/

/-- Another thread deletes parent 0 as well and stores a new parent, which gets the same id. -/
def raceReuse : Interference UniS := fun env => do
  let env ← otherSession uniCfg 3 uniKey 0 [.delete 0] evDelete env
  otherSession uniCfg 3 uniKey 0 [.push (uniRow 0 99 9)] evCreate env

/-- Another thread stores a child of parent 0. -/
def raceChild : Interference UniS := otherSession uniCfg 3 uniKey 1 [.push (uniRow 1 0 77)] evCreate

/-- Another thread stores a parent. -/
def racePush : Interference UniS := otherSession uniCfg 3 uniKey 0 [.push (uniRow 0 55 5)] evCreate

/-- Another thread empties the table. -/
def raceClear : Interference UniS := otherSession uniCfg 3 uniKey 0 [.clear] evDelete

/-- The parents and children after deleting parent 0 while others run. -/
def raceResult (before after : Interference UniS) : Option (List (Option (Nat × Nat)) × List (Option (Nat × Nat))) :=
  match racedSession uniCfg 3 uniKey before after 0 [.delete 0] evDelete uniEnv with
  | .ok e => some (uniView (e.tbl 0) 5, uniView (e.tbl 1) 4)
  | .error _ => none

/-- C48: quiet; another's push survives (`C48_spared`); a child stored before the trackers run goes with its parent;
the same child stored after they ran stays and dangles (`C48_dangling`). -/
example : raceResult .ok .ok = some ([none, some (11, 0), some (12, 0), none, none], [none, none, some (2, 22), none]) ∧
    raceResult .ok racePush = some ([none, some (11, 0), some (12, 0), some (55, 5), none], [none, none, some (2, 22), none]) ∧
    raceResult raceChild .ok = some ([none, some (11, 0), some (12, 0), none, none], [none, none, some (2, 22), none]) ∧
    raceResult .ok raceChild = some ([none, some (11, 0), some (12, 0), none, none], [some (0, 77), none, some (2, 22), none]) :=
  ⟨by rfl, by rfl, by rfl, by rfl⟩

/-- C48: the new parent 0 (99, 9), which nobody deleted, is lost: the result is that of the quiet run. If the table was
emptied meanwhile, `flush` panics. -/
theorem C48_counterexample :
    (∃ e, raceReuse uniEnv = .ok e ∧ ((e.tbl 0).view 0).map uniVals = some (99, 9)) ∧
    raceResult .ok raceReuse = raceResult .ok .ok ∧
    racedSession uniCfg 3 uniKey .ok raceClear 0 [.delete 0] evDelete uniEnv = .error .assertRow := by
  refine ⟨?_, by rfl, by rfl⟩
  cases h : raceReuse uniEnv with
  | error e => exact absurd h (by intro h; have : (raceReuse uniEnv).isOk = true := by rfl
                                  rw [h] at this; cases this)
  | ok e =>
    refine ⟨e, rfl, ?_⟩
    have : (match raceReuse uniEnv with | .ok e => ((e.tbl 0).view 0).map uniVals | .error _ => none) = some (99, 9) := by rfl
    rw [h] at this
    exact this

/-- The hypotheses of `C48_spared` in the second case: the other thread's `push` spares parent 0. -/
example : ((W.lock (uniEnv.tbl 0)).steps (uniKey 0) [.delete 0]).isOk = true ∧ (uniEnv.tbl 0).contains 0 = true ∧
    ∀ op ∈ [TOp.push (uniRow 0 55 5)], op.Spares 0 := by
  refine ⟨by decide, by decide, ?_⟩
  intro op hop
  simp only [List.mem_singleton] at hop
  subst hop
  exact trivial

end V11
