import Verif.Model.TwoUniverses
import Verif.Props.Cascade
import Verif.Lemmas.Serial

/-!
# C95: a flush that is told another universe

`sessionTo own cfg n key p ops ev mine other` is `let mut x = p::write(mine); …ops…; x.flush(other, ev)` and
`liveSessionTo` the same with `x.live_flush(other, ev); drop(x)`. Both universes have the tables of `cfg` and, unless
said otherwise, the same trackers.
-/

set_option linter.unusedSimpArgs false
set_option linter.unusedSectionVars false
set_option linter.unusedVariables false

namespace V11
variable {T : Type} [DecidableEq T] {S : T → Schema} [LS : ∀ t, LawfulSchema (S t)]
variable {K : Type} [LinearOrder K] {key : (t : T) → Row (S t) → K} {cfg : Cfg S} {rank : T → Nat}

theorem doFlushOf_self (cfg : Cfg S) (n : Nat) (t : T) (ev : Event) (pushed delete : Bool) (sel : Select (List Nat)) (env : Env S) :
    doFlushOf (cfg.trackers t) cfg n t ev pushed delete sel env = doFlush cfg n t ev pushed delete sel env := by
  cases n <;> rfl

/-- As regards `other`, such a flush is one of a lock on its own table with the same marks. -/
theorem flushTo_eq {other other1 : Env S} {t : T} (hl : other.lock t = .ok (W.lock (other.tbl t), other1))
    (hx : ∀ x, other1.unlock t x = other.put t x) (n : Nat) (w : W (S t)) (ev : Event) (mine : Env S) :
    flushTo (cfg.trackers t) cfg n t w ev mine other =
      (flush cfg n t { w with tbl := other.tbl t } ev other1).map (fun o => (mine.unlock t w.tbl, o)) := by
  have hself : other1.unlock t (other.tbl t) = other := by
    rw [hx]
    show ({ other with tbl := Function.update other.tbl t (other.tbl t) } : Env S) = other
    rw [Function.update_eq_self]
  unfold flushTo flush flushWith
  simp only []
  by_cases he : w.changes.isEmpty = true
  · rw [if_pos he, if_pos he, hself]; rfl
  · rw [if_neg he, if_neg he, hself, doFlushOf_self]
    cases hd : doFlush cfg n t ev w.pushed w.delete w.changes other with
    | error p => rfl
    | ok r =>
      rw [okBind, okBind]
      by_cases hc : (ev.isRemoval && !r.1.isEmpty) = true
      · rw [if_pos hc, if_pos hc]
        cases r.2.lock t with
        | error p => rfl
        | ok q =>
          rw [okBind, okBind]
          cases q.1.tbl.removeSel r.1 with
          | error p => rfl
          | ok x => rfl
      · rw [if_neg hc, if_neg hc]; rfl

theorem unlock_put {env : Env S} (h : Unlocked env) (p : T) : ∃ env1, env.lock p = .ok (W.lock (env.tbl p), env1) ∧ Holding env1 p ∧
    env1.tbl = env.tbl ∧ ∀ x, env1.unlock p x = env.put p x := by
  obtain ⟨e1, a1, a2, a3, a4⟩ := unlocked_lock h p
  obtain ⟨e2, b1, b2⟩ := unlock_unlocked h p
  rw [a1] at b1
  injection b1 with b1
  injection b1 with _ b1
  subst b1
  exact ⟨e1, a1, a2, a3, b2⟩

/-- Marks made through a lock on `mine`, up to the flush. -/
theorem sessionTo_marks {p : T} (hp : (S p).kind = .consistent) {mine other : Env S} (hm : Unlocked mine) (ho : Unlocked other)
    {ops : List (LOp (S p))} (hmk : ∀ op ∈ ops, op.mark.isSome = true) {w : W (S p)}
    (hs : (W.lock (mine.tbl p)).steps (key p) ops = .ok w) :
    ∃ other1, other.lock p = .ok (W.lock (other.tbl p), other1) ∧ Holding other1 p ∧ other1.tbl = other.tbl ∧ w.pushed = false ∧ w.tbl = mine.tbl p ∧
      w.changes = .these (ops.filterMap LOp.mark) ∧
      ∀ n ev, sessionTo (cfg.trackers p) cfg n key p ops ev mine other =
        (flush cfg n p { w with tbl := other.tbl p } ev other1).map (fun o => (mine, o)) := by
  obtain ⟨m1, a1, a2, a3, a4⟩ := unlock_put hm p
  obtain ⟨o1, b1, b2, b3, b4⟩ := unlock_put ho p
  obtain ⟨c1, c2⟩ := steps_marks (rows := []) hp rfl ops hmk hs
  have hb := steps_book hp ops hs
  refine ⟨o1, b1, b2, b3, ?_, c1, by simpa using c2, ?_⟩
  · rw [hb.pushed]
    have : ops.any LOp.adds = false := by
      rw [List.any_eq_false]
      intro op hop
      have := hmk op hop
      cases op <;> simp_all [LOp.mark, LOp.adds]
    simp [this, W.lock]
  · intro n ev
    unfold sessionTo
    rw [a1, okBind]
    simp only []
    rw [hs, okBind, flushTo_eq b1 b4]
    have : m1.unlock p w.tbl = mine := by
      rw [a4, c1]
      show ({ mine with tbl := Function.update mine.tbl p (mine.tbl p) } : Env S) = mine
      rw [Function.update_eq_self]
    rw [this]

/-- C95: marks (`delete` and `select`) made through a lock on `mine` and flushed with `other` do nothing to
`mine`, and to `other` exactly what marking the same ids through a lock on `other` and flushing does: the same
result or the same panic. -/
theorem C95_acts_on_the_other {p : T} (hp : (S p).kind = .consistent) {mine other : Env S} (hm : Unlocked mine) (ho : Unlocked other)
    (ops : List (LOp (S p))) (hmk : ∀ op ∈ ops, op.mark.isSome = true) (w : W (S p))
    (hs : (W.lock (mine.tbl p)).steps (key p) ops = .ok w) (n : Nat) (ev : Event) :
    sessionTo (cfg.trackers p) cfg n key p ops ev mine other =
      (session cfg n key p ((ops.filterMap LOp.mark).map .select) ev other).map (fun o => (mine, o)) := by
  obtain ⟨o1, b1, b2, b3, b4, b5, b6, b7⟩ := sessionTo_marks (cfg := cfg) hp hm ho hmk hs
  rw [b7]
  congr 1
  obtain ⟨w', hw'⟩ : ∃ w', (W.lock (other.tbl p)).steps (key p) ((ops.filterMap LOp.mark).map .select) = .ok w' := by
    generalize ops.filterMap LOp.mark = rows
    generalize W.lock (other.tbl p) = w0
    induction rows generalizing w0 with
    | nil => exact ⟨w0, rfl⟩
    | cons i rows ih =>
      obtain ⟨w', h⟩ := ih (w0.select i)
      exact ⟨w', h⟩
  obtain ⟨c1, c2⟩ := steps_marks (rows := []) hp rfl _ (by
    intro op hop
    obtain ⟨i, -, rfl⟩ := List.mem_map.1 hop
    rfl) hw'
  have hb := steps_book hp _ hw'
  have hfm : ((ops.filterMap LOp.mark).map (LOp.select (S := S p))).filterMap LOp.mark = ops.filterMap LOp.mark := by
    rw [List.filterMap_map]
    have : (LOp.mark ∘ (LOp.select (S := S p))) = some := rfl
    rw [this, List.filterMap_some]
  rw [hfm] at c2
  have hpu : w'.pushed = false := by
    rw [hb.pushed]
    have : ((ops.filterMap LOp.mark).map (LOp.select (S := S p))).any LOp.adds = false := by
      rw [List.any_eq_false]
      intro op hop
      obtain ⟨i, -, rfl⟩ := List.mem_map.1 hop
      simp [LOp.adds]
    simp [this, W.lock]
  have heq : ∀ n ev, flush cfg n p { w with tbl := other.tbl p } ev o1 = flush cfg n p w' ev o1 := by
    intro n ev
    unfold flush flushWith
    have : w'.changes = w.changes := by rw [c2, b6]; simp
    simp only []
    rw [this, c1]
    have hdel : ∀ a b e, doFlush cfg n p ev w.pushed a w.changes e = doFlush cfg n p ev w'.pushed b w.changes e := by
      intro a b e
      rw [b4, hpu]
      cases n <;> simp [doFlush]
    rw [hdel w.delete w'.delete]
    rfl
  rw [heq]
  unfold session
  rw [b1, okBind]
  simp only []
  rw [hw', okBind]

/-- C95: `delete`ing live rows of `mine` and flushing with `other` removes no row of `mine`. Rows with the same
numbers go from `other`'s table, with everything in `other` that references them. -/
theorem C95_deletes_in_the_other {ev : Event} (hst : Standard cfg) (hac : Acyclic cfg rank)
    (hr : ev.isRemoval = true) (hc : ev.isCreation = false) (hh : cfg.handlers[ev.id]? = some .delete) {n : Nat} {p : T}
    (hn : rank p < n) (hp : (S p).kind = .consistent) {mine other : Env S} (hm : Unlocked mine) (ho : Unlocked other)
    (hrd : Ready key cfg other.tbl) (rows : List Nat) (hl : ∀ i ∈ rows, (mine.tbl p).contains i = true)
    (hlt : ∀ i ∈ rows, i < (other.tbl p).len) (ht : Tame cfg rows) :
    ∃ other', sessionTo (cfg.trackers p) cfg n key p (rows.map .delete) ev mine other = .ok (mine, other') ∧
      Unlocked other' ∧ Ready key cfg other'.tbl ∧ Cascaded cfg other.tbl other'.tbl p rows := by
  obtain ⟨w, hw⟩ := steps_delete_ok (key := key p) hp (W.lock (mine.tbl p)) rows hl
  have hfm : (rows.map (LOp.delete (S := S p))).filterMap LOp.mark = rows := by
    rw [List.filterMap_map]
    have : (LOp.mark ∘ (LOp.delete (S := S p))) = some := rfl
    rw [this, List.filterMap_some]
  have hfs : (rows.map (LOp.select (S := S p))).filterMap LOp.mark = rows := by
    rw [List.filterMap_map]
    have : (LOp.mark ∘ (LOp.select (S := S p))) = some := rfl
    rw [this, List.filterMap_some]
  have hsel : ∀ (rows : List Nat) (w0 : W (S p)), ∃ w', w0.steps (key p) (rows.map .select) = .ok w' := by
    intro rows
    induction rows with
    | nil => exact fun w0 => ⟨w0, rfl⟩
    | cons i rows ih => exact fun w0 => ih (w0.select i)
  obtain ⟨w', hw'⟩ := hsel rows (W.lock (other.tbl p))
  have hmks : ∀ op ∈ rows.map (LOp.select (S := S p)), op.mark.isSome = true := by
    intro op hop
    obtain ⟨i, -, rfl⟩ := List.mem_map.1 hop
    rfl
  obtain ⟨o', new, a1, a2, a3, a4, -, -⟩ := session_removal hst hac hr hc hh hn hp ho hrd (rows.map .select) hmks w' hw'
    (by rw [hfs]; exact ht) (by rw [hfs]; exact hlt)
  rw [hfs] at a4
  refine ⟨o', ?_, a2, a3, a4⟩
  rw [C95_acts_on_the_other hp hm ho _ (by
    intro op hop
    obtain ⟨i, -, rfl⟩ := List.mem_map.1 hop
    rfl) w hw, hfm, a1]
  rfl

/-- C95: … and it panics, though all rows exist in `mine`, if the other universe's table is shorter. -/
theorem C95_shorter_panics {ev : Event} (hst : Standard cfg) (hac : Acyclic cfg rank)
    (hr : ev.isRemoval = true) (hc : ev.isCreation = false) (hh : cfg.handlers[ev.id]? = some .delete) {n : Nat} {p : T}
    (hn : rank p < n) (hp : (S p).kind = .consistent) {mine other : Env S} (hm : Unlocked mine) (ho : Unlocked other)
    (hrd : Ready key cfg other.tbl) (rows : List Nat) (hl : ∀ i ∈ rows, (mine.tbl p).contains i = true)
    (i : Nat) (hi : i ∈ rows) (hlt : (other.tbl p).len ≤ i) (ht : Tame cfg rows) :
    ∃ e, sessionTo (cfg.trackers p) cfg n key p (rows.map .delete) ev mine other = .error e := by
  obtain ⟨w, hw⟩ := steps_delete_ok (key := key p) hp (W.lock (mine.tbl p)) rows hl
  have hfm : (rows.map (LOp.delete (S := S p))).filterMap LOp.mark = rows := by
    rw [List.filterMap_map]
    have : (LOp.mark ∘ (LOp.delete (S := S p))) = some := rfl
    rw [this, List.filterMap_some]
  obtain ⟨o1, b1, b2, b3, b4, b5, b6, b7⟩ := sessionTo_marks (cfg := cfg) hp hm ho (by
    intro op hop
    obtain ⟨i, -, rfl⟩ := List.mem_map.1 hop
    rfl) hw
  rw [hfm] at b6
  rw [b7]
  obtain ⟨rows', e1, a1, a2, a3⟩ := doFlush_ok (key := key) hst hac hc hh n p hn w.pushed w.delete rows
    (o1.unlock p (other.tbl p)) (by simp [b4]) ht (by rw [unlock_tbl, b3, Function.update_eq_self]; exact hrd)
    ((b2.unlock _).free _)
  have hsame : e1.tbl p = other.tbl p := by
    rw [a3.same p (le_refl _), unlock_tbl]; simp
  have hne : rows ≠ [] := List.ne_nil_of_mem hi
  have hu1 : Unlocked e1 := by
    refine ⟨?_, ?_⟩
    · rw [a3.reads]; exact (b2.unlock _).1
    · rw [a3.writer]; exact (b2.unlock _).2
  obtain ⟨e2, c1, c2⟩ := unlock_unlocked hu1 p
  obtain ⟨e, he⟩ : ∃ e, (other.tbl p).removeSel (.these rows') = .error e := by
    unfold Tbl.removeSel
    simp only []
    have hi' : i ∈ rows' := a2.mem_iff.2 hi
    generalize hx : other.tbl p = x at hlt ⊢
    have : ∀ (len : Nat) (rs : List Nat) (x : Tbl (S p)), i ∈ rs → len ≤ i → ∃ e, x.deleteLoop len rs = .error e := by
      intro len rs
      induction rs with
      | nil => intro x h; cases h
      | cons j rs ih =>
        intro x h hle
        rw [List.mem_cons] at h
        unfold Tbl.deleteLoop
        rw [List.foldlM_cons]
        by_cases hj : j < len
        · rcases h with rfl | h
          · omega
          · rw [if_pos hj]
            cases hdl : x.deleteRaw j with
            | error e => exact ⟨e, rfl⟩
            | ok x' => rw [okBind]; exact ih x' h hle
        · rw [if_neg hj]; exact ⟨_, rfl⟩
    exact this _ _ _ hi' hlt
  refine ⟨e, ?_⟩
  unfold flush flushWith
  rw [if_neg (by rw [b6]; simp [Select.isEmpty, hne])]
  simp only []
  rw [b6, a1, okBind]
  have hne' : (Select.these rows').isEmpty = false := by
    cases rows' with
    | nil => exact absurd (a2.symm.eq_nil) hne
    | cons => rfl
  rw [if_pos (by simp [hr, hne'])]
  rw [c1, okBind]
  simp only [W.lock]
  rw [hsame, he]
  rfl

/-- C95: with an event that removes nothing the calls made through the lock stay made in `mine`, in whatever way
they changed the table, and `other` is left as it is, though it is `other` that the trackers are shown. -/
theorem C95_other_events {ev : Event} (hse : Searchable cfg) (hac : Acyclic cfg rank)
    (hr : ev.isRemoval = false) (hh : cfg.handlers[ev.id]? = some .null) {n : Nat} {p : T}
    (hn : rank p < n) (hp : (S p).kind = .consistent) {mine other : Env S} (hm : Unlocked mine) (ho : Unlocked other)
    (hrd : Ready key cfg other.tbl) (ops : List (LOp (S p))) (w : W (S p))
    (hs : (W.lock (mine.tbl p)).steps (key p) ops = .ok w)
    (hmix : (ops.any LOp.adds && ops.any LOp.deletes) = false) :
    ∃ mine' other', sessionTo (cfg.trackers p) cfg n key p ops ev mine other = .ok (mine', other') ∧
      Unlocked mine' ∧ Unlocked other' ∧ mine'.tbl = Function.update mine.tbl p w.tbl ∧ mine'.log = mine.log ∧
      other'.tbl = other.tbl ∧
      (ops.any LOp.touches = true → ∃ new, other'.log = other.log ++ new ∧
        List.Forall₂ (fun (o : Observer) (c : Call S) => c.name = o.name ∧ c.event = ev ∧ SelPerm c.sel w.changes ∧ c.seen = other.tbl)
          (observers ev (cfg.trackers p)) (new.filter (fun c => c.table = p))) := by
  obtain ⟨m1, a1, a2, a3, a4⟩ := unlock_put hm p
  obtain ⟨o1, b1, b2, b3, b4⟩ := unlock_put ho p
  have hb := steps_book hp ops hs
  have hup : Function.update o1.tbl p (other.tbl p) = other.tbl := by rw [b3, Function.update_eq_self]
  obtain ⟨o', c1, c2, c3, c4, c5⟩ := flush_null (w := { w with tbl := other.tbl p }) (env := o1) hse hac hr hh hn b2
    (by simp only []; rw [hup]; exact hrd) (by simpa [hb.pushed, hb.delete, W.lock] using hmix)
  simp only [] at c3 c4 c5
  refine ⟨mine.put p w.tbl, o', ?_, hm, c2, rfl, rfl, by rw [c3, hup], ?_⟩
  · unfold sessionTo
    rw [a1, okBind]
    simp only []
    rw [hs, okBind, flushTo_eq b1 b4, c1, a4]
    rfl
  · intro htc
    have hne : w.changes.isEmpty = false := by rw [hb.empty]; simp [htc, W.lock, Select.isEmpty]
    obtain ⟨new, d1, d2, -⟩ := (c5 hne).log
    rw [b4] at d1 d2
    refine ⟨new, d1, ?_⟩
    refine List.Forall₂.imp ?_ d2
    intro o c hc
    refine ⟨hc.1, hc.2.1, hc.2.2.1, ?_⟩
    rw [hc.2.2.2.2]
    show Function.update other.tbl p (other.tbl p) = other.tbl
    rw [Function.update_eq_self]

/-- C95: `delete`ing rows of `mine` and calling `live_flush` with `other` removes those rows of `mine` and nothing
that references them; in `other` everything that references rows of those numbers goes and the rows themselves stay. -/
theorem C95_live_flush_splits {ev : Event} (hst : Standard cfg) (hac : Acyclic cfg rank)
    (hr : ev.isRemoval = true) (hc : ev.isCreation = false) (hh : cfg.handlers[ev.id]? = some .delete) {n : Nat} {p : T}
    (hn : rank p < n) (hp : (S p).kind = .consistent) {mine other : Env S} (hm : Unlocked mine) (ho : Unlocked other)
    (hmr : Reach (key p) true (mine.tbl p)) (hrd : Ready key cfg other.tbl) (rows : List Nat)
    (hl : ∀ i ∈ rows, (mine.tbl p).contains i = true) (hlt : ∀ i ∈ rows, i < (other.tbl p).len) (ht : Tame cfg rows) :
    ∃ mine' other', liveSessionTo (cfg.trackers p) cfg n key p (rows.map .delete) ev mine other = .ok (mine', other') ∧
      Unlocked mine' ∧ Unlocked other' ∧ (∀ t, t ≠ p → mine'.tbl t = mine.tbl t) ∧
      (∀ i, (mine'.tbl p).view i = if i ∈ rows then none else (mine.tbl p).view i) ∧
      Reach (key p) true (mine'.tbl p) ∧ Ready key cfg other'.tbl ∧ other'.tbl p = other.tbl p ∧
      ∃ x, Cascaded cfg other.tbl (Function.update other'.tbl p x) p rows := by
  obtain ⟨w, hw⟩ := steps_delete_ok (key := key p) hp (W.lock (mine.tbl p)) rows hl
  have hfm : (rows.map (LOp.delete (S := S p))).filterMap LOp.mark = rows := by
    rw [List.filterMap_map]
    have : (LOp.mark ∘ (LOp.delete (S := S p))) = some := rfl
    rw [this, List.filterMap_some]
  obtain ⟨o1, b1, b2, b3, b4, b5, b6, -⟩ := sessionTo_marks (cfg := cfg) hp hm ho (by
    intro op hop
    obtain ⟨i, -, rfl⟩ := List.mem_map.1 hop
    rfl) hw
  rw [hfm] at b6
  obtain ⟨m1, d1, d2, d3, d4⟩ := unlock_put hm p
  obtain ⟨rows', e1, a1, a2, a3⟩ := doFlush_ok (key := key) hst hac hc hh n p hn w.pushed w.delete rows other (by simp [b4]) ht hrd (ho.free _)
  obtain ⟨y, c1, c2, c3⟩ := Post.cascaded hst hac hp hrd a3 a2 hlt
  obtain ⟨L, hL⟩ := hmr.wf
  have hall : ∀ i ∈ rows', i < L.length := by
    intro i hi
    rw [← hL.len]
    have := hl i (a2.mem_iff.1 hi)
    unfold Tbl.contains at this
    rw [if_pos hp] at this
    simp only [Bool.and_eq_true, decide_eq_true_eq] at this
    exact this.1
  obtain ⟨x, f1, f2, f3⟩ := hL.deleteLoop hp rows' hall
  have hxv : ∀ i, x.view i = if i ∈ rows then none else (mine.tbl p).view i := by
    intro i
    rw [f3.view, hL.view]
    by_cases hi : i ∈ rows
    · simp [f2 i, a2.mem_iff, hi]
    · simp [f2 i, a2.mem_iff, hi]
  have hrm : (mine.tbl p).removeSel (.these rows') = .ok x := by
    unfold Tbl.removeSel; simp only []; rw [hL.len]; exact f1
  have hue : Unlocked e1 := ⟨by rw [a3.reads]; exact ho.1, by rw [a3.writer]; exact ho.2⟩
  have hdrop : ∀ z : Tbl (S p), (W.lock z).drop = .ok z := by
    intro z
    unfold W.drop
    rw [if_neg (by simp [W.lock, Select.isEmpty])]
    rfl
  by_cases hne : rows = []
  · subst hne
    have hr' : rows' = [] := a2.eq_nil
    have hw0 : w = W.lock (mine.tbl p) := by
      have : (W.lock (mine.tbl p)).steps (key p) [] = .ok (W.lock (mine.tbl p)) := rfl
      rw [List.map_nil, this] at hw
      injection hw with hw
      exact hw.symm
    subst hw0
    refine ⟨mine, other, ?_, hm, ho, fun t _ => rfl, ?_, hmr, hrd, rfl, other.tbl p, ?_⟩
    · unfold liveSessionTo
      rw [d1, okBind]
      simp only []
      rw [hw, okBind]
      unfold liveFlushTo
      rw [if_pos (by rw [b6]; rfl), okBind, hdrop, okBind, d4]
      show (.ok ({ mine with tbl := Function.update mine.tbl p (mine.tbl p) }, other) : R (Env S × Env S)) = _
      rw [Function.update_eq_self]
    · intro i; simp
    · rw [Function.update_eq_self]
      have hnd : ∀ t i, ¬ Doomed cfg other.tbl p [] t i := by
        intro t i h
        induction h with
        | seed h => cases h
        | step _ _ _ _ ih => exact ih
      refine ⟨?_, ?_, ?_, ?_⟩
      · intro t _ i hd; exact absurd hd (hnd t i)
      · intro t _ i _; rfl
      · intro t _
        refine ⟨fun _ => true, fun r => ⟨fun h => (by cases h), ?_⟩, ?_⟩
        · rintro ⟨q, fk, k, -, -, hd⟩; exact absurd hd (hnd q k)
        · intro L hL; rw [List.filter_eq_self.2 (by simp)]; exact hL
      · intro t _ _; rfl
  · refine ⟨mine.put p x, e1, ?_, hm, hue, ?_, ?_, ?_, a3.ready, a3.same p (le_refl _), y, c3⟩
    · unfold liveSessionTo
      rw [d1, okBind]
      simp only []
      rw [hw, okBind]
      unfold liveFlushTo
      rw [if_neg (by rw [b6]; simp [Select.isEmpty, hne])]
      rw [b6, doFlushOf_self, a1, okBind]
      have hne' : (Select.these rows').isEmpty = false := by
        cases rows' with
        | nil => exact absurd (a2.symm.eq_nil) hne
        | cons => rfl
      simp only []
      rw [if_pos (by simp [hr, hne']), b5, hrm, okBind, okBind]
      simp only []
      rw [hdrop, okBind]
      have : (m1.put p x).unlock p x = mine.put p x := by
        have h1 := d4 x
        have h2 : (m1.put p x).unlock p x = m1.unlock p x := by
          unfold Env.unlock Env.put
          simp
        rw [h2, h1]
      rw [this]
    · intro t htp
      show Function.update mine.tbl p x t = _
      rw [Function.update_of_ne htp]
    · intro i
      show (Function.update mine.tbl p x p).view i = _
      rw [Function.update_self]
      exact hxv i
    · show Reach (key p) true (Function.update mine.tbl p x p)
      rw [Function.update_self]
      exact Reach.step (op := .remove (.these rows')) hmr trivial (fun _ h => by cases h) hrm

/-- C95: … so any row of `mine` that references one of them is left referencing a row that is gone. -/
theorem C95_live_flush_dangles {ev : Event} (hst : Standard cfg) (hac : Acyclic cfg rank)
    (hr : ev.isRemoval = true) (hc : ev.isCreation = false) (hh : cfg.handlers[ev.id]? = some .delete) {n : Nat} {p : T}
    (hn : rank p < n) (hp : (S p).kind = .consistent) {mine other : Env S} (hm : Unlocked mine) (ho : Unlocked other)
    (hmr : Reach (key p) true (mine.tbl p)) (hrd : Ready key cfg other.tbl) (rows : List Nat)
    (hl : ∀ i ∈ rows, (mine.tbl p).contains i = true) (hlt : ∀ i ∈ rows, i < (other.tbl p).len) (ht : Tame cfg rows)
    {fk : FK S} (hfk : IsFK cfg p fk) {j : Nat} {r : Row (S fk.child)} (hv : (mine.tbl fk.child).view j = some r)
    (hj : fk.ref r ∈ rows) :
    ∃ mine' other', liveSessionTo (cfg.trackers p) cfg n key p (rows.map .delete) ev mine other = .ok (mine', other') ∧
      ¬ Integrity cfg mine'.tbl := by
  obtain ⟨mine', other', a1, -, -, a2, a3, a4, -⟩ := C95_live_flush_splits hst hac hr hc hh hn hp hm ho hmr hrd rows hl hlt ht
  refine ⟨mine', other', a1, ?_⟩
  intro hint
  have hne : fk.child ≠ p := by
    intro e
    have := hac p fk hfk
    rw [e] at this
    omega
  have h1 := hint p fk j r hfk (by rw [a2 _ hne]; exact hv)
  have h2 := a3 (fk.ref r)
  rw [if_pos hj] at h2
  obtain ⟨L, hL⟩ := a4.wf
  rw [hL.contains_view, h2] at h1
  cases h1

/-- C95: telling `other` that rows of `mine` are selected does to `other` what selecting them through a lock on its
own table does, whatever `mine` contains. -/
theorem C95_read_select {n : Nat} {p : T} {mine other : Env S} (hm : Unlocked mine) (ho : Unlocked other) (ev : Event)
    (sel : Select (List Nat)) :
    readSelectTo (cfg.trackers p) cfg n p ev sel mine other = (readSelect cfg n p ev sel other).map (fun o => (mine, o)) := by
  unfold readSelectTo readSelect Env.peek
  rw [if_neg (by simp [hm.2 p]), if_neg (by simp [ho.2 p]), okBind, okBind, doFlushOf_self]
  cases doFlush cfg n p ev false false sel other with
  | error e => rfl
  | ok r => rfl

/-- Another universe with the tables of `uniEnv`: one parent and one child that references it. -/
def uniMineOps : (t : Fin 3) → List (TOp (UniS t))
  | 0 => [.push (uniRow 0 50 0)]
  | 1 => [.push (uniRow 1 0 60)]
  | 2 => []

def uniMineTbl (t : Fin 3) : Tbl (UniS t) :=
  match runOps (uniKey t) Tbl.new (uniMineOps t) with
  | .ok x => x
  | .error _ => Tbl.new

def uniMine : Env UniS := { tbl := uniMineTbl, reads := fun _ => 0, writer := fun _ => false, log := [] }

/-- Both universes. -/
def uniBoth (r : R (Env UniS × Env UniS)) : Option (List (List (Option (Nat × Nat))) × List (List (Option (Nat × Nat)))) :=
  match r with
  | .ok (m, o) => some ([uniView (m.tbl 0) 2, uniView (m.tbl 1) 2, uniView (m.tbl 2) 1],
      [uniView (o.tbl 0) 4, uniView (o.tbl 1) 4, uniView (o.tbl 2) 5])
  | .error _ => none

/-- Deleting parent 0 of `uniMine`, telling `uniEnv`: `uniMine` keeps it, `uniEnv` loses its own parent 0. -/
example : uniBoth (sessionTo (uniCfg.trackers 0) uniCfg 3 uniKey 0 [.delete 0] evDelete uniMine uniEnv) =
    some ([[some (50, 0), none], [some (0, 60), none], [none]],
      [[none, some (11, 0), some (12, 0), none], [none, none, some (2, 22), none],
        [some (2, 33), none, none, none, none]]) := by decide

/-- The same with `live_flush`: `uniMine` loses the parent and keeps its child, `uniEnv` the other way round. -/
example : uniBoth (liveSessionTo (uniCfg.trackers 0) uniCfg 3 uniKey 0 [.delete 0] evDelete uniMine uniEnv) =
    some ([[none, none], [some (0, 60), none], [none]],
      [[some (10, 0), some (11, 0), some (12, 0), none], [none, none, some (2, 22), none],
        [some (2, 33), none, none, none, none]]) := by decide

/-- The hypotheses of `C95_deletes_in_the_other` are met. -/
example : ∃ o, sessionTo (uniCfg.trackers 0) uniCfg 3 uniKey 0 [.delete 0] evDelete uniMine uniEnv = .ok (uniMine, o) ∧
    Cascaded uniCfg uniTbl o.tbl 0 [0] := by
  obtain ⟨o, a1, -, -, a2⟩ := C95_deletes_in_the_other (key := uniKey) (mine := uniMine) uniStandard uniAcyclic (ev := evDelete) rfl rfl rfl
    (n := 3) (p := 0) (by decide) rfl ⟨fun _ => rfl, fun _ => rfl⟩ uniUnlocked uniReady [0] (by decide) (by decide) (fun _ => by simp)
  exact ⟨o, a1, a2⟩

/-- Deleting row 2 of `uniEnv`, telling `uniMine`, whose table has one row: a panic. -/
example : (sessionTo (uniCfg.trackers 0) uniCfg 3 uniKey 0 [.delete 2] evDelete uniEnv uniMine).isOk = false := by decide

/-- Pushing to `uniMine` and telling `uniEnv` of a creation: the row is in `uniMine` only. -/
example : uniBoth (sessionTo (uniCfg.trackers 0) uniCfg 3 uniKey 0 [.push (uniRow 0 51 0)] evCreate uniMine uniEnv) =
    some ([[some (50, 0), some (51, 0)], [some (0, 60), none], [none]],
      [[some (10, 0), some (11, 0), some (12, 0), none], [some (0, 20), some (0, 21), some (2, 22), none],
        [some (0, 30), some (1, 31), some (1, 32), some (2, 33), none]]) := by decide

end V11
