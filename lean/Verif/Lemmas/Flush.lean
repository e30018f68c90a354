import Verif.Lemmas.CascadeAll
import Verif.Lemmas.CascadeNull

/-!
# `flush` of a write lock
-/

set_option linter.unusedSimpArgs false
set_option linter.unusedSectionVars false
set_option linter.unusedVariables false

namespace V11
variable {T : Type} [DecidableEq T] {S : T → Schema} [LS : ∀ t, LawfulSchema (S t)]
variable {K : Type} [LinearOrder K] {key : (t : T) → Row (S t) → K} {cfg : Cfg S} {rank : T → Nat}

theorem doomed_closed (u : (t : T) → Tbl (S t)) (p : T) (rows : List Nat) :
    ClosedUnder cfg u (Doomed cfg u p rows) := by
  intro q k fk i r h1 h2 _ h4 h5
  exact Doomed.step h2 h1 h4 ⟨rfl, h5⟩

theorem doomed_rank (hac : Acyclic cfg rank) {u : (t : T) → Tbl (S t)} {p : T} {rows : List Nat} {t : T} {i : Nat}
    (h : Doomed cfg u p rows t i) : (t = p ∧ i ∈ rows) ∨ rank t < rank p := by
  induction h with
  | seed h => exact Or.inl ⟨rfl, h⟩
  | step h hfk hv hr ih =>
    obtain ⟨e, -⟩ := hr
    subst e
    have := hac _ _ hfk
    right
    rcases ih with ⟨rfl, -⟩ | ih <;> omega

/-- From what the trackers did to the whole effect of the flush. -/
theorem Post.cascaded (hst : Standard cfg) (hac : Acyclic cfg rank) {p : T} (hp : (S p).kind = .consistent)
    {rows rows' : List Nat} {ev : Event} {env env' : Env S} (h : Ready key cfg env.tbl)
    (hpost : Post key cfg rank p rows (cfg.trackers p) ev env env') (hperm : rows'.Perm rows)
    (hlt : ∀ i ∈ rows, i < (env.tbl p).len) :
    ∃ x, (env'.tbl p).removeSel (.these rows') = .ok x ∧ Ready key cfg (Function.update env'.tbl p x) ∧
      Cascaded cfg env.tbl (Function.update env'.tbl p x) p rows := by
  have hsame : env'.tbl p = env.tbl p := hpost.same p (le_refl _)
  obtain ⟨L, hL, hlen⟩ := h.wf p
  have hall : ∀ i ∈ rows', i < L.length := by
    intro i hi; rw [← hL.len]; exact hlt i (hperm.mem_iff.1 hi)
  obtain ⟨x, e1, e2, e3⟩ := hL.deleteLoop hp rows' hall
  have hxv : ∀ i, x.view i = if i ∈ rows then none else (env.tbl p).view i := by
    intro i
    rw [e3.view, hL.view]
    by_cases hi : i ∈ rows
    · simp [e2 i, hperm.mem_iff, hi]
    · simp [e2 i, hperm.mem_iff, hi]
  have hrm : (env.tbl p).removeSel (.these rows') = .ok x := by
    unfold Tbl.removeSel; simp only []; rw [hL.len]; exact e1
  have hnc : ∀ q fk, IsFK cfg q fk → fk.bySort = true → fk.child ≠ p := by
    intro q fk hfk hb e
    have := hst.sorted q fk hfk hb
    rw [e, hp] at this; cases this
  have hrd : Ready key cfg (Function.update env'.tbl p x) := by
    refine ready_put hpost.ready p x ?_ (by rw [e3.len]; exact hlen) ?_
    · exact Reach.step (op := .remove (.these rows')) (h.reach p) trivial (by simp [TOp.clears]) hrm
    · intro q fk e hfk hb; exact absurd e (hnc q fk hfk hb)
  have hsh := hpost.sound (Doomed cfg env.tbl p rows) (doomed_closed _ _ _) (fun _ i hi => Doomed.seed hi)
  have hpd : ∀ i, Doomed cfg env.tbl p rows p i ↔ i ∈ rows := by
    intro i
    constructor
    · intro hd
      rcases doomed_rank hac hd with ⟨-, h⟩ | h
      · exact h
      · omega
    · exact Doomed.seed
  -- nothing that is left references a doomed row
  have huf : ∀ fk k, Unreferenced env'.tbl fk k → fk.child ≠ p → Unreferenced (Function.update env'.tbl p x) fk k := by
    intro fk k hu hne i r hv
    rw [Function.update_of_ne hne] at hv
    exact hu i r hv
  have hchild : ∀ t i, Doomed cfg env.tbl p rows t i → ∀ fk, IsFK cfg t fk → fk.child ≠ p := by
    intro t i hd fk hfk e
    have := hac t fk hfk
    rw [e] at this
    rcases doomed_rank hac hd with ⟨rfl, -⟩ | h' <;> omega
  have hmain : ∀ t i, Doomed cfg env.tbl p rows t i →
      (((S t).kind = .consistent → (Function.update env'.tbl p x t).view i = none) ∧
      ∀ fk, IsFK cfg t fk → Unreferenced env'.tbl fk i) := by
    intro t i hd
    induction hd with
    | seed hi =>
      refine ⟨fun _ => ?_, fun fk hfk => hpost.unref fk hfk _ hi⟩
      simp only [Function.update_self]
      rw [hxv, if_pos hi]
    | @step q t k i fk r hq hfk hv hr ih =>
      have hdt : Doomed cfg env.tbl p rows t i := Doomed.step hq hfk hv hr
      have hun := ih.2 fk hfk
      have htp : t ≠ p := by
        obtain ⟨e, -⟩ := hr
        subst e
        exact hchild q k hq fk hfk
      have hnone : (S t).kind = .consistent → (env'.tbl t).view i = none := by
        intro hk
        rcases hsh.cons t hk i with e | ⟨e, -⟩
        · rw [hv] at e
          obtain ⟨e', hre⟩ := hr
          subst e'
          exact absurd hre (hun i r e)
        · exact e
      refine ⟨fun hk => ?_, fun fk' hfk' => ?_⟩
      · rw [Function.update_of_ne htp]; exact hnone hk
      · have hk := hst.parent t (List.ne_nil_of_mem hfk')
        exact hpost.killed t hk i (by rw [hv]; simp) (hnone hk) fk' hfk'
  refine ⟨x, by rw [hsame]; exact hrm, hrd, ⟨?_, ?_, ?_, ?_⟩⟩
  · intro t hk i hd; exact (hmain t i hd).1 hk
  · intro t hk i hd
    by_cases e : t = p
    · subst e
      simp only [Function.update_self]
      rw [hxv, if_neg (fun hi => hd (Doomed.seed hi))]
    · rw [Function.update_of_ne e]
      rcases hsh.cons t hk i with e | ⟨-, e⟩
      · exact e
      · exact absurd e hd
  · intro t hk
    have hne : (S t).kind ≠ .consistent := by rw [hk]; simp
    have htp : t ≠ p := by rintro rfl; exact hne hp
    obtain ⟨keep, k1, k2⟩ := hsh.sorted t hk
    classical
    refine ⟨fun r => decide (¬ ∃ q fk k, IsFK cfg q fk ∧ Refers fk r k ∧ Doomed cfg env.tbl p rows q k), ?_, ?_⟩
    · intro r; simp
    · intro M hM
      have hW : WF (env.tbl t) M := ((h.reach t).wf_of_holds hne hM).1
      have hW' := k2 M hW
      rw [Function.update_of_ne htp]
      have hfil : M.filter (fun r => decide (¬ ∃ q fk k, IsFK cfg q fk ∧ Refers fk r k ∧ Doomed cfg env.tbl p rows q k)) = M.filter keep := by
        apply List.filter_congr
        intro r hr
        cases hkr : keep r with
        | false =>
          have := k1 r hkr
          simpa using this
        | true =>
          rw [decide_eq_true_eq]
          rintro ⟨q, fk, k, a, b, c⟩
          have hm : r ∈ M.filter keep := List.mem_filter.2 ⟨hr, hkr⟩
          obtain ⟨i, hi⟩ := List.mem_iff_getElem?.1 hm
          rw [← hW'.view_iff' hne] at hi
          obtain ⟨e, hre⟩ := b
          subst e
          exact (hmain q k c).2 fk a i r hi hre
      rw [hfil]
      exact hW'.holds' hne
  · intro t hk hk'
    have htp : t ≠ p := by rintro rfl; exact hk hp
    rw [Function.update_of_ne htp]
    exact hsh.other t hk hk'

theorem Holding.unlock {env : Env S} {p : T} (h : Holding env p) (x : Tbl (S p)) : Unlocked (env.unlock p x) := by
  refine ⟨h.1, ?_⟩
  intro t
  show Function.update env.writer p false t = false
  by_cases e : t = p
  · subst e; simp
  · rw [Function.update_of_ne e, h.2 t]; simp [e]

theorem unlocked_lock {env : Env S} (h : Unlocked env) (p : T) :
    ∃ env1, env.lock p = .ok (W.lock (env.tbl p), env1) ∧ Holding env1 p ∧ env1.tbl = env.tbl ∧ env1.log = env.log := by
  refine ⟨_, lock_ok (h.1 p) (h.2 p), ⟨h.1, ?_⟩, rfl, rfl⟩
  intro t
  show Function.update env.writer p true t = _
  by_cases e : t = p
  · subst e; simp
  · rw [Function.update_of_ne e, h.2 t]; simp [e]

theorem unlock_tbl (env : Env S) (p : T) (x : Tbl (S p)) : (env.unlock p x).tbl = Function.update env.tbl p x := rfl

theorem unlock_unlocked {env : Env S} (h : Unlocked env) (p : T) : ∃ env1, env.lock p = .ok (W.lock (env.tbl p), env1) ∧
    ∀ x, env1.unlock p x = env.put p x :=
  ⟨_, lock_ok (h.1 p) (h.2 p), fun x => unlock_lock (h.2 p) x⟩

theorem Unlocked.free {env : Env S} (h : Unlocked env) (r : Nat) : FreeBelow rank env r := fun t _ => ⟨h.1 t, h.2 t⟩

/-- `flush` of marked rows with a removal event. -/
theorem flush_removal {ev : Event} (hst : Standard cfg) (hac : Acyclic cfg rank) (hc : ev.isCreation = false)
    (hr : ev.isRemoval = true) (hh : cfg.handlers[ev.id]? = some .delete) {n : Nat} {p : T} (hn : rank p < n)
    (hp : (S p).kind = .consistent) {w : W (S p)} {env : Env S} (hl : Holding env p)
    (hrd : Ready key cfg (Function.update env.tbl p w.tbl)) {rows : List Nat} (hw : w.changes = .these rows)
    (hne : rows ≠ []) (hpd : (w.pushed && w.delete) = false) (ht : Tame cfg rows) (hlt : ∀ i ∈ rows, i < w.tbl.len) :
    ∃ env1 env', flush cfg n p w ev env = .ok env' ∧ Unlocked env' ∧ Ready key cfg env'.tbl ∧
      Cascaded cfg (Function.update env.tbl p w.tbl) env'.tbl p rows ∧
      Post key cfg rank p rows (cfg.trackers p) ev (env.unlock p w.tbl) env1 ∧ env'.log = env1.log := by
  have hu := hl.unlock w.tbl
  obtain ⟨rows', env1, a1, a2, a3⟩ := doFlush_ok (key := key) hst hac hc hh n p hn w.pushed w.delete rows (env.unlock p w.tbl) hpd ht
    (by rw [unlock_tbl]; exact hrd) (hu.free _)
  have hu1 : Unlocked env1 := by
    refine ⟨?_, ?_⟩
    · rw [a3.reads]; exact hu.1
    · rw [a3.writer]; exact hu.2
  obtain ⟨x, b1, b2, b3⟩ := Post.cascaded hst hac hp (by rw [unlock_tbl]; exact hrd) a3 a2 (by
    intro i hi; rw [unlock_tbl]; simpa using hlt i hi)
  obtain ⟨env2, c1, c2⟩ := unlock_unlocked hu1 p
  refine ⟨env1, env2.unlock p x, ?_, ?_, ?_, ?_, a3, ?_⟩
  · unfold flush flushWith
    have : w.changes.isEmpty = false := by rw [hw]; simp [Select.isEmpty, hne]
    rw [if_neg (by simp [this])]
    simp only []
    rw [hw, a1, okBind]
    simp only []
    have hne' : (Select.these rows').isEmpty = false := by
      cases rows' with
      | nil => exact absurd (a2.symm.eq_nil) hne
      | cons => rfl
    rw [if_pos (by simp [hr, hne'])]
    rw [c1, okBind]
    simp only [W.lock]
    rw [b1, okBind]
  · rw [c2]; exact hu1
  · rw [c2]; exact b2
  · rw [c2]; exact b3
  · rw [c2]; rfl

/-- `flush` with nothing marked. -/
theorem flush_nothing {n : Nat} {p : T} {w : W (S p)} {env : Env S} {ev : Event} (hw : w.changes = .these []) :
    flush cfg n p w ev env = .ok (env.unlock p w.tbl) := flushWith_empty hw

/-- `flush` with an event whose handler does nothing. -/
theorem flush_null {ev : Event} (hse : Searchable cfg) (hac : Acyclic cfg rank)
    (hc : ev.isRemoval = false) (hh : cfg.handlers[ev.id]? = some .null) {n : Nat} {p : T} (hn : rank p < n)
    {w : W (S p)} {env : Env S} (hl : Holding env p)
    (hrd : Ready key cfg (Function.update env.tbl p w.tbl)) (hpd : (w.pushed && w.delete) = false) :
    ∃ env', flush cfg n p w ev env = .ok env' ∧ Unlocked env' ∧ env'.tbl = Function.update env.tbl p w.tbl ∧
      (w.changes.isEmpty = true → env'.log = env.log) ∧
      (w.changes.isEmpty = false → PostNull rank p w.changes (cfg.trackers p) ev (env.unlock p w.tbl) env') := by
  have hu := hl.unlock w.tbl
  by_cases he : w.changes.isEmpty = true
  · refine ⟨env.unlock p w.tbl, ?_, hu, rfl, fun _ => rfl, ?_⟩
    · unfold flush flushWith; rw [if_pos he]
    · rw [he]; simp
  · obtain ⟨sel', env1, a1, a2, a3⟩ := doFlushNull_ok (key := key) (rank := rank) hse hac (by simp [hc]) hh n p hn w.pushed w.delete w.changes
      (env.unlock p w.tbl) hpd (by rw [unlock_tbl]; exact hrd) (fun t _ => hu.2 t)
    refine ⟨env1, ?_, ?_, ?_, fun h => absurd h he, fun _ => a3⟩
    · unfold flush flushWith
      rw [if_neg he]
      simp only []
      rw [a1, okBind]
      simp only []
      rw [if_neg (by simp [hc])]
    · refine ⟨?_, ?_⟩
      · rw [a3.reads]; exact hu.1
      · rw [a3.writer]; exact hu.2
    · rw [a3.tbl]; rfl

/-- `flush` of a cleared lock. -/
theorem flush_clear {ev : Event} (hst : Standard cfg) (hac : Acyclic cfg rank) (hc : ev.isCreation = false)
    (hr : ev.isRemoval = true) (hh : cfg.handlers[ev.id]? = some .delete) {n : Nat} {p : T} (hn : rank p < n)
    {w : W (S p)} {env : Env S} (hl : Holding env p)
    (hrd : ∀ t, Reach (key t) false (Function.update env.tbl p w.tbl t)) (hw : w.changes = .all)
    (hpd : (w.pushed && w.delete) = false) :
    ∃ env1 env', flush cfg n p w ev env = .ok env' ∧ Unlocked env' ∧
      (∀ t, Evolves (key t) (Function.update env.tbl p w.tbl t) (env'.tbl t)) ∧
      (∀ t, AtOrBelow cfg t p → (env'.tbl t).len = 0) ∧
      (∀ t, ¬ AtOrBelow cfg t p → env'.tbl t = env.tbl t) ∧
      PostAll key cfg rank p (cfg.trackers p) ev (env.unlock p w.tbl) env1 ∧ env'.log = env1.log := by
  have hu := hl.unlock w.tbl
  obtain ⟨env1, a1, a3⟩ := doFlushAll_ok (key := key) hst hac hc hr hh n p hn w.pushed w.delete (env.unlock p w.tbl) hpd
    (by rw [unlock_tbl]; exact hrd) (hu.free _)
  have hu1 : Unlocked env1 := by
    refine ⟨?_, ?_⟩
    · rw [a3.reads]; exact hu.1
    · rw [a3.writer]; exact hu.2
  have hre : ∀ t, Reach (key t) false (env1.tbl t) := fun t => (a3.evolves t).1 (by rw [unlock_tbl]; exact hrd t)
  obtain ⟨x, b1, b2, b3⟩ := clearRaw_evolves (hre p)
  obtain ⟨env2, c1, c2⟩ := unlock_unlocked hu1 p
  refine ⟨env1, env2.unlock p x, ?_, ?_, ?_, ?_, ?_, a3, ?_⟩
  · unfold flush flushWith
    rw [if_neg (by rw [hw]; simp [Select.isEmpty])]
    simp only []
    rw [hw, a1, okBind]
    simp only []
    rw [if_pos (by simp [hr, Select.isEmpty])]
    rw [c1, okBind]
    simp only [W.lock]
    have : (env1.tbl p).removeSel .all = .ok x := b1
    rw [this, okBind]
  · rw [c2]; exact hu1
  · intro t
    rw [c2]
    refine (a3.evolves t).trans ?_
    show Evolves (key t) (env1.tbl t) (Function.update env1.tbl p x t)
    by_cases e : t = p
    · subst e; simpa using b3
    · rw [Function.update_of_ne e]; exact Evolves.refl _ _
  · intro t ht
    rw [c2]
    show (Function.update env1.tbl p x t).len = 0
    by_cases e : t = p
    · subst e; simpa using b2
    · rw [Function.update_of_ne e]
      rcases ht with e' | hd
      · exact absurd e' e
      · cases hd with
        | direct hfk => exact a3.empty _ hfk _ (Or.inl rfl)
        | step hfk hd => exact a3.empty _ hfk _ (Or.inr hd)
  · intro t ht
    have e : t ≠ p := fun e => ht (Or.inl e)
    rw [c2]
    show Function.update env1.tbl p x t = env.tbl t
    rw [Function.update_of_ne e, a3.keep t ?_, unlock_tbl, Function.update_of_ne e]
    intro fk hfk hb
    apply ht
    right
    rcases hb with rfl | hb
    · exact DependsOn.direct hfk
    · exact DependsOn.step hfk hb
  · rw [c2]; rfl

end V11
