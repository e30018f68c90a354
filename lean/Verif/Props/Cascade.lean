import Verif.Props.Flush

/-!
# Cascades through foreign_auto columns: C29–C33, C58–C60

`Doomed`, `Cascaded`, `Integrity` etc. are in `Spec/Cascade.lean`.
-/

set_option linter.unusedSimpArgs false
set_option linter.unusedSectionVars false
set_option linter.unusedVariables false

namespace V11
variable {T : Type} [DecidableEq T] {S : T → Schema} [LS : ∀ t, LawfulSchema (S t)]
variable {K : Type} [LinearOrder K] {key : (t : T) → Row (S t) → K} {cfg : Cfg S} {rank : T → Nat}

/-! ## C29 -/

/-- Sessions of marks with a removal event. -/
theorem session_removal {ev : Event} (hst : Standard cfg) (hac : Acyclic cfg rank)
    (hr : ev.isRemoval = true) (hc : ev.isCreation = false) (hh : cfg.handlers[ev.id]? = some .delete) {n : Nat} {p : T}
    (hn : rank p < n) (hp : (S p).kind = .consistent) {env : Env S} (hu : Unlocked env) (hrd : Ready key cfg env.tbl)
    (ops : List (LOp (S p))) (hm : ∀ op ∈ ops, op.mark.isSome = true) (w : W (S p))
    (hs : (W.lock (env.tbl p)).steps (key p) ops = .ok w) (ht : Tame cfg (ops.filterMap LOp.mark))
    (hlt : ∀ i ∈ ops.filterMap LOp.mark, i < (env.tbl p).len) :
    ∃ env' new, session cfg n key p ops ev env = .ok env' ∧ Unlocked env' ∧ Ready key cfg env'.tbl ∧
      Cascaded cfg env.tbl env'.tbl p (ops.filterMap LOp.mark) ∧ env'.log = env.log ++ new ∧
      (ops.filterMap LOp.mark ≠ [] → LogOk rank p (ops.filterMap LOp.mark) ev (cfg.trackers p) env.tbl new) := by
  obtain ⟨env1, a1, a2, a3, a4, a5, a6, a7⟩ := session_marks hp hu hm hs
  rw [a7]
  have hup : Function.update env1.tbl p w.tbl = env.tbl := by rw [a2, a4, Function.update_eq_self]
  by_cases he : ops.filterMap LOp.mark = []
  · rw [he] at a6 ⊢
    have hnd : ∀ t i, ¬ Doomed cfg env.tbl p [] t i := by
      intro t i h
      induction h with
      | seed h => cases h
      | step _ _ _ _ ih => exact ih
    refine ⟨_, [], flush_nothing a6, a1.unlock _, ?_, ⟨?_, ?_, ?_, ?_⟩, ?_, fun h => absurd rfl h⟩
    · rw [unlock_tbl, hup]; exact hrd
    · intro t _ i hd; exact absurd hd (hnd t i)
    · intro t _ i _; rw [unlock_tbl, hup]
    · intro t _
      refine ⟨fun _ => true, fun r => ⟨fun h => (by cases h), ?_⟩, ?_⟩
      · rintro ⟨q, fk, k, -, -, hd⟩; exact absurd hd (hnd q k)
      · intro L hL; rw [unlock_tbl, hup, List.filter_eq_self.2 (by simp)]; exact hL
    · intro t _ _; rw [unlock_tbl, hup]
    · rw [List.append_nil, ← a3]; rfl
  · obtain ⟨env2, env', b1, b2, b3, b4, b5, b6⟩ := flush_removal hst hac hc hr hh hn hp a1 (by rw [hup]; exact hrd) a6 he (by simp [a5]) ht
      (by rw [a4]; exact hlt)
    obtain ⟨new, n1, n2⟩ := b5.log
    rw [unlock_tbl, hup] at n2
    rw [hup] at b4
    exact ⟨env', new, b1, b2, b3, b4, by rw [b6, n1, ← a3]; rfl, fun _ => n2⟩

/-- C29: `delete`ing live rows of a consistent table and flushing with a removal event returns and removes
exactly those rows and every row that transitively references one of them, in all tables; the result is again
a state these theorems apply to, with no lock held. -/
theorem C29_cascade_exact {ev : Event} (hst : Standard cfg) (hac : Acyclic cfg rank)
    (hr : ev.isRemoval = true) (hc : ev.isCreation = false) (hh : cfg.handlers[ev.id]? = some .delete) {n : Nat} {p : T}
    (hn : rank p < n) (hp : (S p).kind = .consistent) {env : Env S} (hu : Unlocked env) (hrd : Ready key cfg env.tbl)
    (rows : List Nat) (hl : ∀ i ∈ rows, (env.tbl p).contains i = true) (ht : Tame cfg rows) :
    ∃ env', session cfg n key p (rows.map .delete) ev env = .ok env' ∧ Unlocked env' ∧ Ready key cfg env'.tbl ∧
      Cascaded cfg env.tbl env'.tbl p rows := by
  obtain ⟨w, hw⟩ := steps_delete_ok (key := key p) hp (W.lock (env.tbl p)) rows hl
  have hfm : (rows.map (LOp.delete (S := S p))).filterMap LOp.mark = rows := by
    rw [List.filterMap_map]
    have : (LOp.mark ∘ (LOp.delete (S := S p))) = some := rfl
    rw [this, List.filterMap_some]
  obtain ⟨env', new, a1, a2, a3, a4, -, -⟩ := session_removal hst hac hr hc hh hn hp hu hrd (rows.map .delete) (by simp [LOp.mark]) w hw
    (by rw [hfm]; exact ht) (by
      rw [hfm]
      intro i hi
      have := hl i hi
      unfold Tbl.contains at this
      rw [if_pos hp] at this
      simp only [Bool.and_eq_true, decide_eq_true_eq] at this
      exact this.1)
  rw [hfm] at a4
  exact ⟨env', a1, a2, a3, a4⟩

/-- C29: deleting the same row twice is harmless unless a sorted table is searched through an index: then
the cascade panics. Here table 1 is sorted by its second column and its first references table 0. -/
theorem C29_double_delete_panics : ∃ (S : Fin 2 → Schema) (key : (t : Fin 2) → Row (S t) → Nat) (cfg : Cfg S) (rank : Fin 2 → Nat)
    (env : Env S) (ev : Event), (∀ t, Nonempty (LawfulSchema (S t))) ∧ Standard cfg ∧ Acyclic cfg rank ∧ (S 0).kind = .consistent ∧
      ev.isRemoval = true ∧ ev.isCreation = false ∧ cfg.handlers[ev.id]? = some .delete ∧ Unlocked env ∧ Ready key cfg env.tbl ∧
      (env.tbl 0).contains 0 = true ∧
      session cfg 2 key 0 [.delete 0, .delete 0] ev env = .error .removeUnsorted := by
  let cols : Fin 2 → Fin (1 + 1) → ColSpec := fun t j => if j = 0 then .index Nat inferInstance else .vec Nat
  let S : Fin 2 → Schema := fun t => mkSchema (cols t) 255 (if t = 1 then .sorted else .consistent)
  let row : (t : Fin 2) → Nat → Nat → Row (S t) := fun t a b j =>
    match t, j with
    | 0, 0 => a | 0, 1 => b | 1, 0 => a | 1, 1 => b
  let key : (t : Fin 2) → Row (S t) → Nat := fun t r => match t, r with | 0, r => r 1 | 1, r => r 1
  let fk : FK S := { child := 1, col := 0, key := Equiv.refl Nat, bySort := false }
  let cfg : Cfg S := { trackers := fun t => if t = 0 then [.auto fk] else [], handlers := [.panicking, .null, .delete] }
  let ops : (t : Fin 2) → List (TOp (S t)) := fun t => match t with
    | 0 => [.push (row 0 0 0)]
    | 1 => [.merge [row 1 0 5]]
  let tbl : (t : Fin 2) → Tbl (S t) := fun t => match runOps (key t) Tbl.new (ops t) with
    | .ok x => x
    | .error _ => Tbl.new
  have hfk : ∀ p g, IsFK cfg p g ↔ p = 0 ∧ g = fk := by
    intro p g
    show Tracker.auto g ∈ (if p = 0 then [Tracker.auto fk] else []) ↔ _
    split <;> simp_all
  refine ⟨S, key, cfg, fun t => if t = 0 then 1 else 0, ⟨tbl, fun _ => 0, fun _ => false, []⟩, ⟨2, true, false⟩,
    fun t => ⟨mkSchemaLawful _ _ _⟩, ⟨?_, ?_, ?_, ?_⟩, ?_, rfl, rfl, rfl, rfl, ⟨fun _ => rfl, fun _ => rfl⟩, ⟨?_, ?_, ?_⟩, by rfl, by rfl⟩
  · intro p hp
    match p with
    | 0 => rfl
    | 1 => exact absurd rfl hp
  · intro p g h; obtain ⟨rfl, rfl⟩ := (hfk p g).1 h; exact Or.inr rfl
  · intro p g h hb; obtain ⟨rfl, rfl⟩ := (hfk p g).1 h; cases hb
  · intro p g h hb; obtain ⟨rfl, rfl⟩ := (hfk p g).1 h; rfl
  · intro p g h; obtain ⟨rfl, rfl⟩ := (hfk p g).1 h; decide
  · intro t
    show Reach (key t) true (match runOps (key t) Tbl.new (ops t) with | .ok x => x | .error _ => Tbl.new)
    cases h : runOps (key t) Tbl.new (ops t) with
    | error p => exact Reach.new
    | ok x =>
      refine Reach.ofOps Reach.new ?_ h
      match t with
      | 0 =>
        intro op hop
        have : op = .push (row 0 0 0) := List.mem_singleton.1 hop
        subst this; exact ⟨by simp [TOp.Allowed, S], rfl⟩
      | 1 =>
        intro op hop
        have : op = .merge [row 1 0 5] := List.mem_singleton.1 hop
        subst this; exact ⟨by simp [TOp.Allowed, S], rfl⟩
  · intro t
    match t with
    | 0 => exact (by decide : (1 : Nat) ≤ 255)
    | 1 => exact (by decide : (1 : Nat) ≤ 255)
  · intro p g h hb; obtain ⟨rfl, rfl⟩ := (hfk p g).1 h; cases hb

/-- C29 applies: parent 0 goes with children 0, 1 and grandchildren 0, 1, 2; parent 1 goes alone. -/
example : Standard uniCfg ∧ Acyclic uniCfg uniRank ∧ Unlocked uniEnv ∧ Ready uniKey uniCfg uniEnv.tbl ∧
    (∀ i ∈ [0, 1], (uniEnv.tbl 0).contains i = true) ∧ Tame uniCfg [0, 1] ∧
    uniDump (session uniCfg 3 uniKey 0 [.delete 0, .delete 1] evDelete uniEnv) =
      some [[none, none, some (12, 0), none], [none, none, some (2, 22), none], [some (2, 33), none, none, none, none]] :=
  ⟨uniStandard, uniAcyclic, uniUnlocked, uniReady, by decide, fun _ => by decide, by decide⟩

/-! ## C32 -/

/-- C32: `clear()` and a removal flush empties the table and every table that depends on it, directly or
not — whether or not their rows reference anything — and touches no other table. This needs no clean history. -/
theorem C32_clear_cascades {ev : Event} (hst : Standard cfg) (hac : Acyclic cfg rank)
    (hr : ev.isRemoval = true) (hc : ev.isCreation = false) (hh : cfg.handlers[ev.id]? = some .delete) {n : Nat} {p : T}
    (hn : rank p < n) (hp : (S p).kind = .consistent) {env : Env S} (hu : Unlocked env)
    (hrd : ∀ t, Reach (key t) false (env.tbl t)) :
    ∃ env', session cfg n key p [.clear] ev env = .ok env' ∧ Unlocked env' ∧
      (∀ t, Reach (key t) false (env'.tbl t)) ∧
      (env'.tbl p).len = 0 ∧ (∀ t, DependsOn cfg t p → (env'.tbl t).len = 0) ∧
      ∀ t, t ≠ p → ¬ DependsOn cfg t p → env'.tbl t = env.tbl t := by
  obtain ⟨env1, a1, a2, a3, a4⟩ := unlocked_lock hu p
  let w : W (S p) := { W.lock (env.tbl p) with delete := true, changes := .all }
  have hs : (W.lock (env.tbl p)).steps (key p) [.clear] = .ok w := by
    unfold W.steps
    rw [List.foldlM_cons]
    have : (W.lock (env.tbl p)).step (key p) .clear = .ok w := by
      simp only [W.step, W.clear]; rw [hp]
    rw [this, okBind]; rfl
  have hup : Function.update env1.tbl p w.tbl = env.tbl := by
    rw [a3]; show Function.update env.tbl p (env.tbl p) = _; rw [Function.update_eq_self]
  obtain ⟨env2, env', b1, b2, b3, b4, b5, -, -⟩ := flush_clear (w := w) hst hac hc hr hh hn a2 (by rw [hup]; exact hrd) rfl rfl
  refine ⟨env', ?_, b2, fun t => (b3 t).1 (by rw [hup]; exact hrd t), b4 p (Or.inl rfl), fun t ht => b4 t (Or.inr ht), ?_⟩
  · unfold session
    rw [a1, okBind]
    simp only []
    rw [hs, okBind]
    exact b1
  · intro t h1 h2
    rw [b5 t (by rintro (h | h); exacts [h1 h, h2 h]), a3]

/-- An empty table shows no row. -/
theorem C32_empty_shows_nothing {S : Schema} (t : Tbl S) (h : t.len = 0) (i : Nat) : t.contains i = false ∧ t.view i = none := by
  have : t.contains i = false := by unfold Tbl.contains; rw [h]; split <;> simp
  exact ⟨this, by unfold Tbl.view; rw [this]; simp⟩

/-- C32 applies: child 2 references parent 2; grandchild rows go too. -/
example : uniDump (session uniCfg 3 uniKey 1 [.clear] evDelete uniEnv) =
      some [[some (10, 0), some (11, 0), some (12, 0), none], [none, none, none, none], [none, none, none, none, none]] ∧
    uniDump (session uniCfg 3 uniKey 0 [.clear] evDelete uniEnv) =
      some [[none, none, none, none], [none, none, none, none], [none, none, none, none, none]] := by decide

/-! ## C31 -/

/-- `p` can be left along `m` foreign_auto links. -/
inductive Path (cfg : Cfg S) : Nat → T → Prop
  | nil {p : T} : Path cfg 0 p
  | step {m : Nat} {p : T} {fk : FK S} : IsFK cfg p fk → Path cfg m fk.child → Path cfg (m + 1) p

theorem foldlM_ok_mem {α σ : Type} {f : σ → α → R σ} {l : List α} {s s' : σ} (h : l.foldlM f s = .ok s') {a : α} (ha : a ∈ l) :
    ∃ t t', f t a = .ok t' := by
  induction l generalizing s with
  | nil => cases ha
  | cons b l ih =>
    rw [List.foldlM_cons] at h
    cases e : f s b with
    | error p => rw [e] at h; cases h
    | ok t =>
      rw [e, okBind] at h
      rcases List.mem_cons.1 ha with rfl | ha
      · exact ⟨s, t, e⟩
      · exact ih h ha

/-- C31: with `m` links below a table, telling its trackers takes more than `m` nested flushes: with a
smaller stack it does not return, whatever the event, the handlers, the rows and the state. -/
theorem C31_depth_needed (cfg : Cfg S) (n : Nat) (p : T) (h : Path cfg n p) (ev : Event) (pushed delete : Bool)
    (sel : Select (List Nat)) (env : Env S) : ∀ r, doFlush cfg n p ev pushed delete sel env ≠ .ok r := by
  induction n generalizing p ev pushed delete sel env with
  | zero => intro r; simp [doFlush]
  | succ n ih =>
    cases h with
    | @step _ _ fk hfk hp =>
      intro r hr
      unfold doFlush at hr
      split at hr
      · cases hr
      · cases eh : cfg.handler ev with
        | error q => rw [eh] at hr; cases hr
        | ok hd =>
          rw [eh, okBind] at hr
          cases ef : (cfg.trackers p).foldlM (flushStep (doFlush cfg n) p ev hd) ⟨sel, sel.isAll, env⟩ with
          | error q => rw [ef] at hr; cases hr
          | ok st =>
            obtain ⟨t, t', ht⟩ := foldlM_ok_mem ef hfk
            unfold flushStep at ht
            rw [if_neg (by simp [Tracker.considers])] at ht
            simp only [] at ht
            generalize (if (!t.sorted && (Tracker.auto fk).sort) = true then
              ({ sel := t.sel.sort, sorted := true, env := t.env } : FlushSt S) else t) = t1 at ht
            cases et : trackerHandle (doFlush cfg n) p (.auto fk) ev t1.sel hd t1.env with
            | error q => rw [et] at ht; cases ht
            | ok env1 =>
              unfold trackerHandle at et
              simp only [] at et
              cases e1 : t1.env.peek fk.child with
              | error q => rw [e1] at et; cases et
              | ok x =>
                rw [e1, okBind] at et
                cases e2 : fk.select x t1.sel with
                | error q => rw [e2] at et; cases et
                | ok s2 =>
                  rw [e2, okBind] at et
                  unfold handlerRun at et
                  cases e3 : handlerNeedsSort hd fk.child t1.env with
                  | error q => rw [e3] at et; cases et
                  | ok b =>
                    rw [e3, okBind] at et
                    simp only [] at et
                    generalize (if b = true then s2.sort else s2) = s3 at et
                    cases e4 : handlerHandle (doFlush cfg n) hd fk.child ev s3 t1.env with
                    | error q => rw [e4] at et; cases et
                    | ok env4 =>
                      rw [e4, okBind] at et
                      cases e5 : env4.acquireRead fk.child with
                      | error q => rw [e5] at et; cases et
                      | ok env5 =>
                        rw [e5, okBind] at et
                        cases e6 : doFlush cfg n fk.child ev ev.isCreation ev.isRemoval s3 env5 with
                        | error q => rw [e6] at et; cases et
                        | ok y => exact ih fk.child hp ev _ _ _ _ y e6

/-- A table that depends on itself can be left along any number of links. -/
theorem path_cycle {p : T} (h : DependsOn cfg p p) (m : Nat) : Path cfg m p := by
  -- from any table that leads to `p` there are paths of every length
  have key : ∀ m q, (q = p ∨ DependsOn cfg p q) → Path cfg m q := by
    intro m
    induction m with
    | zero => intro q _; exact Path.nil
    | succ m ih =>
      intro q hq
      have hd : DependsOn cfg p q := by
        rcases hq with rfl | hq
        · exact h
        · exact hq
      cases hd with
      | direct hfk => exact Path.step hfk (ih _ (Or.inl rfl))
      | step hfk hd => exact Path.step hfk (ih _ (Or.inr hd))
  exact key m p (Or.inl rfl)

/-- C31: if a table depends on itself, directly or not, then no flush of it that has anything to tell ever
returns — for every event, every handler, every state, every stack size, and even if no row matches. -/
theorem C31_cycle_never_returns (cfg : Cfg S) (p : T) (h : DependsOn cfg p p) (n : Nat) (w : W (S p)) (ev : Event) (env : Env S)
    (hw : w.changes.isEmpty = false) : ∀ env', flush cfg n p w ev env ≠ .ok env' := by
  intro env' he
  unfold flush flushWith at he
  rw [if_neg (by simp [hw])] at he
  simp only [] at he
  cases e : doFlush cfg n p ev w.pushed w.delete w.changes (env.unlock p w.tbl) with
  | error q => rw [e] at he; cases he
  | ok r => exact C31_depth_needed cfg n p (path_cycle h n) ev w.pushed w.delete w.changes _ r e

/-- C31: with no cycle and enough stack, a removal flush of any rows marked on a consistent table returns, so
it neither waits for itself nor exhausts the stack. -/
theorem C31_removal_returns {ev : Event} (hst : Standard cfg) (hac : Acyclic cfg rank)
    (hr : ev.isRemoval = true) (hc : ev.isCreation = false) (hh : cfg.handlers[ev.id]? = some .delete) {n : Nat} {p : T}
    (hn : rank p < n) (hp : (S p).kind = .consistent) {env : Env S} (hu : Unlocked env) (hrd : Ready key cfg env.tbl)
    (ops : List (LOp (S p))) (hm : ∀ op ∈ ops, op.mark.isSome = true) (w : W (S p))
    (hs : (W.lock (env.tbl p)).steps (key p) ops = .ok w) (ht : Tame cfg (ops.filterMap LOp.mark))
    (hlt : ∀ i ∈ ops.filterMap LOp.mark, i < (env.tbl p).len) :
    ∃ env', session cfg n key p ops ev env = .ok env' ∧ Unlocked env' ∧ Ready key cfg env'.tbl := by
  obtain ⟨env', new, a1, a2, a3, -⟩ := session_removal hst hac hr hc hh hn hp hu hrd ops hm w hs ht hlt
  exact ⟨env', a1, a2, a3⟩

/-- C31: likewise an event whose handler does nothing, with any change list. -/
theorem C31_creation_returns {ev : Event} (hse : Searchable cfg) (hac : Acyclic cfg rank)
    (hr : ev.isRemoval = false) (hh : cfg.handlers[ev.id]? = some .null) {n : Nat} {p : T} (hn : rank p < n)
    {w : W (S p)} {env : Env S} (hl : Holding env p)
    (hrd : Ready key cfg (Function.update env.tbl p w.tbl)) (hpd : (w.pushed && w.delete) = false) :
    ∃ env', flush cfg n p w ev env = .ok env' ∧ Unlocked env' := by
  obtain ⟨env', a, b, -⟩ := flush_null hse hac hr hh hn hl hrd hpd
  exact ⟨env', a, b⟩

/-- C31: a table that references itself: deleting rows waits forever for a lock this thread holds. -/
theorem C31_self_reference_deadlocks {ev : Event} {p : T} (fk : FK S) (hfk : fk.child = p) (hb : fk.bySort = false)
    (hi : (((S fk.child).C fk.col).find).isSome = true)
    (htr : cfg.trackers p = [.auto fk]) (hp : (S p).kind = .consistent) (hc : ev.isCreation = false)
    (hh : cfg.handlers[ev.id]? = some .delete) (n : Nat) (w : W (S p)) (env : Env S) (hl : Holding env p)
    (hrd : Reach (key p) true w.tbl) (hlen : w.tbl.len ≤ (S p).max) (rows : List Nat) (hw : w.changes = .these rows) (hne : rows ≠ [])
    (hpd : (w.pushed && w.delete) = false) :
    flush cfg (n + 2) p w ev env = .error .deadlock := by
  subst hfk
  have hu := hl.unlock w.tbl
  have hns : ¬ ((S fk.child).kind = .sorted) := by rw [hp]; simp
  have hhd : cfg.handler ev = .ok .delete := by unfold Cfg.handler; rw [hh]
  obtain ⟨L, hL⟩ := hrd.wf
  have hLl : L.length ≤ (S fk.child).max := by rw [← hL.len]; exact hlen
  obtain ⟨out, o1, -, -, o3⟩ := fkSelect_ok fk hL hLl (fun h => by rw [hb] at h; cases h) (fun _ => hi) rows (fun h => absurd h hns)
  have hall : ∀ i ∈ out, i < L.length := by
    intro i hi
    obtain ⟨r, hr, -⟩ := (o3 i).1 hi
    rw [hL.view_iff] at hr
    exact (List.getElem?_eq_some_iff.1 hr.1).1
  obtain ⟨x, x1, -, x3⟩ := hL.deleteLoop hp out hall
  obtain ⟨out2, o21, -, -, -⟩ := fkSelect_ok fk x3 hLl (fun h => by rw [hb] at h; cases h) (fun _ => hi) out (fun h => absurd h hns)
  -- the inner flush, which runs while this thread reads the table
  have inner : ∀ (e : Env S), e.tbl fk.child = x → e.writer fk.child = false → e.reads fk.child ≠ 0 →
      doFlush cfg (n + 1) fk.child ev ev.isCreation ev.isRemoval (.these out) e = .error .deadlock := by
    intro e h1 h2 h3
    unfold doFlush
    rw [if_neg (by simp [hc]), hhd, okBind, htr, List.foldlM_cons]
    have : flushStep (doFlush cfg n) fk.child ev .delete ⟨.these out, (Select.these out).isAll, e⟩ (.auto fk) = .error .deadlock := by
      unfold flushStep
      rw [if_neg (by simp [Tracker.considers])]
      simp only [Tracker.sort, hns, decide_false, Bool.and_false, Bool.false_eq_true, if_false]
      unfold trackerHandle
      simp only []
      rw [peek_ok h2, okBind, h1, o21, okBind]
      unfold handlerRun handlerNeedsSort
      simp only []
      rw [peek_ok h2, okBind, okBind]
      simp only [hns, decide_false, Bool.false_eq_true, if_false]
      unfold handlerHandle
      simp only []
      rw [peek_ok h2, okBind]
      unfold tableRemoveRows
      rw [hp]
      simp only []
      have : e.lock fk.child = .error .deadlock := by
        unfold Env.lock; rw [if_pos (Or.inl h3)]
      rw [this]; rfl
    rw [this]; rfl
  -- the outer flush
  unfold flush flushWith
  rw [if_neg (by rw [hw]; simp [Select.isEmpty, hne])]
  simp only []
  unfold doFlush
  rw [if_neg (by simp [hpd, hc]), hhd, okBind, htr, List.foldlM_cons]
  have hw0 := hu.2 fk.child
  have hr0 := hu.1 fk.child
  have htb : (env.unlock fk.child w.tbl).tbl fk.child = w.tbl := by rw [unlock_tbl]; simp
  have : flushStep (doFlush cfg (n + 1)) fk.child ev .delete ⟨w.changes, w.changes.isAll, env.unlock fk.child w.tbl⟩ (.auto fk) =
      .error .deadlock := by
    unfold flushStep
    rw [if_neg (by simp [Tracker.considers])]
    simp only [Tracker.sort, hns, decide_false, Bool.and_false, Bool.false_eq_true, if_false]
    unfold trackerHandle
    simp only []
    rw [peek_ok hw0, okBind, htb, hw, o1, okBind]
    unfold handlerRun handlerNeedsSort
    simp only []
    rw [peek_ok hw0, okBind, okBind]
    simp only [hns, decide_false, Bool.false_eq_true, if_false]
    unfold handlerHandle
    simp only []
    rw [peek_ok hw0, okBind]
    unfold tableRemoveRows
    rw [hp]
    simp only []
    rw [lock_ok hr0 hw0, okBind]
    simp only [W.lock]
    rw [htb, hL.len, x1, okBind, flushWith_empty rfl, okBind]
    simp only []
    rw [unlock_lock hw0]
    obtain ⟨env5, ha, h5a, h5b, h5c⟩ : ∃ env5, Env.acquireRead ((env.unlock fk.child w.tbl).put fk.child x) fk.child = .ok env5 ∧
        env5.tbl fk.child = x ∧ env5.writer fk.child = false ∧ env5.reads fk.child ≠ 0 := by
      unfold Env.acquireRead
      rw [if_neg (by show ¬ (env.unlock fk.child w.tbl).writer fk.child = true; rw [hw0]; simp)]
      refine ⟨_, rfl, ?_, hw0, ?_⟩
      · simp [Env.put]
      · simp
    rw [ha, okBind, inner env5 h5a h5b h5c]
    rfl
  rw [this]; rfl

/-- C31: a table that references itself: telling its trackers of new rows recurses without end, whatever
the stack. -/
theorem C31_self_reference_overflows {ev : Event} {p : T} (fk : FK S) (hfk : fk.child = p) (hb : fk.bySort = false)
    (hi : (((S fk.child).C fk.col).find).isSome = true)
    (htr : cfg.trackers p = [.auto fk]) (hp : (S p).kind = .consistent) (hc : ev.isRemoval = false)
    (hh : cfg.handlers[ev.id]? = some .null) (n : Nat) (w : W (S p)) (env : Env S) (hl : Holding env p)
    (hrd : Reach (key p) true w.tbl) (hlen : w.tbl.len ≤ (S p).max) (hw : w.changes.isEmpty = false)
    (hpd : (w.pushed && w.delete) = false) :
    flush cfg n p w ev env = .error .stackOverflow := by
  subst hfk
  have hu := hl.unlock w.tbl
  have hns : ¬ ((S fk.child).kind = .sorted) := by rw [hp]; simp
  have hhd : cfg.handler ev = .ok .null := by unfold Cfg.handler; rw [hh]
  obtain ⟨L, hL⟩ := hrd.wf
  have hLl : L.length ≤ (S fk.child).max := by rw [← hL.len]; exact hlen
  have hsel : ∀ sel, ∃ out, fk.select w.tbl sel = .ok out := by
    intro sel
    cases sel with
    | all => exact ⟨.all, rfl⟩
    | these rows =>
      obtain ⟨out, o1, -, -, o3⟩ := fkSelect_ok fk hL hLl (fun h => by rw [hb] at h; cases h) (fun _ => hi) rows (fun h => absurd h hns)
      exact ⟨_, o1⟩
  have inner : ∀ n (e : Env S) pushed delete sel, e.tbl fk.child = w.tbl → e.writer fk.child = false → (pushed && delete) = false →
      doFlush cfg n fk.child ev pushed delete sel e = .error .stackOverflow := by
    intro n
    induction n with
    | zero => intros; rfl
    | succ n ih =>
      intro e pushed delete sel h1 h2 h3
      unfold doFlush
      rw [if_neg (by simp [hc, h3]), hhd, okBind, htr, List.foldlM_cons]
      have : flushStep (doFlush cfg n) fk.child ev .null ⟨sel, sel.isAll, e⟩ (.auto fk) = .error .stackOverflow := by
        unfold flushStep
        rw [if_neg (by simp [Tracker.considers])]
        simp only [Tracker.sort, hns, decide_false, Bool.and_false, Bool.false_eq_true, if_false]
        unfold trackerHandle
        simp only []
        obtain ⟨out, ho⟩ := hsel sel
        rw [peek_ok h2, okBind, h1, ho, okBind]
        unfold handlerRun handlerNeedsSort
        simp only [okBind, Bool.false_eq_true, if_false]
        unfold handlerHandle
        simp only [okBind]
        have ha : Env.acquireRead e fk.child =
            .ok { e with reads := Function.update e.reads fk.child (e.reads fk.child + 1) } := by
          unfold Env.acquireRead
          rw [if_neg (by rw [h2]; simp)]
        rw [ha, okBind, ih _ _ _ _ (by exact h1) (by exact h2) (by simp [hc])]
        rfl
      rw [this]; rfl
  unfold flush flushWith
  rw [if_neg (by simp [hw])]
  simp only []
  rw [inner n _ _ _ _ (by rw [unlock_tbl]; simp) (hu.2 _) hpd]
  rfl

/-- A tree: column 0 references the table itself. -/
@[reducible] def treeCols : Fin (1 + 1) → ColSpec
  | 0 => .index Nat inferInstance
  | 1 => .vec Nat

@[reducible] def TreeS (_ : Unit) : Schema := mkSchema treeCols 255 .consistent

def treeFK : FK TreeS := { child := (), col := 0, key := Equiv.refl Nat, bySort := false }

def treeCfg : Cfg TreeS := { trackers := fun _ => [.auto treeFK], handlers := [.panicking, .null, .delete] }

def treeRow (a b : Nat) : Row (TreeS ()) := fun j =>
  match j with
  | 0 => a
  | 1 => b

def treeKey (_ : Unit) (r : Row (TreeS ())) : Nat := r 0

def treeEnv : Env TreeS := { tbl := fun _ => Tbl.new, reads := fun _ => 0, writer := fun _ => false, log := [] }

/-- C31 applies: pushing a single root overflows any stack; were it there, deleting it would deadlock — although it
references no row. -/
example : DependsOn treeCfg () () ∧
    (∀ p fk, IsFK treeCfg p fk → fk.child = p) ∧
    session treeCfg 9 treeKey () [.push (treeRow 77 0)] evCreate treeEnv = .error .stackOverflow ∧
    (∃ x, (TOp.push (treeRow 77 0)).run (treeKey ()) Tbl.new = .ok x ∧
      session treeCfg 9 treeKey () [.delete 0] evDelete { treeEnv with tbl := fun _ => x } = .error .deadlock) :=
  ⟨DependsOn.direct (fk := treeFK) (by simp [IsFK, treeCfg]), by intro p fk _; rfl, by rfl, ⟨_, rfl, by rfl⟩⟩

/-! ## C33 -/

/-- C33: in a removal, every call to a tracker of the flushed table itself sees that table with
all the marked rows (and there is at least one such row). -/
theorem C33_first_level_sees_rows {ev : Event} (hst : Standard cfg) (hac : Acyclic cfg rank)
    (hr : ev.isRemoval = true) (hc : ev.isCreation = false) (hh : cfg.handlers[ev.id]? = some .delete) {n : Nat} {p : T}
    (hn : rank p < n) (hp : (S p).kind = .consistent) {env : Env S} (hu : Unlocked env) (hrd : Ready key cfg env.tbl)
    (rows : List Nat) (hne : rows ≠ []) (hl : ∀ i ∈ rows, (env.tbl p).contains i = true) (ht : Tame cfg rows) :
    ∃ env' new, session cfg n key p (rows.map .delete) ev env = .ok env' ∧ env'.log = env.log ++ new ∧
      ∀ c ∈ new, c.table = p → ∃ rs, c.sel = .these rs ∧ rs ≠ [] ∧ (∀ i, i ∈ rs ↔ i ∈ rows) ∧
        ∀ i ∈ rs, (c.seen p).contains i = true := by
  obtain ⟨w, hw⟩ := steps_delete_ok (key := key p) hp (W.lock (env.tbl p)) rows hl
  have hfm : (rows.map (LOp.delete (S := S p))).filterMap LOp.mark = rows := by
    rw [List.filterMap_map]
    have : (LOp.mark ∘ (LOp.delete (S := S p))) = some := rfl
    rw [this, List.filterMap_some]
  have hlt : ∀ i ∈ rows, i < (env.tbl p).len := by
    intro i hi
    have := hl i hi
    unfold Tbl.contains at this
    rw [if_pos hp] at this
    simp only [Bool.and_eq_true, decide_eq_true_eq] at this
    exact this.1
  obtain ⟨env', new, a1, a2, a3, a4, a5, a6⟩ := session_removal hst hac hr hc hh hn hp hu hrd (rows.map .delete) (by simp [LOp.mark]) w hw
    (by rw [hfm]; exact ht) (by rw [hfm]; exact hlt)
  rw [hfm] at a6
  obtain ⟨l1, -⟩ := a6 hne
  refine ⟨env', new, a1, a5, ?_⟩
  intro c hc' hcp
  have hmem : c ∈ new.filter (fun c => c.table = p) := by simp [hc', hcp]
  obtain ⟨i, hi, rfl⟩ := List.mem_iff_getElem.1 hmem
  have hlen := l1.length_eq
  obtain ⟨-, -, ⟨rs, r1, r2, -⟩, r4⟩ := (List.forall₂_iff_get.1 l1).2 i (by omega) hi
  refine ⟨rs, r1, ?_, fun i => r2.mem_iff, ?_⟩
  · rintro rfl; exact hne r2.symm.eq_nil
  · intro j hj
    have r4' : ((new.filter (fun c => c.table = p))[i]).seen p = env.tbl p := r4
    rw [r4']; exact hl j (r2.mem_iff.1 hj)

/-- C33, below the first level, always: every call to a tracker of a dependent table sees that table with
every selected row already gone. -/
theorem C33_lower_levels_never_see_rows {ev : Event} (hst : Standard cfg) (hac : Acyclic cfg rank)
    (hr : ev.isRemoval = true) (hc : ev.isCreation = false) (hh : cfg.handlers[ev.id]? = some .delete) {n : Nat} {p : T}
    (hn : rank p < n) (hp : (S p).kind = .consistent) {env : Env S} (hu : Unlocked env) (hrd : Ready key cfg env.tbl)
    (rows : List Nat) (hl : ∀ i ∈ rows, (env.tbl p).contains i = true) (ht : Tame cfg rows) :
    ∃ env' new, session cfg n key p (rows.map .delete) ev env = .ok env' ∧ env'.log = env.log ++ new ∧
      (rows ≠ [] → ∀ c ∈ new, c.table ≠ p → ∃ rs, c.sel = .these rs ∧ ∀ i ∈ rs, (c.seen c.table).contains i = false) := by
  obtain ⟨w, hw⟩ := steps_delete_ok (key := key p) hp (W.lock (env.tbl p)) rows hl
  have hfm : (rows.map (LOp.delete (S := S p))).filterMap LOp.mark = rows := by
    rw [List.filterMap_map]
    have : (LOp.mark ∘ (LOp.delete (S := S p))) = some := rfl
    rw [this, List.filterMap_some]
  have hlt : ∀ i ∈ rows, i < (env.tbl p).len := by
    intro i hi
    have := hl i hi
    unfold Tbl.contains at this
    rw [if_pos hp] at this
    simp only [Bool.and_eq_true, decide_eq_true_eq] at this
    exact this.1
  obtain ⟨env', new, a1, a2, a3, a4, a5, a6⟩ := session_removal hst hac hr hc hh hn hp hu hrd (rows.map .delete) (by simp [LOp.mark]) w hw
    (by rw [hfm]; exact ht) (by rw [hfm]; exact hlt)
  rw [hfm] at a6
  refine ⟨env', new, a1, a5, ?_⟩
  intro hne c hc' hcp
  exact ((a6 hne).2 c hc' hcp).2.2

/-- C33, concretely: deleting parent 0, the observer on table 1 is told of rows 0 and 1, which are gone; deleting
parent 1, which nobody references, it is told of no rows at all. -/
theorem C33_counterexample :
    uniLog (session uniCfg 3 uniKey 0 [.delete 0] evDelete uniEnv) =
      some [(0, .these [0], [some (10, 0), some (11, 0), some (12, 0), none]),
        (1, .these [0, 1], [none, none, some (2, 22), none])] ∧
    uniLog (session uniCfg 3 uniKey 0 [.delete 1] evDelete uniEnv) =
      some [(0, .these [1], [some (10, 0), some (11, 0), some (12, 0), none]),
        (1, .these [], [some (0, 20), some (0, 21), some (2, 22), none])] := ⟨by rfl, by rfl⟩

end V11
