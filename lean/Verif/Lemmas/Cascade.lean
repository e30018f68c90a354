import Verif.Lemmas.Select
import Mathlib.Data.List.Forall2

/-!
# The cascade of a removal through foreign_auto trackers
-/

set_option linter.unusedSimpArgs false
set_option linter.unusedSectionVars false
set_option linter.unusedVariables false

namespace V11
variable {T : Type} [DecidableEq T] {S : T → Schema} [LS : ∀ t, LawfulSchema (S t)]
variable {K : Type} [LinearOrder K] {key : (t : T) → Row (S t) → K} {cfg : Cfg S} {rank : T → Nat}

/-- A family of doomed rows is closed: a row of a consistent table that references one is one. -/
def ClosedUnder (cfg : Cfg S) (u : (t : T) → Tbl (S t)) (D : T → Nat → Prop) : Prop :=
  ∀ q k fk i r, IsFK cfg q fk → D q k → (S fk.child).kind = .consistent → (u fk.child).view i = some r →
    fk.ref r = k → D fk.child i

/-- `u'` is `u` without some rows of `D`, and without some rows of sorted tables that reference `D`. -/
structure Shrinks (cfg : Cfg S) (D : T → Nat → Prop) (u u' : (t : T) → Tbl (S t)) : Prop where
  cons : ∀ t, (S t).kind = .consistent → ∀ i, (u' t).view i = (u t).view i ∨ ((u' t).view i = none ∧ D t i)
  sorted : ∀ t, (S t).kind = .sorted → ∃ keep : Row (S t) → Bool,
    (∀ r, keep r = false → ∃ q fk k, IsFK cfg q fk ∧ Refers fk r k ∧ D q k) ∧
    ∀ L, WF (u t) L → WF (u' t) (L.filter keep)
  other : ∀ t, (S t).kind ≠ .consistent → (S t).kind ≠ .sorted → u' t = u t

theorem Shrinks.refl {D : T → Nat → Prop} (u : (t : T) → Tbl (S t)) : Shrinks cfg D u u where
  cons _ _ _ := Or.inl rfl
  sorted _ _ := ⟨fun _ => true, by simp, fun L h => by rw [List.filter_eq_self.2 (by simp)]; exact h⟩
  other _ _ _ := rfl

theorem Shrinks.trans {D : T → Nat → Prop} {u v w : (t : T) → Tbl (S t)} (h1 : Shrinks cfg D u v)
    (h2 : Shrinks cfg D v w) : Shrinks cfg D u w where
  cons t ht i := by
    rcases h2.cons t ht i with e | ⟨e, hd⟩
    · rw [e]; exact h1.cons t ht i
    · exact Or.inr ⟨e, hd⟩
  sorted t ht := by
    obtain ⟨k1, a1, b1⟩ := h1.sorted t ht
    obtain ⟨k2, a2, b2⟩ := h2.sorted t ht
    refine ⟨fun r => k1 r && k2 r, ?_, ?_⟩
    · intro r hr
      cases h : k1 r with
      | true => exact a2 r (by simpa [h] using hr)
      | false => exact a1 r h
    · intro L hL
      have := b2 _ (b1 L hL)
      rw [List.filter_filter] at this
      convert this using 2
      funext r
      exact Bool.and_comm _ _
  other t h h' := (h2.other t h h').trans (h1.other t h h')

theorem Ready.wf {u : (t : T) → Tbl (S t)} (h : Ready key cfg u) (t : T) :
    ∃ L, WF (u t) L ∧ L.length ≤ (S t).max := by
  obtain ⟨L, hL⟩ := (h.reach t).wf
  exact ⟨L, hL, by rw [← hL.len]; exact h.room t⟩

/-- What is live after was live before. -/
theorem Shrinks.live {D : T → Nat → Prop} {u v : (t : T) → Tbl (S t)} (h : Shrinks cfg D u v)
    (hu : Ready key cfg u) {t : T} {i : Nat} {r : Row (S t)} (hr : (v t).view i = some r) :
    ∃ j, (u t).view j = some r ∧ ((S t).kind = .consistent → j = i) := by
  by_cases hc : (S t).kind = .consistent
  · rcases h.cons t hc i with e | ⟨e, -⟩
    · exact ⟨i, by rw [← e]; exact hr, fun _ => rfl⟩
    · rw [e] at hr; cases hr
  · by_cases hs : (S t).kind = .sorted
    · obtain ⟨keep, -, hk⟩ := h.sorted t hs
      obtain ⟨L, hL, -⟩ := hu.wf t
      have hw := hk L hL
      rw [hw.view_iff' hc] at hr
      have hm := (List.mem_filter.1 (List.mem_of_getElem? hr)).1
      obtain ⟨j, hj⟩ := List.mem_iff_getElem?.1 hm
      exact ⟨j, by rw [hL.view_iff' hc]; exact hj, fun h => absurd h hc⟩
    · have := h.other t hc hs
      exact ⟨i, by rw [← this]; exact hr, fun h => absurd h hc⟩

theorem Shrinks.unreferenced {D : T → Nat → Prop} {u v : (t : T) → Tbl (S t)} (h : Shrinks cfg D u v)
    (hu : Ready key cfg u) {fk : FK S} {k : Nat} (hn : Unreferenced u fk k) : Unreferenced v fk k := by
  intro i r hr
  obtain ⟨j, hj, -⟩ := h.live hu hr
  exact hn j r hj

theorem Shrinks.closed {D D' : T → Nat → Prop} {u v : (t : T) → Tbl (S t)} (h : Shrinks cfg D u v)
    (hu : Ready key cfg u) (hc : ClosedUnder cfg u D') : ClosedUnder cfg v D' := by
  intro q k fk i r h1 h2 h3 h4 h5
  obtain ⟨j, hj, hji⟩ := h.live hu h4
  rw [hji h3] at hj
  exact hc q k fk i r h1 h2 h3 hj h5

theorem closed_true (u : (t : T) → Tbl (S t)) : ClosedUnder cfg u (fun _ _ => True) :=
  fun _ _ _ _ _ _ _ _ _ _ => trivial

/-- What the observers were told while the trackers `ts` of `p` handled `rows`. -/
def LogOk (rank : T → Nat) (p : T) (rows : List Nat) (ev : Event) (ts : List (Tracker S))
    (u : (t : T) → Tbl (S t)) (new : List (Call S)) : Prop :=
  List.Forall₂ (fun (o : Observer) (c : Call S) => c.name = o.name ∧ c.event = ev ∧
      (∃ rs, c.sel = .these rs ∧ rs.Perm rows ∧ (o.sort = true → rs.Pairwise (· ≤ ·))) ∧ c.seen p = u p)
    (observers ev ts) (new.filter (fun c => c.table = p)) ∧
  ∀ c ∈ new, c.table ≠ p → rank c.table < rank p ∧ c.event = ev ∧
    ∃ rs, c.sel = .these rs ∧ ∀ i ∈ rs, (c.seen c.table).contains i = false

/-- What this call saw, of a cascade that started from `u`: some of the work has been done, none of it above `p`. -/
structure SeenOk (key : (t : T) → Row (S t) → K) (cfg : Cfg S) (rank : T → Nat) (p : T) (rows : List Nat)
    (u v : (t : T) → Tbl (S t)) : Prop where
  ready : Ready key cfg v
  sound : ∀ D, ClosedUnder cfg u D → ((S p).kind = .consistent → ∀ i ∈ rows, D p i) → Shrinks cfg D u v
  same : ∀ t, rank p ≤ rank t → v t = u t

/-- What the trackers `ts` of `p` did with `rows`. -/
structure Post (key : (t : T) → Row (S t) → K) (cfg : Cfg S) (rank : T → Nat) (p : T) (rows : List Nat)
    (ts : List (Tracker S)) (ev : Event) (env env' : Env S) : Prop where
  ready : Ready key cfg env'.tbl
  sound : ∀ D, ClosedUnder cfg env.tbl D → ((S p).kind = .consistent → ∀ i ∈ rows, D p i) →
    Shrinks cfg D env.tbl env'.tbl
  unref : ∀ fk, Tracker.auto fk ∈ ts → ∀ k ∈ rows, Unreferenced env'.tbl fk k
  killed : ∀ q, (S q).kind = .consistent → ∀ k, (env.tbl q).view k ≠ none → (env'.tbl q).view k = none →
    ∀ fk, IsFK cfg q fk → Unreferenced env'.tbl fk k
  same : ∀ t, rank p ≤ rank t → env'.tbl t = env.tbl t
  reads : env'.reads = env.reads
  writer : env'.writer = env.writer
  log : ∃ new, env'.log = env.log ++ new ∧ LogOk rank p rows ev ts env.tbl new
  seen : ∃ new, env'.log = env.log ++ new ∧ ∀ c ∈ new, SeenOk key cfg rank p rows env.tbl c.seen

theorem Post.nil (p : T) (rows : List Nat) (ev : Event) (env : Env S) (h : Ready key cfg env.tbl) :
    Post key cfg rank p rows [] ev env env where
  ready := h
  sound _ _ _ := Shrinks.refl _
  unref := by simp
  killed q _ k h1 h2 := absurd h2 h1
  same _ _ := rfl
  reads := rfl
  writer := rfl
  log := ⟨[], by simp, List.Forall₂.nil, by simp⟩
  seen := ⟨[], by simp, by simp⟩

theorem Post.trans {p : T} {rows : List Nat} {ts ts' : List (Tracker S)} {ev : Event} {e1 e2 e3 : Env S}
    (hr : Ready key cfg e1.tbl) (h1 : Post key cfg rank p rows ts ev e1 e2) (h2 : Post key cfg rank p rows ts' ev e2 e3) :
    Post key cfg rank p rows (ts ++ ts') ev e1 e3 where
  ready := h2.ready
  sound D hc hd := by
    have a := h1.sound D hc hd
    exact a.trans (h2.sound D (a.closed hr hc) hd)
  unref fk hm k hk := by
    rcases List.mem_append.1 hm with hm | hm
    · exact (h2.sound _ (closed_true _) (fun _ _ _ => trivial)).unreferenced h1.ready (h1.unref fk hm k hk)
    · exact h2.unref fk hm k hk
  killed q hq k hk hk' fk hfk := by
    by_cases hm : (e2.tbl q).view k = none
    · exact (h2.sound _ (closed_true _) (fun _ _ _ => trivial)).unreferenced h1.ready (h1.killed q hq k hk hm fk hfk)
    · exact h2.killed q hq k hm hk' fk hfk
  same t ht := (h2.same t ht).trans (h1.same t ht)
  reads := h2.reads.trans h1.reads
  writer := h2.writer.trans h1.writer
  log := by
    obtain ⟨n1, a1, b1, c1⟩ := h1.log
    obtain ⟨n2, a2, b2, c2⟩ := h2.log
    refine ⟨n1 ++ n2, by rw [a2, a1, List.append_assoc], ?_, ?_⟩
    · unfold observers at *
      rw [List.filterMap_append, List.filter_append]
      refine List.rel_append b1 ?_
      rw [h1.same p (le_refl _)] at b2
      exact b2
    · intro c hc
      rcases List.mem_append.1 hc with hc | hc
      · exact c1 c hc
      · exact c2 c hc
  seen := by
    obtain ⟨n1, a1, b1⟩ := h1.seen
    obtain ⟨n2, a2, b2⟩ := h2.seen
    refine ⟨n1 ++ n2, by rw [a2, a1, List.append_assoc], ?_⟩
    intro c hc
    rcases List.mem_append.1 hc with hc | hc
    · exact b1 c hc
    · refine ⟨(b2 c hc).ready, fun D hcl hd => ?_, fun t ht => ((b2 c hc).same t ht).trans (h1.same t ht)⟩
      have a := h1.sound D hcl hd
      exact a.trans ((b2 c hc).sound D (a.closed hr hcl) hd)

/-- The selection may be reordered. -/
theorem Post.perm {p : T} {rows rows' : List Nat} {ts : List (Tracker S)} {ev : Event} {e1 e2 : Env S}
    (hp : rows'.Perm rows) (h : Post key cfg rank p rows' ts ev e1 e2) : Post key cfg rank p rows ts ev e1 e2 where
  ready := h.ready
  sound D hc hd := h.sound D hc (fun hk i hi => hd hk i (hp.mem_iff.1 hi))
  unref fk hm k hk := h.unref fk hm k (hp.mem_iff.2 hk)
  killed := h.killed
  same := h.same
  reads := h.reads
  writer := h.writer
  log := by
    obtain ⟨n1, a1, b1, c1⟩ := h.log
    refine ⟨n1, a1, b1.imp ?_, c1⟩
    rintro o c ⟨h1, h2, ⟨rs, h3, h4, h5⟩, h6⟩
    exact ⟨h1, h2, ⟨rs, h3, h4.trans hp, h5⟩, h6⟩
  seen := by
    obtain ⟨n1, a1, b1⟩ := h.seen
    exact ⟨n1, a1, fun c hc => ⟨(b1 c hc).ready, fun D hcl hd => (b1 c hc).sound D hcl (fun hk i hi => hd hk i (hp.mem_iff.1 hi)),
      (b1 c hc).same⟩⟩

/-! ## Locks -/

theorem lock_ok {env : Env S} {t : T} (h1 : env.reads t = 0) (h2 : env.writer t = false) :
    env.lock t = .ok (W.lock (env.tbl t), { env with writer := Function.update env.writer t true }) := by
  unfold Env.lock; rw [if_neg (by simp [h1, h2])]

theorem unlock_lock {env : Env S} {t : T} (h2 : env.writer t = false) (x : Tbl (S t)) :
    Env.unlock { env with writer := Function.update env.writer t true } t x = env.put t x := by
  unfold Env.unlock Env.put
  simp only [Function.update_idem]
  rw [← h2, Function.update_eq_self]

theorem peek_ok {env : Env S} {t : T} (h : env.writer t = false) : env.peek t = .ok (env.tbl t) := by
  unfold Env.peek; simp [h]

theorem flushWith_empty {f : FlushFn S} {t : T} {w : W (S t)} {ev : Event} {env : Env S} (h : w.changes = .these []) :
    flushWith f t w ev env = .ok (env.unlock t w.tbl) := by
  unfold flushWith; rw [h]; rfl

/-! ## Removing the selected rows of one dependent table -/

/-- Replacing one table by the result of a structural operation. -/
theorem ready_put {u : (t : T) → Tbl (S t)} (h : Ready key cfg u) (t : T) (x : Tbl (S t))
    (hr : Reach (key t) true x) (hl : x.len ≤ (S t).max)
    (ho : ∀ p fk (e : fk.child = t), IsFK cfg p fk → fk.bySort = true → ∀ L, Holds (e ▸ x : Tbl (S fk.child)) L → SortedBy fk.ref L) :
    Ready key cfg (Function.update u t x) where
  reach s := by
    by_cases e : s = t
    · subst e; simpa using hr
    · rw [Function.update_of_ne e]; exact h.reach s
  room s := by
    by_cases e : s = t
    · subst e; simpa using hl
    · rw [Function.update_of_ne e]; exact h.room s
  inOrder p fk hfk hb L hL := by
    by_cases e : fk.child = t
    · refine ho p fk e hfk hb L ?_
      subst e
      simpa using hL
    · rw [Function.update_of_ne e] at hL; exact h.inOrder p fk hfk hb L hL

/-- Consistent dependants: `remove_rows` of live rows. -/
theorem removeConsistent {u : (t : T) → Tbl (S t)} (h : Ready key cfg u) (hst : Standard cfg) (t : T) (hk : (S t).kind = .consistent)
    (rows : List Nat) (hr : ∀ i ∈ rows, (u t).view i ≠ none) :
    ∃ x, (u t).deleteLoop (u t).len rows = .ok x ∧ Ready key cfg (Function.update u t x) ∧
      (∀ i, x.view i = if i ∈ rows then none else (u t).view i) := by
  obtain ⟨L, hL, hlen⟩ := h.wf t
  have hall : ∀ i ∈ rows, i < L.length := by
    intro i hi
    have := hr i hi
    rw [hL.view] at this
    by_contra hge
    rw [List.getElem?_eq_none (by omega)] at this
    simp at this
  obtain ⟨x, e1, e2, e3⟩ := hL.deleteLoop hk rows hall
  rw [hL.len]
  refine ⟨x, e1, ready_put h t x ?_ (by rw [e3.len]; exact hlen) ?_, ?_⟩
  · refine Reach.step (op := .remove (.these rows)) (h.reach t) trivial (by simp [TOp.clears]) ?_
    unfold TOp.run Tbl.removeSel
    simp only []
    rw [hL.len]; exact e1
  · intro p fk e hfk hb
    subst e
    have := hst.sorted p fk hfk hb
    rw [hk] at this; cases this
  · intro i
    rw [e3.view, hL.view]
    by_cases hi : i ∈ rows
    · simp [(e2 i), hi]
    · simp [(e2 i), hi]

/-- Sorted dependants: `remove_rows` of all rows with a property. -/
theorem removeSorted {u : (t : T) → Tbl (S t)} (h : Ready key cfg u) (t : T) (hk : (S t).kind = .sorted)
    (L : List (Row (S t))) (hL : WF (u t) L) (rows : List Nat) (hasc : rows.Pairwise (· < ·)) (keep : Row (S t) → Bool)
    (hr : ∀ i, i ∈ rows ↔ ∃ r, (u t).view i = some r ∧ keep r = false) :
    ∃ x, (u t).removeRows rows = .ok x ∧ Ready key cfg (Function.update u t x) ∧ WF x (L.filter keep) := by
  have hne : (S t).kind ≠ .consistent := by rw [hk]; simp
  have hr' : ∀ i, i ∈ rows ↔ ∃ r, L[i]? = some r ∧ keep r = false := by
    intro i; rw [hr]; simp only [hL.view_iff' hne]
  obtain ⟨x, e1, e2, e3⟩ := (removeRows_ok hL (hL.kind hne) rows).1 hasc (by
    intro i hi
    obtain ⟨r, hr, -⟩ := (hr' i).1 hi
    exact (List.getElem?_eq_some_iff.1 hr).1)
  rw [removeAt_filter keep L rows hr'] at e3
  have hlen := h.room t
  rw [hL.len] at hlen
  refine ⟨x, e1, ready_put h t x ?_ ?_ ?_, e3⟩
  · exact Reach.step (op := .removeRows rows) (h.reach t) hk (by simp [TOp.clears]) e1
  · rw [e3.len]; exact le_trans (List.length_filter_le _ _) hlen
  · intro p fk e hfk hb L' hL'
    subst e
    have : L' = L.filter keep := hL'.unique (e3.holds' hne)
    subst this
    exact (h.inOrder p fk hfk hb L (hL.holds' hne)).sublist List.filter_sublist

/-! ## One tracker -/

/-- The locks this thread would need below rank `r` are free. -/
def FreeBelow (rank : T → Nat) (env : Env S) (r : Nat) : Prop :=
  ∀ t, rank t < r → env.reads t = 0 ∧ env.writer t = false

theorem Tame.perm {rows rows' : List Nat} (h : Tame cfg rows) (hp : rows'.Perm rows) : Tame cfg rows' :=
  fun hx => hp.nodup_iff.2 (h hx)

/-- `f` handles removals of rows of tables below rank `r`. -/
def RecOk (key : (t : T) → Row (S t) → K) (cfg : Cfg S) (rank : T → Nat) (ev : Event) (f : FlushFn S) (r : Nat) : Prop :=
  ∀ p, rank p < r → ∀ pushed delete rows env, (pushed && delete) = false → Tame cfg rows → Ready key cfg env.tbl →
    FreeBelow rank env (rank p) → ∃ rows' env', f p ev pushed delete (.these rows) env = .ok (.these rows', env') ∧
      rows'.Perm rows ∧ Post key cfg rank p rows (cfg.trackers p) ev env env'

theorem sort_these (l : List Nat) : (Select.these l).sort = .these (l.insertionSort (· ≤ ·)) := rfl

theorem insertionSort_le (l : List Nat) : (l.insertionSort (· ≤ ·)).Pairwise (· ≤ ·) := by
  exact List.pairwise_insertionSort (· ≤ ·) l

theorem insertionSort_lt {l : List Nat} (h : l.Nodup) : (l.insertionSort (· ≤ ·)).Pairwise (· < ·) := by
  have h1 := insertionSort_le l
  have h2 : (l.insertionSort (· ≤ ·)).Nodup := (List.perm_insertionSort (· ≤ ·) l).nodup_iff.2 h
  exact (h1.and h2).imp (fun ⟨a, b⟩ => lt_of_le_of_ne a b)

/-- The state between the removal of the dependent rows and telling the dependent table's own trackers. -/
theorem autoRemove {u : (t : T) → Tbl (S t)} (hst : Standard cfg) (h : Ready key cfg u) (p : T) (fk : FK S)
    (hfk : IsFK cfg p fk) (rows : List Nat) (hn : Tame cfg rows) (hs : (S fk.child).kind = .sorted → rows.Pairwise (· ≤ ·)) :
    ∃ out out' x, fk.select (u fk.child) (.these rows) = .ok (.these out) ∧
      (if (S fk.child).kind = .sorted then (Select.these out).sort else .these out) = .these out' ∧ Tame cfg out' ∧
      (∀ (f : FlushFn S) ev env, env.tbl = u → env.reads fk.child = 0 → env.writer fk.child = false →
        tableRemoveRows f fk.child ev (.these out') env = .ok (env.put fk.child x)) ∧
      Ready key cfg (Function.update u fk.child x) ∧
      (∀ k ∈ rows, Unreferenced (Function.update u fk.child x) fk k) ∧
      (∀ D, ClosedUnder cfg u D → (∀ i ∈ rows, D p i) → Shrinks cfg D u (Function.update u fk.child x) ∧
        ((S fk.child).kind = .consistent → ∀ i ∈ out', D fk.child i)) ∧
      ((S fk.child).kind = .consistent → ∀ i, x.view i = if i ∈ out' then none else (u fk.child).view i) := by
  obtain ⟨L, hL, hlen⟩ := h.wf fk.child
  obtain ⟨out, o1, o2, o2', o3⟩ := fkSelect_ok fk hL hlen
    (fun hb => ⟨hst.sorted p fk hfk hb,
      h.inOrder p fk hfk hb L (hL.holds' (by rw [hst.sorted p fk hfk hb]; simp))⟩)
    (hst.indexed p fk hfk) rows hs
  rcases hst.child p fk hfk with hk | hk
  · have hns : (S fk.child).kind ≠ .sorted := by rw [hk]; simp
    obtain ⟨x, x1, x2, x3⟩ := removeConsistent h hst fk.child hk out (by
      intro i hi
      obtain ⟨r, hr, -⟩ := (o3 i).1 hi
      rw [hr]; simp)
    refine ⟨out, out, x, o1, by rw [if_neg hns], fun hx => o2 (hn hx), ?_, x2, ?_, ?_, fun _ => x3⟩
    · intro f ev env he hr hw
      subst he
      unfold tableRemoveRows
      rw [hk]
      simp only []
      rw [lock_ok hr hw, okBind]
      simp only [W.lock]
      rw [x1, okBind, flushWith_empty rfl]
      simp only []
      rw [unlock_lock hw]
    · intro k hkm i r hr hre
      simp only [Function.update_self] at hr
      rw [x3] at hr
      split at hr
      · cases hr
      · rename_i hni
        exact hni ((o3 i).2 ⟨r, hr, by rw [hre]; exact hkm⟩)
    · intro D hc hd
      have hin : ∀ i ∈ out, D fk.child i := by
        intro i hi
        obtain ⟨r, hr, hm⟩ := (o3 i).1 hi
        exact hc p (fk.ref r) fk i r hfk (hd _ hm) hk hr rfl
      refine ⟨⟨?_, ?_, ?_⟩, fun _ => hin⟩
      · intro t ht i
        by_cases e : t = fk.child
        · subst e
          simp only [Function.update_self]
          rw [x3]
          by_cases hi : i ∈ out
          · right; simp [hi, hin i hi]
          · left; simp [hi]
        · rw [Function.update_of_ne e]; exact Or.inl rfl
      · intro t ht
        have e : t ≠ fk.child := by intro e; subst e; exact hns ht
        rw [Function.update_of_ne e]
        exact (Shrinks.refl (cfg := cfg) (D := D) u).sorted t ht
      · intro t ht ht'
        have e : t ≠ fk.child := by intro e; subst e; exact ht hk
        rw [Function.update_of_ne e]
  · have hnc : (S fk.child).kind ≠ .consistent := by rw [hk]; simp
    have hmem : ∀ i, i ∈ out.insertionSort (· ≤ ·) ↔ i ∈ out := fun i => (List.perm_insertionSort (· ≤ ·) out).mem_iff
    have o2n : out.Nodup := by
      cases hb : fk.bySort with
      | true => exact o2' hb
      | false => exact o2 (hn ⟨p, fk, hfk, hk, hb⟩)
    obtain ⟨x, x1, x2, x3⟩ := removeSorted h fk.child hk L hL (out.insertionSort (· ≤ ·)) (insertionSort_lt o2n)
      (fun r => decide (fk.ref r ∉ rows)) (by
        intro i
        rw [hmem, o3]
        simp)
    refine ⟨out, out.insertionSort (· ≤ ·), x, o1, by rw [if_pos hk, sort_these], fun _ => (List.perm_insertionSort (· ≤ ·) out).nodup_iff.2 o2n,
      ?_, x2, ?_, ?_, fun h => absurd h hnc⟩
    · intro f ev env he hr hw
      subst he
      unfold tableRemoveRows
      rw [hk]
      simp only []
      rw [lock_ok hr hw, okBind]
      simp only [W.lock]
      rw [x1, okBind, flushWith_empty rfl]
      simp only []
      rw [unlock_lock hw]
    · intro k hkm i r hr hre
      simp only [Function.update_self] at hr
      rw [x3.view_iff' hnc] at hr
      have := (List.mem_filter.1 (List.mem_of_getElem? hr)).2
      rw [hre] at this
      simp [hkm] at this
    · intro D hc hd
      refine ⟨⟨?_, ?_, ?_⟩, fun h => absurd h hnc⟩
      · intro t ht i
        have e : t ≠ fk.child := by intro e; subst e; exact hnc ht
        rw [Function.update_of_ne e]; exact Or.inl rfl
      · intro t ht
        by_cases e : t = fk.child
        · subst e
          refine ⟨fun r => decide (fk.ref r ∉ rows), ?_, ?_⟩
          · intro r hr
            exact ⟨p, fk, fk.ref r, hfk, ⟨rfl, rfl⟩, hd _ (by simpa using hr)⟩
          · intro L' hL'
            rw [hL'.rep.unique hL.rep]
            simpa using x3
        · rw [Function.update_of_ne e]
          exact (Shrinks.refl (cfg := cfg) (D := D) u).sorted t ht
      · intro t ht ht'
        have e : t ≠ fk.child := by intro e; subst e; exact ht' hk
        rw [Function.update_of_ne e]

/-- One foreign_auto tracker. -/
theorem autoHandle {ev : Event} (hst : Standard cfg) (hac : Acyclic cfg rank) {f : FlushFn S} (hev : ev.isCreation = false)
    (p : T) (hrec : RecOk key cfg rank ev f (rank p)) (fk : FK S) (hfk : IsFK cfg p fk) (rows : List Nat) (hn : Tame cfg rows)
    (hs : (S fk.child).kind = .sorted → rows.Pairwise (· ≤ ·)) (env : Env S) (h : Ready key cfg env.tbl)
    (hl : FreeBelow rank env (rank p)) :
    ∃ env', trackerHandle f p (.auto fk) ev (.these rows) .delete env = .ok env' ∧
      Post key cfg rank p rows [.auto fk] ev env env' := by
  have hrk : rank fk.child < rank p := hac p fk hfk
  obtain ⟨hr0, hw0⟩ := hl fk.child hrk
  obtain ⟨out, out', x, a1, a2, a3, a4, a5, a6, a7, a8⟩ := autoRemove hst h p fk hfk rows hn hs
  have hne : ∀ t, rank fk.child < rank t ∨ rank t < rank fk.child → t ≠ fk.child := by
    rintro t ht rfl; omega
  -- the environment in which the dependent table's trackers run
  let env1 : Env S := env.put fk.child x
  let env2 : Env S := { env1 with reads := Function.update env1.reads fk.child (env1.reads fk.child + 1) }
  have hfb : FreeBelow rank env2 (rank fk.child) := by
    intro t ht
    have hne' : t ≠ fk.child := hne t (Or.inr ht)
    refine ⟨?_, (hl t (by omega)).2⟩
    show Function.update env1.reads fk.child _ t = 0
    rw [Function.update_of_ne hne']
    exact (hl t (by omega)).1
  obtain ⟨rows', env3, b1, b2, b3⟩ := hrec fk.child hrk ev.isCreation ev.isRemoval out' env2 (by simp [hev]) a3 a5 hfb
  refine ⟨env3.releaseRead fk.child, ?_, ?_⟩
  · unfold trackerHandle
    simp only []
    rw [peek_ok hw0, okBind, a1, okBind]
    unfold handlerRun handlerNeedsSort
    simp only []
    rw [peek_ok hw0, okBind, okBind]
    have : (if decide ((S fk.child).kind = Kind.sorted) = true then (Select.these out).sort else Select.these out) = .these out' := by
      simpa using a2
    rw [this]
    unfold handlerHandle
    simp only []
    rw [peek_ok hw0, okBind, a4 f ev env rfl hr0 hw0, okBind]
    have : Env.acquireRead (env.put fk.child x) fk.child = .ok env2 := by
      unfold Env.acquireRead
      rw [if_neg (by show ¬ env.writer fk.child = true; rw [hw0]; simp)]
    rw [this, okBind, b1, okBind]
  · have htbl : (env3.releaseRead fk.child).tbl = env3.tbl := rfl
    have h2 : env2.tbl = Function.update env.tbl fk.child x := rfl
    have b3s := fun D hc hd => b3.sound D hc hd
    refine ⟨b3.ready, ?_, ?_, ?_, ?_, ?_, ?_, ?_, ?_⟩
    · intro D hc hd
      have hpk : (S p).kind = .consistent := hst.parent p (List.ne_nil_of_mem hfk)
      obtain ⟨s1, s2⟩ := a7 D hc (hd hpk)
      exact s1.trans (b3.sound D (s1.closed h hc) s2)
    · intro fk' hm k hk
      have : fk' = fk := by simpa using hm
      subst this
      exact (b3.sound _ (closed_true _) (fun _ _ _ => trivial)).unreferenced a5 (a6 k hk)
    · intro q hq k hk hk' fk' hfk'
      by_cases hm : (env2.tbl q).view k = none
      · have e : q = fk.child := by
          by_contra e
          rw [h2, Function.update_of_ne e] at hm
          exact hk hm
        subst e
        rw [h2] at hm
        simp only [Function.update_self] at hm
        rw [a8 hq] at hm
        have hin : k ∈ out' := by
          by_contra hni
          rw [if_neg hni] at hm
          exact hk hm
        exact b3.unref fk' hfk' k hin
      · exact b3.killed q hq k hm hk' fk' hfk'
    · intro t ht
      rw [htbl, b3.same t (by omega), h2, Function.update_of_ne (hne t (Or.inl (by omega)))]
    · show Function.update env3.reads fk.child (env3.reads fk.child - 1) = env.reads
      rw [b3.reads]
      show Function.update (Function.update env.reads fk.child (env.reads fk.child + 1)) fk.child
        (Function.update env.reads fk.child (env.reads fk.child + 1) fk.child - 1) = env.reads
      simp
    · exact b3.writer
    · obtain ⟨new, n1, n2, n3⟩ := b3.log
      refine ⟨new, n1, ?_, ?_⟩
      · have hnone : new.filter (fun c => c.table = p) = [] := by
          rw [List.filter_eq_nil_iff]
          intro c hc
          simp only [decide_eq_true_eq]
          intro e
          by_cases hcc : c.table = fk.child
          · rw [← e, hcc] at hrk; omega
          · have := (n3 c hc hcc).1
            rw [e] at this; omega
        rw [hnone]
        exact List.Forall₂.nil
      · intro c hc hcp
        by_cases hcc : c.table = fk.child
        · obtain ⟨o, ho, hoc⟩ : ∃ o, o ∈ observers ev (cfg.trackers fk.child) ∧
              (c.name = o.name ∧ c.event = ev ∧ (∃ rs, c.sel = .these rs ∧ rs.Perm out' ∧ (o.sort = true → rs.Pairwise (· ≤ ·))) ∧
                c.seen fk.child = env2.tbl fk.child) := by
            have hmem : c ∈ new.filter (fun c => c.table = fk.child) := by simp [hc, hcc]
            obtain ⟨i, hi, rfl⟩ := List.mem_iff_getElem.1 hmem
            have hlen := n2.length_eq
            exact ⟨_, List.getElem_mem (by omega), (List.forall₂_iff_get.1 n2).2 i (by omega) hi⟩
          obtain ⟨-, e2, ⟨rs, e3, e4, -⟩, e5⟩ := hoc
          have hk : (S fk.child).kind = .consistent := by
            apply hst.parent
            intro hnil
            rw [hnil] at ho
            simp [observers] at ho
          refine ⟨by rw [hcc]; exact hrk, e2, rs, e3, ?_⟩
          intro i hi
          have hcs : (c.seen fk.child).contains i = false := by
            rw [e5, h2]
            simp only [Function.update_self]
            have hv := a8 hk i
            rw [if_pos (e4.mem_iff.1 hi)] at hv
            obtain ⟨L, hL⟩ := (a5.reach fk.child).wf
            simp only [Function.update_self] at hL
            by_contra hct
            rw [Bool.not_eq_false, hL.contains_iff] at hct
            rw [hL.view, if_neg hct.2, List.getElem?_eq_getElem hct.1] at hv
            cases hv
          have gen : ∀ t, t = fk.child → (c.seen t).contains i = false := by rintro t rfl; exact hcs
          exact gen _ hcc
        · obtain ⟨m1, m2, m3⟩ := n3 c hc hcc
          exact ⟨by omega, m2, m3⟩
    · obtain ⟨new, n1, n2⟩ := b3.seen
      refine ⟨new, n1, fun c hc => ⟨(n2 c hc).ready, ?_, ?_⟩⟩
      · intro D hcl hd
        have hpk : (S p).kind = .consistent := hst.parent p (List.ne_nil_of_mem hfk)
        obtain ⟨s1, s2⟩ := a7 D hcl (hd hpk)
        exact s1.trans ((n2 c hc).sound D (s1.closed h hcl) s2)
      · intro t ht
        rw [(n2 c hc).same t (by omega), h2, Function.update_of_ne (hne t (Or.inl (by omega)))]

/-! ## The tracker loop -/

/-- One iteration. -/
theorem flushStep_ok {ev : Event} (hst : Standard cfg) (hac : Acyclic cfg rank) {f : FlushFn S} (hev : ev.isCreation = false)
    (p : T) (hrec : RecOk key cfg rank ev f (rank p)) (tr : Tracker S) (htr : tr ∈ cfg.trackers p)
    (rows : List Nat) (hn : Tame cfg rows) (sorted : Bool) (rs : List Nat) (hp : rs.Perm rows)
    (hs : sorted = true → rs.Pairwise (· ≤ ·)) (env : Env S) (h : Ready key cfg env.tbl)
    (hl : FreeBelow rank env (rank p)) :
    ∃ rs' sorted' env', flushStep f p ev .delete ⟨.these rs, sorted, env⟩ tr = .ok ⟨.these rs', sorted', env'⟩ ∧
      rs'.Perm rows ∧ (sorted' = true → rs'.Pairwise (· ≤ ·)) ∧ Post key cfg rank p rows [tr] ev env env' := by
  unfold flushStep
  by_cases hc : tr.considers ev = false
  · rw [if_pos hc]
    refine ⟨rs, sorted, env, rfl, hp, hs, ?_⟩
    cases tr with
    | auto fk => simp [Tracker.considers] at hc
    | observer o =>
      have := Post.nil (rank := rank) p rows ev env h
      refine ⟨this.ready, this.sound, by simp, this.killed, this.same, rfl, rfl, ⟨[], by simp, ?_, by simp⟩, this.seen⟩
      have : observers ev [Tracker.observer (S := S) o] = [] := by
        simp only [Tracker.considers] at hc
        simp [observers, hc]
      rw [this]
      exact List.Forall₂.nil
  · rw [if_neg hc]
    simp only []
    -- the selection handed to the tracker
    obtain ⟨rs', sorted', e, hp', hs', ht'⟩ : ∃ rs' sorted',
        (if (!sorted && tr.sort) = true then (⟨(Select.these rs).sort, true, env⟩ : FlushSt S) else ⟨.these rs, sorted, env⟩) =
          ⟨.these rs', sorted', env⟩ ∧ rs'.Perm rows ∧ (sorted' = true → rs'.Pairwise (· ≤ ·)) ∧ (tr.sort = true → rs'.Pairwise (· ≤ ·)) := by
      by_cases hb : (!sorted && tr.sort) = true
      · rw [if_pos hb, sort_these]
        exact ⟨_, _, rfl, (List.perm_insertionSort (· ≤ ·) rs).trans hp, fun _ => insertionSort_le rs, fun _ => insertionSort_le rs⟩
      · rw [if_neg hb]
        refine ⟨rs, sorted, rfl, hp, hs, ?_⟩
        intro ht
        cases sorted with
        | true => exact hs rfl
        | false => simp [ht] at hb
    simp only [e]
    cases tr with
    | auto fk =>
      obtain ⟨env', e1, e2⟩ := autoHandle hst hac hev p hrec fk htr rs' (hn.perm hp')
        (fun hk => ht' (by simp [Tracker.sort, hk])) env h hl
      rw [e1, okBind]
      exact ⟨rs', sorted', env', rfl, hp', hs', e2.perm hp'⟩
    | observer o =>
      unfold trackerHandle
      simp only [okBind]
      refine ⟨rs', sorted', _, rfl, hp', hs', ?_⟩
      have := Post.nil (rank := rank) p rows ev env h
      refine ⟨this.ready, this.sound, by simp, this.killed, this.same, rfl, rfl, ⟨_, rfl, ?_, by simp⟩, ⟨_, rfl, ?_⟩⟩
      swap
      · intro c hc
        have : c.seen = env.tbl := by simp only [List.mem_singleton] at hc; rw [hc]
        rw [this]
        exact ⟨h, fun _ _ _ => Shrinks.refl _, fun _ _ => rfl⟩
      have : observers ev [Tracker.observer (S := S) o] = [o] := by
        simp only [Tracker.considers, Bool.not_eq_false] at hc
        simp [observers, hc]
      rw [this]
      simp only [List.filter_cons, decide_true, if_true, List.filter_nil]
      exact List.Forall₂.cons ⟨rfl, rfl, ⟨rs', rfl, hp', ht'⟩, rfl⟩ List.Forall₂.nil

/-- The whole loop. -/
theorem flushLoop_ok {ev : Event} (hst : Standard cfg) (hac : Acyclic cfg rank) {f : FlushFn S} (hev : ev.isCreation = false)
    (p : T) (hrec : RecOk key cfg rank ev f (rank p)) (ts : List (Tracker S)) (hts : ∀ tr ∈ ts, tr ∈ cfg.trackers p)
    (rows : List Nat) (hn : Tame cfg rows) (sorted : Bool) (rs : List Nat) (hp : rs.Perm rows)
    (hs : sorted = true → rs.Pairwise (· ≤ ·)) (env : Env S) (h : Ready key cfg env.tbl)
    (hl : FreeBelow rank env (rank p)) :
    ∃ rs' sorted' env', ts.foldlM (flushStep f p ev .delete) ⟨.these rs, sorted, env⟩ = .ok ⟨.these rs', sorted', env'⟩ ∧
      rs'.Perm rows ∧ Post key cfg rank p rows ts ev env env' := by
  induction ts generalizing sorted rs env with
  | nil => exact ⟨rs, sorted, env, rfl, hp, Post.nil p rows ev env h⟩
  | cons tr ts ih =>
    obtain ⟨rs1, s1, env1, a1, a2, a3, a4⟩ :=
      flushStep_ok hst hac hev p hrec tr (hts tr (by simp)) rows hn sorted rs hp hs env h hl
    rw [List.foldlM_cons, a1, okBind]
    obtain ⟨rs2, s2, env2, b1, b2, b3⟩ := ih (fun t ht => hts t (by simp [ht])) s1 rs1 a2 a3 env1 a4.ready (by
      intro t ht
      rw [a4.reads, a4.writer]
      exact hl t ht)
    exact ⟨rs2, s2, env2, b1, b2, a4.trans h b3⟩

/-- `do_flush` of a removal with enough stack. -/
theorem doFlush_ok {ev : Event} (hst : Standard cfg) (hac : Acyclic cfg rank) (hrm : ev.isCreation = false)
    (hh : cfg.handlers[ev.id]? = some .delete) (n : Nat) : RecOk key cfg rank ev (doFlush cfg n) n := by
  induction n with
  | zero => intro p hp; omega
  | succ n ih =>
    intro p hp pushed delete rows env hpd hn h hl
    unfold doFlush
    rw [if_neg (by simp [hpd, hrm])]
    have : cfg.handler ev = .ok .delete := by unfold Cfg.handler; rw [hh]
    rw [this, okBind]
    obtain ⟨rs, s, env', e1, e2, e3⟩ := flushLoop_ok hst hac hrm p (fun q hq => ih q (by omega)) (cfg.trackers p) (fun _ h => h)
      rows hn false rows (List.Perm.refl _) (by simp) env h hl
    refine ⟨rs, env', ?_, e2, e3⟩
    have hsel : (Select.these rows).isAll = false := rfl
    rw [hsel, e1, okBind]

end V11
