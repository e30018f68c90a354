import Verif.Lemmas.FlushLeft
import Verif.Lemmas.Cascade
import Verif.Spec.FlushFail

/-!
# A flush that panics has done part of the work
-/

set_option linter.unusedSimpArgs false
set_option linter.unusedSectionVars false
set_option linter.unusedVariables false

namespace V11
variable {T : Type} [DecidableEq T] {S : T → Schema} [LS : ∀ t, LawfulSchema (S t)] [LV : ∀ t, LeavesSchema (S t)] {K : Type} [LinearOrder K]
  {key : (t : T) → Row (S t) → K} {cfg : Cfg S}

/-- Part of the work of removing `rows` of `p`. -/
structure LeftBy (key : (t : T) → Row (S t) → K) (cfg : Cfg S) (p : T) (rows : List Nat) (u u' : (t : T) → Tbl (S t)) : Prop where
  ready : Ready key cfg u'
  sound : ∀ D, ClosedUnder cfg u D → ((S p).kind = .consistent → ∀ i ∈ rows, D p i) → Shrinks cfg D u u'

omit LV in
theorem LeftBy.refl {p : T} {rows : List Nat} {u : (t : T) → Tbl (S t)} (h : Ready key cfg u) : LeftBy key cfg p rows u u :=
  ⟨h, fun _ _ _ => Shrinks.refl _⟩

omit LV in
theorem LeftBy.trans {p : T} {rows : List Nat} {u v w : (t : T) → Tbl (S t)} (hu : Ready key cfg u) (h1 : LeftBy key cfg p rows u v)
    (h2 : LeftBy key cfg p rows v w) : LeftBy key cfg p rows u w :=
  ⟨h2.ready, fun D hc hd => (h1.sound D hc hd).trans (h2.sound D ((h1.sound D hc hd).closed hu hc) hd)⟩

/-- Deleting rows of a consistent table, up to the first that does not exist. -/
theorem removePrefix {u : (t : T) → Tbl (S t)} (h : Ready key cfg u) (hse : Searchable cfg) (t : T) (hk : (S t).kind = .consistent)
    (rows : List Nat) :
    Ready key cfg (Function.update u t (Cr.removeSel (.these rows) (u t)).1) ∧
    (∀ i, (Cr.removeSel (.these rows) (u t)).1.view i = if i ∈ rows.takeWhile (· < (u t).len) then none else (u t).view i) ∧
    (Cr.removeSel (.these rows) (u t)).2 = if (∀ i ∈ rows, i < (u t).len) then .ok () else .error .assertRow := by
  obtain ⟨L, hL, hlen⟩ := h.wf t
  obtain ⟨x, x1, x2⟩ := removeSel_left hL.aligned hk rows
  have hall : ∀ i ∈ rows.takeWhile (· < (u t).len), i < L.length := by
    intro i hi
    rw [← hL.len]
    have h1 : (rows.takeWhile (· < (u t).len)).all (· < (u t).len) = true := List.all_takeWhile
    simpa using List.all_eq_true.1 h1 i hi
  obtain ⟨y, e1, e2, e3⟩ := hL.deleteLoop hk _ hall
  have : x = y := by
    unfold Tbl.removeSel at x1
    simp only [] at x1
    rw [hL.len] at x1 e1
    rw [x1] at e1
    injection e1
  subst this
  rw [x2]
  refine ⟨ready_put h t x ?_ (by rw [e3.len]; exact hlen) ?_, ?_, rfl⟩
  · exact Reach.step (op := .remove (.these (rows.takeWhile (· < (u t).len)))) (h.reach t) trivial (by simp [TOp.clears]) x1
  · intro p fk e hfk hb
    subst e
    have := hse.sorted p fk hfk hb
    rw [hk] at this; cases this
  · intro i
    rw [e3.view, hL.view]
    by_cases hi : i ∈ rows.takeWhile (· < (u t).len)
    · simp [(e2 i), hi]
    · simp [(e2 i), hi]

/-- The step that removes the rows of a dependent table. -/
theorem childRemove {u : (t : T) → Tbl (S t)} (h : Ready key cfg u) (hse : Searchable cfg) (p : T) (fk : FK S) (hfk : IsFK cfg p fk)
    (rows out : List Nat) (ho : ∀ i, i ∈ out ↔ ∃ r, (u fk.child).view i = some r ∧ fk.ref r ∈ rows) :
    Ready key cfg (Function.update u fk.child (gRemovePart fk.child (.these out) (u fk.child)).1) ∧
    ∀ D, ClosedUnder cfg u D → (∀ i ∈ rows, D p i) →
      Shrinks cfg D u (Function.update u fk.child (gRemovePart fk.child (.these out) (u fk.child)).1) := by
  have hself : Function.update u fk.child (u fk.child) = u := Function.update_eq_self _ _
  rcases removePart_cases (S := S) fk.child (.these out) with ⟨hk, rows', er, e⟩ | ⟨hk, rows', er, e⟩ | ⟨er, e⟩ | e
  · injection er with er; subst er
    rw [e]
    obtain ⟨a1, a2, a3⟩ := removePrefix h hse fk.child hk out
    refine ⟨a1, fun D hc hd => ⟨?_, ?_, ?_⟩⟩
    · intro t ht i
      by_cases et : t = fk.child
      · subst et
        simp only [Function.update_self]
        rw [a2]
        by_cases hi : i ∈ out.takeWhile (· < (u fk.child).len)
        · right
          rw [if_pos hi]
          refine ⟨rfl, ?_⟩
          obtain ⟨r, hr, hm⟩ := (ho i).1 (List.takeWhile_subset _ hi)
          exact hc p (fk.ref r) fk i r hfk (hd _ hm) hk hr rfl
        · left; rw [if_neg hi]
      · rw [Function.update_of_ne et]; exact Or.inl rfl
    · intro t ht
      have et : t ≠ fk.child := by intro et; subst et; rw [hk] at ht; cases ht
      rw [Function.update_of_ne et]
      exact (Shrinks.refl (cfg := cfg) (D := D) u).sorted t ht
    · intro t ht ht'
      have et : t ≠ fk.child := by intro et; subst et; exact ht hk
      rw [Function.update_of_ne et]
  · injection er with er; subst er
    rw [e]
    obtain ⟨L, hL, hlen⟩ := h.wf fk.child
    have hne : (S fk.child).kind ≠ .consistent := by rw [hk]; simp
    rcases ec : Cr.removeRows out (u fk.child) with ⟨x, r⟩
    cases r with
    | error q =>
      rw [removeRows_left hL (hL.kind hne) out ec]
      simp only []
      rw [hself]
      exact ⟨h, fun _ _ _ => Shrinks.refl _⟩
    | ok a =>
      have hok : (u fk.child).removeRows out = .ok x := by
        have := out_removeRows out (u fk.child)
        rw [out_ok.2 ec] at this
        cases hr : (u fk.child).removeRows out with
        | error p => rw [hr] at this; cases this
        | ok y => rw [hr] at this; injection this with this; injection this with this; rw [this]
      have hasc : out.Pairwise (· < ·) := by
        by_contra hn
        rw [(removeRows_ok hL (hL.kind hne) out).2.1 hn] at hok
        cases hok
      obtain ⟨y, x1, x2, x3⟩ := removeSorted h fk.child hk L hL out hasc (fun r => decide (fk.ref r ∉ rows)) (by
        intro i; rw [ho]; simp)
      rw [hok] at x1
      injection x1 with x1; subst x1
      refine ⟨x2, fun D hc hd => ⟨?_, ?_, ?_⟩⟩
      · intro t ht i
        have et : t ≠ fk.child := by intro et; subst et; exact hne ht
        rw [Function.update_of_ne et]; exact Or.inl rfl
      · intro t ht
        by_cases et : t = fk.child
        · subst et
          refine ⟨fun r => decide (fk.ref r ∉ rows), ?_, ?_⟩
          · intro r hr
            exact ⟨p, fk, fk.ref r, hfk, ⟨rfl, rfl⟩, hd _ (by simpa using hr)⟩
          · intro L' hL'
            rw [hL'.rep.unique hL.rep]
            simpa using x3
        · rw [Function.update_of_ne et]
          exact (Shrinks.refl (cfg := cfg) (D := D) u).sorted t ht
      · intro t ht ht'
        have et : t ≠ fk.child := by intro et; subst et; exact ht' hk
        rw [Function.update_of_ne et]
  · cases er
  · rw [e]
    show Ready key cfg (Function.update u fk.child (u fk.child)) ∧ ∀ D, _ → _ → Shrinks cfg D u (Function.update u fk.child (u fk.child))
    rw [hself]
    exact ⟨h, fun _ _ _ => Shrinks.refl _⟩

/-- `f` does part of the work on rows. -/
def RecLeft (key : (t : T) → Row (S t) → K) (cfg : Cfg S) (ev : Event) (f : GFlushFn S) : Prop :=
  ∀ p pushed delete rows e, Ready key cfg e.env.tbl →
    LeftBy key cfg p rows e.env.tbl (f p ev pushed delete (.these rows) e).1.env.tbl ∧
    ∀ sel, (f p ev pushed delete (.these rows) e).2 = .ok sel → ∃ rows', sel = .these rows' ∧ rows'.Perm rows

omit LS in
/-- What work under a lock does to the tables. -/
theorem work_tbl (t : T) (work : Cr (S t) Unit) (e : PEnv S) :
    ((gWork t work e).1.env.tbl = e.env.tbl ∧ ∃ p, (gWork t work e).2 = .error p) ∨
    ((gWork t work e).1.env.tbl = Function.update e.env.tbl t (work (e.env.tbl t)).1 ∧ (gWork t work e).2 = (work (e.env.tbl t)).2 ∧
      (∀ p, (work (e.env.tbl t)).2 = .error p → (gWork t work e).1.bad = Function.update e.bad t true)) := by
  unfold gWork
  split
  · exact Or.inl ⟨rfl, _, rfl⟩
  · split
    · exact Or.inl ⟨rfl, _, rfl⟩
    · right
      rcases work (e.env.tbl t) with ⟨x, r⟩
      cases r with
      | ok a => exact ⟨rfl, rfl, fun p hp => by cases hp⟩
      | error p => exact ⟨rfl, rfl, fun _ _ => rfl⟩

omit LS in
theorem peek_cases (t : T) (e : PEnv S) : gPeek t e = (e, .ok (e.env.tbl t)) ∨ ∃ q, gPeek t e = (e, .error q) := by
  unfold gPeek
  split
  · exact Or.inr ⟨_, rfl⟩
  · split
    · exact Or.inr ⟨_, rfl⟩
    · exact Or.inl rfl

omit LS LV in
theorem andThen_ok {α β : Type} {x : Pr S α} {g : α → Pr S β} {e e1 : PEnv S} {a : α} (h : x e = (e1, .ok a)) : x.andThen g e = g a e1 := by
  unfold Pr.andThen; rw [h]

omit LS LV in
theorem andThen_err {α β : Type} {x : Pr S α} {g : α → Pr S β} {e e1 : PEnv S} {p : Panic} (h : x e = (e1, .error p)) :
    x.andThen g e = (e1, .error p) := by
  unfold Pr.andThen; rw [h]

/-- One foreign_auto tracker. -/
theorem left_auto {ev : Event} (hse : Searchable cfg) (hpa : ParentsConsistent cfg) {f : GFlushFn S} (hrec : RecLeft key cfg ev f)
    (boom : Boom S) (p : T) (fk : FK S) (hfk : IsFK cfg p fk) (rows : List Nat) (hs : (S fk.child).kind = .sorted → rows.Pairwise (· ≤ ·))
    (hd : Handler) (e : PEnv S) (h : Ready key cfg e.env.tbl) :
    LeftBy key cfg p rows e.env.tbl (gTrackerHandle boom f p (.auto fk) ev (.these rows) hd e).1.env.tbl := by
  have hkp : (S p).kind = .consistent := hpa p (List.ne_nil_of_mem hfk)
  have hsame : LeftBy key cfg p rows e.env.tbl e.env.tbl := LeftBy.refl h
  obtain ⟨L, hL, hlen⟩ := h.wf fk.child
  obtain ⟨out, o1, -, -, o3⟩ := fkSelect_ok fk hL hlen
    (fun hb => ⟨hse.sorted p fk hfk hb, h.inOrder p fk hfk hb L (hL.holds' (by rw [hse.sorted p fk hfk hb]; simp))⟩)
    (hse.indexed p fk hfk) rows hs
  -- what the selection leaves
  have hsel : gSelect fk (.these rows) e = (e, .ok (.these out)) ∨ ∃ q, gSelect fk (.these rows) e = (e, .error q) := by
    unfold gSelect
    rcases peek_cases fk.child e with hp | ⟨q, hp⟩
    · rw [andThen_ok hp, o1]; exact Or.inl rfl
    · rw [andThen_err hp]; exact Or.inr ⟨_, rfl⟩
  -- the recursive part
  have hunder : ∀ (out' : List Nat) (e1 : PEnv S), Ready key cfg e1.env.tbl →
      (∀ D, ClosedUnder cfg e.env.tbl D → (∀ i ∈ rows, D p i) → Shrinks cfg D e.env.tbl e1.env.tbl ∧
        ((S fk.child).kind = .consistent → ∀ i ∈ out', D fk.child i)) →
      LeftBy key cfg p rows e.env.tbl
        (gUnderRead fk.child (f fk.child ev ev.isCreation ev.isRemoval (.these out')) e1).1.env.tbl := by
    intro out' e1 hr1 hD
    have hbase : LeftBy key cfg p rows e.env.tbl e1.env.tbl := ⟨hr1, fun D hc hd => (hD D hc (hd hkp)).1⟩
    unfold gUnderRead
    split
    · exact hbase
    · split
      · exact hbase
      · obtain ⟨b1, -⟩ := hrec fk.child ev.isCreation ev.isRemoval out'
          { e1 with env := { e1.env with reads := Function.update e1.env.reads fk.child (e1.env.reads fk.child + 1) } } hr1
        rcases ex : f fk.child ev ev.isCreation ev.isRemoval (.these out')
          { e1 with env := { e1.env with reads := Function.update e1.env.reads fk.child (e1.env.reads fk.child + 1) } } with ⟨e2, r⟩
        rw [ex] at b1
        have : LeftBy key cfg p rows e.env.tbl e2.env.tbl := by
          refine ⟨b1.ready, fun D hc hd => ?_⟩
          obtain ⟨c1, c2⟩ := hD D hc (hd hkp)
          exact c1.trans (b1.sound D (c1.closed h hc) c2)
        cases r <;> exact this
  have hin : ∀ D, ClosedUnder cfg e.env.tbl D → (∀ i ∈ rows, D p i) → (S fk.child).kind = .consistent → ∀ i ∈ out, D fk.child i := by
    intro D hc hd hk i hi
    obtain ⟨r, hr, hm⟩ := (o3 i).1 hi
    exact hc p (fk.ref r) fk i r hfk (hd _ hm) hk hr rfl
  have hperm : ∀ s : Bool, ∃ out', (if s then (Select.these out).sort else Select.these out) = .these out' ∧ out'.Perm out := by
    intro s
    cases s with
    | true => exact ⟨out.insertionSort (· ≤ ·), rfl, List.perm_insertionSort _ _⟩
    | false => exact ⟨out, rfl, List.Perm.refl _⟩
  unfold gTrackerHandle
  simp only []
  unfold Pr.andThen
  rcases hsel with hsel | ⟨q, hsel⟩
  swap
  · rw [hsel]; exact hsame
  rw [hsel]
  simp only []
  unfold gHandlerRun
  have hsort : (∃ s : Bool, gNeedsSort (S := S) hd fk.child e = (e, .ok s)) ∨ ∃ q, gNeedsSort (S := S) hd fk.child e = (e, .error q) := by
    unfold gNeedsSort
    cases hd with
    | null => exact Or.inl ⟨false, rfl⟩
    | panicking => exact Or.inl ⟨false, rfl⟩
    | delete =>
      simp only []
      rcases peek_cases fk.child e with hp | ⟨q, hp⟩
      · rw [andThen_ok hp]; exact Or.inl ⟨_, rfl⟩
      · rw [andThen_err hp]; exact Or.inr ⟨_, rfl⟩
  unfold Pr.andThen
  rcases hsort with ⟨s, hsort⟩ | ⟨q, hsort⟩
  swap
  · rw [hsort]; exact hsame
  rw [hsort]
  simp only []
  obtain ⟨out', ho', hpm⟩ := hperm s
  rw [ho']
  have hin' : ∀ D, ClosedUnder cfg e.env.tbl D → (∀ i ∈ rows, D p i) → (S fk.child).kind = .consistent → ∀ i ∈ out', D fk.child i :=
    fun D hc hd hk i hi => hin D hc hd hk i (hpm.mem_iff.1 hi)
  have o3' : ∀ i, i ∈ out' ↔ ∃ r, (e.env.tbl fk.child).view i = some r ∧ fk.ref r ∈ rows := fun i => by rw [hpm.mem_iff, o3]
  -- the handler
  have hhandle : ∃ e1 r, gHandlerHandle f hd fk.child ev (.these out') e = (e1, r) ∧ Ready key cfg e1.env.tbl ∧
      ∀ D, ClosedUnder cfg e.env.tbl D → (∀ i ∈ rows, D p i) → Shrinks cfg D e.env.tbl e1.env.tbl := by
    cases hd with
    | null => exact ⟨e, .ok (), rfl, h, fun D _ _ => Shrinks.refl _⟩
    | panicking => exact ⟨e, .error .noHandler, rfl, h, fun D _ _ => Shrinks.refl _⟩
    | delete =>
      unfold gHandlerHandle
      simp only []
      rcases peek_cases fk.child e with hp | ⟨q, hp⟩
      swap
      · rw [andThen_err hp]; exact ⟨_, _, rfl, h, fun D _ _ => Shrinks.refl _⟩
      rw [andThen_ok hp]
      unfold gTableRemoveRows
      by_cases hk : (S fk.child).kind = .consistent ∨ (S fk.child).kind = .sorted
      · rw [if_pos hk]
        have hw := work_tbl fk.child (gRemovePart fk.child (.these out')) e
        obtain ⟨c1, c2⟩ := childRemove h hse p fk hfk rows out' o3'
        rcases ew : gWork fk.child (gRemovePart fk.child (.these out')) e with ⟨e1, r⟩
        rw [ew] at hw
        have hgood : Ready key cfg e1.env.tbl ∧ ∀ D, ClosedUnder cfg e.env.tbl D → (∀ i ∈ rows, D p i) → Shrinks cfg D e.env.tbl e1.env.tbl := by
          rcases hw with ⟨hw, -⟩ | ⟨hw, -⟩
          · simp only [] at hw; rw [hw]; exact ⟨h, fun D _ _ => Shrinks.refl _⟩
          · simp only [] at hw; rw [hw]; exact ⟨c1, c2⟩
        cases r with
        | error q => rw [andThen_err ew]; exact ⟨e1, _, rfl, hgood⟩
        | ok a =>
          rw [andThen_ok ew]
          simp only [Select.isAll, Bool.false_eq_true, and_false, if_false]
          exact ⟨e1, .ok (), rfl, hgood⟩
      · rw [if_neg hk]; exact ⟨_, _, rfl, h, fun D _ _ => Shrinks.refl _⟩
  obtain ⟨e1, r, hh, hr1, hs1⟩ := hhandle
  rw [hh]
  cases r with
  | error q => exact ⟨hr1, fun D hc hd => hs1 D hc (hd hkp)⟩
  | ok a =>
    simp only []
    exact hunder out' e1 hr1 (fun D hc hd => ⟨hs1 D hc hd, hin' D hc hd⟩)

/-- One tracker. -/
theorem left_step {ev : Event} (hse : Searchable cfg) (hpa : ParentsConsistent cfg) {f : GFlushFn S} (hrec : RecLeft key cfg ev f)
    (boom : Boom S) (p : T) (tr : Tracker S) (htr : tr ∈ cfg.trackers p) (hd : Handler) (rows rs : List Nat) (hp : rs.Perm rows) (sorted : Bool)
    (hs : sorted = true → rs.Pairwise (· ≤ ·)) (e : PEnv S) (h : Ready key cfg e.env.tbl) :
    LeftBy key cfg p rows e.env.tbl (gFlushStep boom f p ev hd (.these rs, sorted) tr e).1.env.tbl ∧
    ∀ st, (gFlushStep boom f p ev hd (.these rs, sorted) tr e).2 = .ok st →
      ∃ rs', st.1 = .these rs' ∧ rs'.Perm rows ∧ (st.2 = true → rs'.Pairwise (· ≤ ·)) := by
  unfold gFlushStep
  by_cases hc : tr.considers ev = false
  · rw [if_pos hc]
    refine ⟨LeftBy.refl h, fun st hst => ?_⟩
    injection hst with hst; subst hst
    exact ⟨rs, rfl, hp, hs⟩
  · rw [if_neg hc]
    simp only []
    have hst : ∃ rs' so, (if (!sorted && tr.sort) = true then ((Select.these rs).sort, true) else (Select.these rs, sorted)) = (Select.these rs', so) ∧
        rs'.Perm rows ∧ (so = true → rs'.Pairwise (· ≤ ·)) ∧ (tr.sort = true → rs'.Pairwise (· ≤ ·)) := by
      by_cases hb : (!sorted && tr.sort) = true
      · rw [if_pos hb]
        exact ⟨_, true, rfl, (List.perm_insertionSort _ _).trans hp, fun _ => insertionSort_le _, fun _ => insertionSort_le _⟩
      · rw [if_neg hb]
        refine ⟨rs, sorted, rfl, hp, hs, fun ht => hs ?_⟩
        cases hx : sorted with
        | true => rfl
        | false => simp [hx, ht] at hb
    obtain ⟨rs', so, e1, e2, e3, e4⟩ := hst
    rw [e1]
    have hleft : LeftBy key cfg p rows e.env.tbl (gTrackerHandle boom f p tr ev (.these rs') hd e).1.env.tbl := by
      cases tr with
      | auto fk =>
        have := left_auto hse hpa hrec boom p fk htr rs' (fun hk => e4 (by simp [Tracker.sort, hk])) hd e h
        exact ⟨this.ready, fun D hc hd => this.sound D hc (fun hk i hi => hd hk i (e2.mem_iff.1 hi))⟩
      | observer o =>
        unfold gTrackerHandle
        simp only []
        cases boom (e.env.log ++ [⟨p, o.name, ev, .these rs', e.env.tbl⟩]) <;> exact LeftBy.refl h
    unfold Pr.andThen
    simp only []
    rcases ex : gTrackerHandle boom f p tr ev (.these rs') hd e with ⟨e2', r⟩
    rw [ex] at hleft
    cases r with
    | error q => exact ⟨hleft, fun st hst => by cases hst⟩
    | ok a =>
      refine ⟨hleft, fun st hst => ?_⟩
      injection hst with hst; subst hst
      exact ⟨rs', rfl, e2, e3⟩

theorem left_loop {ev : Event} (hse : Searchable cfg) (hpa : ParentsConsistent cfg) {f : GFlushFn S} (hrec : RecLeft key cfg ev f)
    (boom : Boom S) (p : T) (hd : Handler) (rows : List Nat) (ts : List (Tracker S)) (hts : ∀ tr ∈ ts, tr ∈ cfg.trackers p) :
    ∀ (rs : List Nat) (hp : rs.Perm rows) (sorted : Bool) (hs : sorted = true → rs.Pairwise (· ≤ ·)) (e : PEnv S) (h : Ready key cfg e.env.tbl),
    LeftBy key cfg p rows e.env.tbl (gFlushLoop boom f p ev hd ts (.these rs, sorted) e).1.env.tbl ∧
    ∀ st, (gFlushLoop boom f p ev hd ts (.these rs, sorted) e).2 = .ok st → ∃ rs', st.1 = .these rs' ∧ rs'.Perm rows := by
  induction ts with
  | nil =>
    intro rs hp sorted hs e h
    refine ⟨LeftBy.refl h, fun st hst => ?_⟩
    injection hst with hst; subst hst
    exact ⟨rs, rfl, hp⟩
  | cons tr ts ih =>
    intro rs hp sorted hs e h
    obtain ⟨a1, a2⟩ := left_step hse hpa hrec boom p tr (hts tr (by simp)) hd rows rs hp sorted hs e h
    rw [gFlushLoop]
    unfold Pr.andThen
    rcases ex : gFlushStep boom f p ev hd (.these rs, sorted) tr e with ⟨e1, r⟩
    rw [ex] at a1 a2
    cases r with
    | error q => exact ⟨a1, fun st hst => by cases hst⟩
    | ok st =>
      obtain ⟨rs', b1, b2, b3⟩ := a2 st rfl
      obtain ⟨sel, so⟩ := st
      simp only [] at b1; subst b1
      obtain ⟨c1, c2⟩ := ih (fun t ht => hts t (by simp [ht])) rs' b2 so b3 e1 a1.ready
      exact ⟨a1.trans h c1, c2⟩

theorem left_doFlush (hse : Searchable cfg) (hpa : ParentsConsistent cfg) (boom : Boom S) (ev : Event) (n : Nat) :
    RecLeft key cfg ev (gDoFlush cfg boom n) := by
  induction n with
  | zero =>
    intro p pushed delete rows e h
    exact ⟨LeftBy.refl h, fun sel hsel => by cases hsel⟩
  | succ n ih =>
    intro p pushed delete rows e h
    rw [gDoFlush]
    split
    · exact ⟨LeftBy.refl h, fun sel hsel => by cases hsel⟩
    · cases hh : cfg.handler ev with
      | error q => exact ⟨LeftBy.refl h, fun sel hsel => by cases hsel⟩
      | ok hd =>
        simp only []
        obtain ⟨a1, a2⟩ := left_loop hse hpa ih boom p hd rows (cfg.trackers p) (fun _ h => h) rows (List.Perm.refl _) false (by simp) e h
        unfold Pr.andThen
        have : (Select.these rows).isAll = false := rfl
        rw [this]
        rcases ex : gFlushLoop boom (gDoFlush cfg boom n) p ev hd (cfg.trackers p) (.these rows, false) e with ⟨e1, r⟩
        rw [ex] at a1 a2
        cases r with
        | error q => exact ⟨a1, fun st hst => by cases hst⟩
        | ok st =>
          refine ⟨a1, fun sel hsel => ?_⟩
          injection hsel with hsel; subst hsel
          exact a2 st rfl

/-- The whole flush of a lock with marked rows. -/
theorem left_flush (hse : Searchable cfg) (hpa : ParentsConsistent cfg) (boom : Boom S) (ev : Event) (n : Nat) (p : T)
    (hk : (S p).kind = .consistent) (w : W (S p)) (rows : List Nat) (hw : w.changes = .these rows) (e : PEnv S)
    (h : Ready key cfg (e.env.unlock p w.tbl).tbl) :
    LeftBy key cfg p rows (e.env.unlock p w.tbl).tbl (gFlush cfg boom n p w ev e).1.env.tbl := by
  unfold gFlush
  split
  · exact LeftBy.refl h
  · unfold gTell
    rw [hw]
    obtain ⟨a1, a2⟩ := left_doFlush hse hpa boom ev n p w.pushed w.delete rows { e with env := e.env.unlock p w.tbl } h
    unfold Pr.andThen
    rcases ex : gDoFlush cfg boom n p ev w.pushed w.delete (.these rows) { e with env := e.env.unlock p w.tbl } with ⟨e1, r⟩
    rw [ex] at a1 a2
    cases r with
    | error q => exact a1
    | ok sel =>
      obtain ⟨rows', rfl, hp⟩ := a2 sel rfl
      simp only []
      split
      · refine a1.trans h ?_
        rcases work_tbl p (Cr.removeSel (.these rows')) e1 with ⟨hx, -⟩ | ⟨hx, -⟩
        · rw [hx]; exact LeftBy.refl a1.ready
        · rw [hx]
          obtain ⟨b1, b2, -⟩ := removePrefix a1.ready hse p hk rows'
          refine ⟨b1, fun D hc hd => ⟨?_, ?_, ?_⟩⟩
          · intro t ht i
            by_cases et : t = p
            · subst et
              simp only [Function.update_self]
              rw [b2]
              by_cases hi : i ∈ rows'.takeWhile (· < (e1.env.tbl t).len)
              · right; rw [if_pos hi]
                exact ⟨rfl, hd hk i (hp.mem_iff.1 (List.takeWhile_subset _ hi))⟩
              · left; rw [if_neg hi]
            · rw [Function.update_of_ne et]; exact Or.inl rfl
          · intro t ht
            have et : t ≠ p := by intro et; subst et; rw [hk] at ht; cases ht
            rw [Function.update_of_ne et]
            exact (Shrinks.refl (cfg := cfg) (D := D) _).sorted t ht
          · intro t ht ht'
            have et : t ≠ p := by intro et; subst et; exact ht hk
            rw [Function.update_of_ne et]
      · exact a1

end V11
