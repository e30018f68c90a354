import Verif.Lemmas.FlushRange
import Verif.Props.Unwind
import Verif.Props.Integrity
import Verif.Spec.Caught

/-!
# Programs that catch their panics
-/

set_option linter.unusedSimpArgs false
set_option linter.unusedSectionVars false
set_option linter.unusedVariables false

namespace V11

section
variable {S : Schema} [LS : LawfulSchema S] [LV : LeavesSchema S] {K : Type} [LinearOrder K] {key : Row S → K}

omit LS in
/-- On any table every call is one of `Model/Crash`, or does nothing to the table. -/
theorem UOp.does_any (op : UOp S) (ha : op.Allowed S) (w : W S) :
    (∃ c : COp S, c.Allowed S ∧ (op.run key w).1.tbl = (c.run key w.tbl).1) ∨ (op.run key w).1.tbl = w.tbl := by
  by_cases hk : S.kind = .consistent
  · cases op with
    | push row => exact Or.inl ⟨.push row, ha, (((Wr.Does.push row).bind fun _ => Wr.Does.ret ()) w).1⟩
    | pushAll rows => exact Or.inl ⟨.pushAll rows, ha, (Wr.Does.pushAll rows w).1⟩
    | pushArray rows => exact Or.inl ⟨.pushArray rows, ha, (((Wr.Does.pushArray rows).bind fun _ => Wr.Does.ret ()) w).1⟩
    | delete i =>
      right
      show ((Wr.delete i) w).1.tbl = w.tbl
      unfold Wr.delete
      simp only [hk]
      cases hc : w.tbl.check i with
      | error p =>
        rw [wr_err (w1 := w) (p := p) (by show (_, _) = _; simp only [Cr.look, hc])]
      | ok j =>
        rw [wr_ok (w1 := w) (a := j) (by show (_, _) = _; simp only [Cr.look, hc])]
        show (w.eventDel j).tbl = w.tbl
        unfold W.eventDel
        split <;> rfl
    | clear =>
      right
      show ((Wr.clear (S := S)) w).1.tbl = w.tbl
      unfold Wr.clear
      simp only [hk]
      rfl
    | select i => exact Or.inr rfl
    | selectAll => exact Or.inr rfl
    | set j i v => exact Or.inl ⟨.set j i v, trivial, rfl⟩
    | other op => exact absurd hk ha.2
    | user => exact Or.inr rfl
  · rcases op.does (key := key) ha hk w with ⟨c, h1, h2, -⟩ | ⟨h, -⟩
    · exact Or.inl ⟨c, h1, h2⟩
    · exact Or.inr h

omit LS in
theorem use_salvaged (ops : List (UOp S)) (ha : ∀ o ∈ ops, o.Allowed S) (w : W S) (hw : Salvaged key w.tbl) :
    match w.use key ops with
    | .held w' => Salvaged key w'.tbl
    | .unwound _ x => Salvaged key x
    | .aborted _ => True := by
  induction ops generalizing w with
  | nil => exact hw
  | cons o ops ih =>
    have hs : Salvaged key (o.run key w).1.tbl := by
      rcases o.does_any (key := key) (ha o (by simp)) w with ⟨c, hc, e⟩ | e
      · rw [e]; exact hw.step hc
      · rw [e]; exact hw
    unfold W.use
    rcases ho : o.run key w with ⟨w', r⟩
    rw [ho] at hs
    cases r with
    | ok a => exact ih (fun o ho => ha o (by simp [ho])) w' hs
    | error p =>
      simp only []
      unfold W.unwind W.drop
      by_cases hc : S.kind = .consistent ∧ w'.changes.isEmpty = false
      · rw [if_pos hc]; trivial
      · rw [if_neg hc]; exact hs

/-- Some rows that may be missing, none of which is. -/
theorem all_there {A : Type} {l : List (Option A)} (h : none ∉ l) : ∃ l' : List A, l = l'.map some := by
  induction l with
  | nil => exact ⟨[], rfl⟩
  | cons a l ih =>
    obtain ⟨l', rfl⟩ := ih (fun h' => h (by simp [h']))
    cases a with
    | none => simp at h
    | some a => exact ⟨a :: l', rfl⟩

/-- A call that returned does to the table what some operations on it do. -/
theorem UOp.carries {P : Tbl S → Prop}
    (hP : ∀ (o : TOp S) (x x' : Tbl S), P x → o.Allowed S.kind → (S.kind = .consistent → o.clears = false ∧ ∀ sel, o ≠ .remove sel) →
      o.run key x = .ok x' → P x')
    (op : UOp S) (ha : op.Allowed S) (hw : op.Whole) {w w' : W S} (e : op.run key w = (w', .ok ())) (h : P w.tbl) : P w'.tbl := by
  have main : ∀ (l : LOp S) (w w' : W S), l.Allowed S.kind → l.toU.run key w = (w', .ok ()) → P w.tbl → P w'.tbl := by
    intro l w w' hl e h
    have e1 := step_tbl (((C79_agrees w l).1 w').2 e)
    cases eo : l.toOp S.kind with
    | none => rw [eo] at e1; simp only [] at e1; rw [e1]; exact h
    | some o =>
      rw [eo] at e1
      simp only [] at e1
      refine hP o _ _ h (toOp_allowed eo hl) (fun hk => ?_) e1
      rw [hk] at eo
      cases l <;> simp only [LOp.toOp] at eo <;>
        first | (injection eo with eo; subst eo; exact ⟨rfl, fun _ h => by cases h⟩) | cases eo | simp at eo
  cases op with
  | push row => exact main (.push row) w w' ha e h
  | pushAll rows =>
    obtain ⟨l, rfl⟩ := all_there hw
    replace e : Wr.pushAll (l.map some) w = (w', .ok ()) := e
    clear hw
    induction l generalizing w with
    | nil => injection e with e1 e2; subst e1; exact h
    | cons r l ih =>
      replace e : (Wr.push r >>= fun _ => Wr.pushAll (l.map some)) w = (w', .ok ()) := e
      rcases hx : Wr.push r w with ⟨w1, q⟩
      cases q with
      | error p => rw [wr_err hx] at e; injection e with _ e; cases e
      | ok i =>
        rw [wr_ok hx] at e
        refine ih (main (.push r) w w1 ha ?_ h) ha e
        show (Wr.push r >>= fun _ => Wr.ret ()) w = _
        rw [wr_ok hx]; rfl
  | pushArray rows =>
    obtain ⟨l, rfl⟩ := all_there hw
    exact main (.pushArray l) w w' ha e h
  | delete i => exact main (.delete i) w w' trivial e h
  | clear => exact main .clear w w' trivial e h
  | select i => exact main (.select i) w w' trivial e h
  | selectAll => exact main .selectAll w w' trivial e h
  | set j i v => exact main (.set j i v) w w' trivial e h
  | other c =>
    obtain ⟨o, rfl⟩ := hw
    have e2 : o.toC.run key w.tbl = (w'.tbl, .ok ()) := by
      have a : (Wr.onTbl (o.toC.run key) w) = (w', .ok ()) := e
      injection a with a b
      rw [← a, Prod.ext_iff]
      exact ⟨rfl, b⟩
    refine hP o _ _ h ?_ (fun hk => absurd hk ha.2) (((C70_agrees (key := key) w.tbl o).1 _).2 e2)
    have := ha.1
    cases o <;> exact this
  | user => injection e with _ e; cases e

theorem use_carries {P : Tbl S → Prop}
    (hP : ∀ (o : TOp S) (x x' : Tbl S), P x → o.Allowed S.kind → (S.kind = .consistent → o.clears = false ∧ ∀ sel, o ≠ .remove sel) →
      o.run key x = .ok x' → P x')
    (ops : List (UOp S)) (ha : ∀ o ∈ ops, o.Allowed S) (hw : ∀ o ∈ ops, o.Whole) {w w' : W S} (e : w.use key ops = .held w') (h : P w.tbl) :
    P w'.tbl := by
  induction ops generalizing w with
  | nil => injection e with e; subst e; exact h
  | cons o ops ih =>
    unfold W.use at e
    rcases ho : o.run key w with ⟨w1, r⟩
    rw [ho] at e
    cases r with
    | ok a => exact ih (fun o ho => ha o (by simp [ho])) (fun o ho => hw o (by simp [ho])) e (o.carries hP (ha o (by simp)) (hw o (by simp)) ho h)
    | error p =>
      simp only [] at e
      unfold W.unwind at e
      split at e <;> cases e

end

/-! ## One session -/

section
variable {T : Type} [DecidableEq T] {S : T → Schema} [LV : ∀ t, LeavesSchema (S t)] {K : Type} [LinearOrder K] {key : (t : T) → Row (S t) → K} {cfg : Cfg S}
  {n : Nat}

/-- The ways a `live_flush` ends. -/
theorem liveFlush_cases {boom : Boom S} {t : T} {w : W (S t)} {ev : Event} {e e' : PEnv S} {r : R (W (S t))} (h : gLiveFlush cfg boom n t w ev e = (e', r)) :
    (w.changes.isEmpty = true ∧ e' = e ∧ r = .ok w) ∨
    ∃ e1 c, gDoFlush cfg boom n t ev w.pushed w.delete w.changes { e with env := e.env.put t w.tbl } = (e1, c) ∧
      ((∃ q, c = .error q ∧ e' = e1.dropped t w.tbl ∧ r = .error q) ∨
       (∃ s x, c = .ok s ∧ (x = w.tbl ∨ (ev.isRemoval = true ∧ Cr.removeSel s w.tbl = (x, .ok ()))) ∧ e' = { e1 with env := e1.env.put t x } ∧ r = .ok (W.lock x)) ∨
       (∃ s x q, c = .ok s ∧ Cr.removeSel s w.tbl = (x, .error q) ∧ e' = e1.dropped t x ∧ r = .error q)) := by
  unfold gLiveFlush at h
  by_cases hc : w.changes.isEmpty = true
  · rw [if_pos hc] at h
    injection h with a b
    exact Or.inl ⟨hc, a.symm, b.symm⟩
  · rw [if_neg hc] at h
    right
    rcases hd : gDoFlush cfg boom n t ev w.pushed w.delete w.changes { e with env := e.env.put t w.tbl } with ⟨e1, c⟩
    rw [hd] at h
    refine ⟨e1, c, rfl, ?_⟩
    cases c with
    | error q =>
      simp only [] at h
      injection h with a b
      exact Or.inl ⟨q, rfl, a.symm, b.symm⟩
    | ok s =>
      simp only [] at h
      by_cases hr : (ev.isRemoval && !s.isEmpty) = true
      · rw [if_pos hr] at h
        rcases hx : Cr.removeSel s w.tbl with ⟨x, q⟩
        rw [hx] at h
        cases q with
        | ok u =>
          simp only [] at h
          injection h with a b
          refine Or.inr (Or.inl ⟨s, x, rfl, Or.inr ⟨?_, hx⟩, a.symm, b.symm⟩)
          simp only [Bool.and_eq_true] at hr; exact hr.1
        | error q =>
          simp only [] at h
          injection h with a b
          exact Or.inr (Or.inr ⟨s, x, q, rfl, hx, a.symm, b.symm⟩)
      · rw [if_neg hr] at h
        injection h with a b
        exact Or.inr (Or.inl ⟨s, w.tbl, rfl, Or.inl rfl, a.symm, b.symm⟩)

/-- What the parts of a session leave; the lock is held before. -/
structure PartEnds (P : (t : T) → Tbl (S t) → Prop) (t : T) (w : W (S t)) (e e' : PEnv S) (r : R (W (S t))) : Prop where
  reads : e'.env.reads = e.env.reads
  log : e.env.log <+: e'.env.log
  worse : ∀ s, e.bad s = true → e'.bad s = true
  frozen : ∀ s, s ≠ t → e.bad s = true → e'.env.tbl s = e.env.tbl s
  keeps : ∀ s, s ≠ t → P s (e.env.tbl s) → P s (e'.env.tbl s)
  held : ∀ w', r = .ok w' → e'.env.writer = e.env.writer ∧ e'.bad = e.bad
  gone : ∀ q, r = .error q → e'.env.writer = Function.update e.env.writer t false ∧ e'.bad t = true ∧
    ∃ s, ∀ u, e'.bad u = true → e.bad u = true ∨ u = t ∨ u = s

theorem PartEnds.step {P : (t : T) → Tbl (S t) → Prop} {t : T} {w w1 : W (S t)} {e e1 e2 : PEnv S} {r : R (W (S t))}
    (h1 : PartEnds P t w e e1 (.ok w1)) (h2 : PartEnds P t w1 e1 e2 r) : PartEnds P t w e e2 r where
  reads := h2.reads.trans h1.reads
  log := h1.log.trans h2.log
  worse s hs := h2.worse s (h1.worse s hs)
  frozen s hn hs := (h2.frozen s hn (h1.worse s hs)).trans (h1.frozen s hn hs)
  keeps s hn hs := h2.keeps s hn (h1.keeps s hn hs)
  held w' hw := ⟨(h2.held w' hw).1.trans (h1.held w1 rfl).1, (h2.held w' hw).2.trans (h1.held w1 rfl).2⟩
  gone q hq := by
    obtain ⟨a, b, s, c⟩ := h2.gone q hq
    rw [(h1.held w1 rfl).1] at a
    rw [(h1.held w1 rfl).2] at c
    exact ⟨a, b, s, c⟩

theorem PartEnds.same {P : (t : T) → Tbl (S t) → Prop} {t : T} {w w1 : W (S t)} {e : PEnv S} : PartEnds P t w e e (.ok w1) where
  reads := rfl
  log := List.prefix_rfl
  worse _ h := h
  frozen _ _ _ := rfl
  keeps _ _ h := h
  held _ _ := ⟨rfl, rfl⟩
  gone q hq := by cases hq

theorem dropped_ends {P : (t : T) → Tbl (S t) → Prop} {t : T} {w : W (S t)} {α : Type} {r : R α} {e e1 : PEnv S} {x : Tbl (S t)} {q : Panic}
    (h : Ends P { e with env := e.env.put t w.tbl } e1 r) : PartEnds P t w e (e1.dropped t x) (.error q) where
  reads := h.reads
  log := h.log
  worse s hs := by
    show Function.update e1.bad t true s = true
    by_cases hst : s = t
    · subst hst; exact Function.update_self ..
    · rw [Function.update_of_ne hst]; exact h.worse s hs
  frozen s hn hs := by
    show Function.update e1.env.tbl t x s = _
    rw [Function.update_of_ne hn, h.frozen s (Or.inl hs)]
    exact Function.update_of_ne hn ..
  keeps s hn hs := by
    show P s (Function.update e1.env.tbl t x s)
    rw [Function.update_of_ne hn]
    refine h.keeps s ?_
    show P s (Function.update e.env.tbl t w.tbl s)
    rw [Function.update_of_ne hn]; exact hs
  held w' hw := by cases hw
  gone q' hq := by
    refine ⟨?_, Function.update_self .., ?_⟩
    · show Function.update e1.env.writer t false = _
      rw [h.writer]; rfl
    · by_cases hx : ∃ s, e1.bad s = true ∧ e.bad s = false
      · obtain ⟨s, h1, h2⟩ := hx
        refine ⟨s, fun u hu => ?_⟩
        by_cases hut : u = t
        · exact Or.inr (Or.inl hut)
        · rw [show (e1.dropped t x).bad u = Function.update e1.bad t true u from rfl, Function.update_of_ne hut] at hu
          cases hb : e.bad u
          · exact Or.inr (Or.inr (h.one u s hu hb h1 h2))
          · exact Or.inl rfl
      · refine ⟨t, fun u hu => ?_⟩
        by_cases hut : u = t
        · exact Or.inr (Or.inl hut)
        · rw [show (e1.dropped t x).bad u = Function.update e1.bad t true u from rfl, Function.update_of_ne hut] at hu
          cases hb : e.bad u
          · exact absurd ⟨u, hu, hb⟩ hx
          · exact Or.inl rfl

theorem liveFlush_ends {P : (t : T) → Tbl (S t) → Prop} (hP : StepsKeep P) {boom : Boom S} {t : T} {w : W (S t)} {ev : Event} {e e' : PEnv S}
    {r : R (W (S t))} (h : gLiveFlush cfg boom n t w ev e = (e', r)) :
    PartEnds P t w e e' r ∧ (∀ w', r = .ok w' → w'.changes.isEmpty = true ∧ (P t w.tbl → P t w'.tbl)) ∧
      ∀ q, r = .error q → P t w.tbl → P t (e'.env.tbl t) := by
  rcases liveFlush_cases h with ⟨hc, rfl, rfl⟩ | ⟨e1, c, hd, h⟩
  · refine ⟨PartEnds.same, fun w' hw => ?_, fun q hq => by cases hq⟩
    injection hw with hw; subst hw; exact ⟨hc, fun hp => hp⟩
  · have hE := PrEnds.doFlush hP cfg boom n t ev w.pushed w.delete w.changes { e with env := e.env.put t w.tbl }
    rw [hd] at hE
    rcases h with ⟨q, rfl, rfl, rfl⟩ | ⟨s, x, rfl, hx, rfl, rfl⟩ | ⟨s, x, q, rfl, hx, rfl, rfl⟩
    · refine ⟨dropped_ends hE, fun w' hw => (by cases hw), fun q' _ hp => ?_⟩
      show P t (Function.update e1.env.tbl t w.tbl t)
      rw [Function.update_self]; exact hp
    · refine ⟨⟨hE.reads, hE.log, hE.worse, fun s hn hs => ?_, fun s hn hs => ?_, fun _ _ => ⟨hE.writer, hE.calm _ rfl⟩, fun q hq => by cases hq⟩,
        fun w' hw => ?_, fun q hq => by cases hq⟩
      · show Function.update e1.env.tbl t x s = _
        rw [Function.update_of_ne hn, hE.frozen s (Or.inl hs)]
        exact Function.update_of_ne hn ..
      · show P s (Function.update e1.env.tbl t x s)
        rw [Function.update_of_ne hn]
        refine hE.keeps s ?_
        show P s (Function.update e.env.tbl t w.tbl s)
        rw [Function.update_of_ne hn]; exact hs
      · injection hw with hw; subst hw
        refine ⟨rfl, fun hp => ?_⟩
        rcases hx with rfl | ⟨-, hx⟩
        · exact hp
        · have := (hP t s w.tbl hp).1
          rw [hx] at this; exact this
    · refine ⟨dropped_ends hE, fun w' hw => (by cases hw), fun q' _ hp => ?_⟩
      show P t (Function.update e1.env.tbl t x t)
      rw [Function.update_self]
      have := (hP t s w.tbl hp).1
      rw [hx] at this; exact this

omit LV in
theorem drop_changes {t : T} (w : W (S t)) : (HasChanges w → w.drop = .error .unflushed) ∧ (¬ HasChanges w → w.drop = .ok w.tbl) := by
  unfold W.drop HasChanges
  exact ⟨fun h => by rw [if_pos h], fun h => by rw [if_neg h]⟩

/-- The ways `as_read().select_rows` ends. -/
theorem view_cases (cfg : Cfg S) (boom : Boom S) (n : Nat) (t : T) (w : W (S t)) (ev : Event) (sel : Select (List Nat)) (e : PEnv S) :
    (∃ e1 c, gDoFlush cfg boom n t ev false false sel { e with env := e.env.put t w.tbl } = (e1, .ok c) ∧
      gViewSelect cfg boom n t w ev sel e = some (e1, .ok w)) ∨
    (∃ e1 p, gDoFlush cfg boom n t ev false false sel { e with env := e.env.put t w.tbl } = (e1, .error p) ∧ (p.isEnd = true ∨ ¬ HasChanges w) ∧
      gViewSelect cfg boom n t w ev sel e = some (e1.dropped t w.tbl, .error p)) ∨
    (∃ e1 p, gDoFlush cfg boom n t ev false false sel { e with env := e.env.put t w.tbl } = (e1, .error p) ∧ p.isEnd = false ∧ HasChanges w ∧
      gViewSelect cfg boom n t w ev sel e = none) := by
  unfold gViewSelect
  rcases h : gDoFlush cfg boom n t ev false false sel { e with env := e.env.put t w.tbl } with ⟨e1, r⟩
  cases r with
  | ok c => exact Or.inl ⟨e1, c, rfl, rfl⟩
  | error p =>
    by_cases hu : HasChanges w
    · cases hp : p.isEnd
      · refine Or.inr (Or.inr ⟨e1, p, rfl, hp, hu, ?_⟩)
        simp only [hp, (drop_changes w).1 hu, Bool.false_eq_true, if_false]
      · refine Or.inr (Or.inl ⟨e1, p, rfl, Or.inl hp, ?_⟩)
        simp only [hp, (drop_changes w).1 hu, if_true]
    · refine Or.inr (Or.inl ⟨e1, p, rfl, Or.inr hu, ?_⟩)
      simp only [(drop_changes w).2 hu]

theorem view_ends {P : (t : T) → Tbl (S t) → Prop} (hP : StepsKeep P) {boom : Boom S} {t : T} {w : W (S t)} {ev : Event} {sel : Select (List Nat)}
    {e e' : PEnv S} {r : R (W (S t))} (h : gViewSelect cfg boom n t w ev sel e = some (e', r)) :
    PartEnds P t w e e' r ∧ (∀ w', r = .ok w' → w' = w) ∧ ∀ q, r = .error q → e'.env.tbl t = w.tbl := by
  have hE := PrEnds.doFlush hP cfg boom n t ev false false sel { e with env := e.env.put t w.tbl }
  rcases view_cases cfg boom n t w ev sel e with ⟨e1, c, h1, h2⟩ | ⟨e1, p, h1, h2, h3⟩ | ⟨e1, p, h1, h2, h3, h4⟩
  · rw [h2] at h; injection h with h; injection h with a b; subst a; subst b
    rw [h1] at hE
    refine ⟨⟨hE.reads, hE.log, hE.worse, fun s hn hs => ?_, fun s hn hs => ?_, fun _ _ => ⟨hE.writer, hE.calm _ rfl⟩, fun q hq => by cases hq⟩,
      fun w' hw => (by injection hw with hw; exact hw.symm), fun q hq => by cases hq⟩
    · rw [hE.frozen s (Or.inl hs)]
      exact Function.update_of_ne hn ..
    · refine hE.keeps s ?_
      show P s (Function.update e.env.tbl t w.tbl s)
      rw [Function.update_of_ne hn]; exact hs
  · rw [h3] at h; injection h with h; injection h with a b; subst a; subst b
    rw [h1] at hE
    exact ⟨dropped_ends hE, fun w' hw => (by cases hw), fun q _ => Function.update_self ..⟩
  · rw [h4] at h; cases h

/-- What a part does after its calls. -/
theorem act_ends {P : (t : T) → Tbl (S t) → Prop} (hP : StepsKeep P) {t : T} {p : Part S t} {w : W (S t)} {e e' : PEnv S}
    {r : R (W (S t))} (h : p.act cfg n t w e = some (e', r)) :
    PartEnds P t w e e' r ∧ (∀ w', r = .ok w' → P t w.tbl → P t w'.tbl) ∧ ∀ q, r = .error q → P t w.tbl → P t (e'.env.tbl t) := by
  unfold Part.act at h
  cases hv : p.view with
  | none =>
    rw [hv] at h; injection h with h
    obtain ⟨a, b, c⟩ := liveFlush_ends hP h
    exact ⟨a, fun w' hw => (b w' hw).2, c⟩
  | some sel =>
    rw [hv] at h
    obtain ⟨a, b, c⟩ := view_ends hP h
    exact ⟨a, fun w' hw hp => by rw [b w' hw]; exact hp, fun q hq hp => by rw [c q hq]; exact hp⟩

theorem use_dropped {P : (t : T) → Tbl (S t) → Prop} {t : T} {w : W (S t)} {e : PEnv S} {x : Tbl (S t)} {q : Panic} :
    PartEnds P t w e (e.dropped t x) (.error q) where
  reads := rfl
  log := List.prefix_rfl
  worse s hs := by
    show Function.update e.bad t true s = true
    by_cases hst : s = t
    · subst hst; exact Function.update_self ..
    · rw [Function.update_of_ne hst]; exact hs
  frozen s hn _ := Function.update_of_ne hn ..
  keeps s hn hs := by
    show P s (Function.update e.env.tbl t x s)
    rw [Function.update_of_ne hn]; exact hs
  held w' hw := by cases hw
  gone q' _ := by
    refine ⟨rfl, Function.update_self .., t, fun u hu => ?_⟩
    by_cases hut : u = t
    · exact Or.inr (Or.inl hut)
    · rw [show (e.dropped t x).bad u = Function.update e.bad t true u from rfl, Function.update_of_ne hut] at hu
      exact Or.inl hu

theorem parts_ends {P : (t : T) → Tbl (S t) → Prop} (hP : StepsKeep P) {t : T} {parts : List (Part S t)} {w : W (S t)} {e e' : PEnv S} {r : R (W (S t))}
    (h : Part.runs key cfg n t parts w e = some (e', r)) :
    PartEnds P t w e e' r ∧
    ((∀ x ∈ parts, ∀ w w' : W (S t), P t w.tbl → w.use (key t) x.ops = .held w' → P t w'.tbl) → P t w.tbl → ∀ w', r = .ok w' → P t w'.tbl) ∧
    ((∀ x ∈ parts, ∀ w : W (S t), P t w.tbl → (∀ w', w.use (key t) x.ops = .held w' → P t w'.tbl) ∧ ∀ p y, w.use (key t) x.ops = .unwound p y → P t y) →
      P t w.tbl → ∀ q, r = .error q → P t (e'.env.tbl t)) := by
  induction parts generalizing w e with
  | nil =>
    rw [Part.runs] at h
    injection h with h; injection h with a b; subst a; subst b
    exact ⟨PartEnds.same, fun _ hp w' hw => by injection hw with hw; subst hw; exact hp, fun _ _ q hq => by cases hq⟩
  | cons p ps ih =>
    rw [Part.runs] at h
    cases hu : w.use (key t) p.ops with
    | aborted q => rw [hu] at h; cases h
    | unwound q x =>
      rw [hu] at h
      injection h with h; injection h with a b; subst a; subst b
      refine ⟨use_dropped, fun _ _ w' hw => (by cases hw), fun hq hp q' _ => ?_⟩
      show P t (Function.update e.env.tbl t x t)
      rw [Function.update_self]
      exact (hq p (by simp) w hp).2 q x hu
    | held w1 =>
      rw [hu] at h
      simp only [] at h
      rcases hf : p.act cfg n t w1 e with _ | ⟨e1, c⟩
      · rw [hf] at h; cases h
      rw [hf] at h
      obtain ⟨a1, a2, a3⟩ := act_ends hP hf
      have a1' : PartEnds P t w e e1 c := ⟨a1.reads, a1.log, a1.worse, a1.frozen, a1.keeps, a1.held, a1.gone⟩
      cases c with
      | error q =>
        injection h with h; injection h with a b; subst a; subst b
        exact ⟨a1', fun _ _ w' hw => (by cases hw), fun hq hp q' _ => a3 q rfl ((hq p (by simp) w hp).1 w1 hu)⟩
      | ok w2 =>
        simp only [] at h
        obtain ⟨b1, b2, b3⟩ := ih h
        refine ⟨a1'.step b1, fun hk hp => ?_, fun hk hp => ?_⟩
        · exact b2 (fun x hx => hk x (by simp [hx])) (a2 w2 rfl (hk p (by simp) w w1 hp hu))
        · exact b3 (fun x hx => hk x (by simp [hx])) (a2 w2 rfl ((hk p (by simp) w hp).1 w1 hu))

/-- What one session leaves, however it ends. -/
structure DeedEnds (d : Deed S) (e e' : PEnv S) (r : R Unit) : Prop where
  reads : e'.env.reads = e.env.reads
  writer : e'.env.writer = e.env.writer
  log : e.env.log <+: e'.env.log
  worse : ∀ t, e.bad t = true → e'.bad t = true
  calm : r = .ok () → e'.bad = e.bad
  two : ∃ a b, ∀ s, e'.bad s = true → e.bad s = true ∨ s = a ∨ s = b
  one : d.Plain → ∃ a, ∀ s, e'.bad s = true → e.bad s = true ∨ s = a
  frozen : ∀ t, e.bad t = true → e'.env.tbl t = e.env.tbl t

theorem DeedEnds.same (d : Deed S) (e : PEnv S) (r : R Unit) : DeedEnds d e e r where
  reads := rfl
  writer := rfl
  log := List.prefix_rfl
  worse _ h := h
  calm _ := rfl
  two := ⟨d.about, d.about, fun s h => Or.inl h⟩
  one _ := ⟨d.about, fun s h => Or.inl h⟩
  frozen _ _ := rfl

/-- At most one, if any two are the same. -/
theorem one_of {e e' : PEnv S} (t : T) (h : ∀ s t, e'.bad s = true → e.bad s = false → e'.bad t = true → e.bad t = false → s = t) :
    ∃ a, ∀ s, e'.bad s = true → e.bad s = true ∨ s = a := by
  by_cases hx : ∃ s, e'.bad s = true ∧ e.bad s = false
  · obtain ⟨s, h1, h2⟩ := hx
    refine ⟨s, fun u hu => ?_⟩
    cases hb : e.bad u
    · exact Or.inr (h u s hu hb h1 h2)
    · exact Or.inl rfl
  · refine ⟨t, fun u hu => ?_⟩
    cases hb : e.bad u
    · exact absurd ⟨u, hu, hb⟩ hx
    · exact Or.inl rfl

theorem tell_ends {P : (t : T) → Tbl (S t) → Prop} (hP : StepsKeep P) (t : T) (sel : Select (List Nat)) (ev : Event) (boom : Boom S) :
    PrEnds P ((gPeek t).andThen fun _ => (gDoFlush cfg boom n t ev false false sel).andThen fun _ => Pr.ret ()) :=
  (PrEnds.peek t).andThen fun _ => (PrEnds.doFlush hP cfg boom n t ev false false sel).andThen fun _ => PrEnds.ret _

/-- The universe while a write lock of `t` is held. -/
abbrev PEnv.taken (e : PEnv S) (t : T) : PEnv S := { e with env := { e.env with writer := Function.update e.env.writer t true } }

/-- The ways a session ends. -/
theorem write_cases {t : T} {parts : List (Part S t)} {ops : List (UOp (S t))} {ev : Event} {boom : Boom S} {e e' : PEnv S} {r : R Unit}
    (h : (Deed.write t parts ops ev boom).run key cfg n e = some (e', r)) :
    (e' = e ∧ (r = .error .deadlock ∨ r = .error .poisoned)) ∨
    e.env.writer t = false ∧ e.bad t = false ∧
      ((∃ p, Part.runs key cfg n t parts (W.lock (e.env.tbl t)) (e.taken t) = some (e', .error p) ∧ r = .error p) ∨
       ∃ e1 w, Part.runs key cfg n t parts (W.lock (e.env.tbl t)) (e.taken t) = some (e1, .ok w) ∧
         ((∃ w', w.use (key t) ops = .held w' ∧ gFlush cfg boom n t w' ev e1 = (e', r)) ∨
          ∃ p x, w.use (key t) ops = .unwound p x ∧ e' = e1.dropped t x ∧ r = .error p)) := by
  rw [Deed.run] at h
  by_cases h1 : e.env.reads t ≠ 0 ∨ e.env.writer t = true
  · rw [if_pos h1] at h; injection h with h; injection h with a b
    exact Or.inl ⟨a.symm, Or.inl b.symm⟩
  · rw [if_neg h1] at h
    by_cases h2 : e.bad t = true
    · rw [if_pos h2] at h; injection h with h; injection h with a b
      exact Or.inl ⟨a.symm, Or.inr b.symm⟩
    · rw [if_neg h2] at h
      right
      refine ⟨?_, by simpa using h2, ?_⟩
      · cases hx : e.env.writer t
        · rfl
        · exact absurd (Or.inr hx) h1
      · rcases hp : Part.runs key cfg n t parts (W.lock (e.env.tbl t)) (e.taken t) with _ | ⟨e1, c⟩
        · rw [hp] at h; cases h
        · rw [hp] at h
          cases c with
          | error p =>
            injection h with h; injection h with a b
            subst a
            exact Or.inl ⟨p, rfl, b.symm⟩
          | ok w =>
            simp only [] at h
            refine Or.inr ⟨e1, w, rfl, ?_⟩
            cases hu : w.use (key t) ops with
            | aborted p => rw [hu] at h; cases h
            | unwound p x =>
              rw [hu] at h; injection h with h; injection h with a b
              exact Or.inr ⟨p, x, rfl, a.symm, b.symm⟩
            | held w' =>
              rw [hu] at h; injection h with h
              exact Or.inl ⟨w', rfl, h⟩

theorem deed_ends {d : Deed S} {e e' : PEnv S} {r : R Unit} (h : d.run key cfg n e = some (e', r)) : DeedEnds d e e' r := by
  cases d with
  | tell t sel ev boom =>
    rw [Deed.run] at h
    injection h with h
    have := tell_ends (cfg := cfg) (n := n) steps_true t sel ev boom e
    rw [h] at this
    obtain ⟨a, ha⟩ := one_of t this.one
    exact ⟨this.reads, this.writer, this.log, this.worse, this.calm (), ⟨a, a, fun s hs => (ha s hs).imp_right Or.inl⟩, fun _ => ⟨a, ha⟩, fun s hs => this.frozen s (Or.inl hs)⟩
  | write t parts ops ev boom =>
    rcases write_cases h with ⟨rfl, -⟩ | ⟨hw, hb, h⟩
    · exact DeedEnds.same _ _ _
    · have hne : ∀ s, e.bad s = true → s ≠ t := by
        rintro s hs rfl; rw [hs] at hb; cases hb
      have hback : Function.update (Function.update e.env.writer t true) t false = e.env.writer := by
        rw [Function.update_idem, ← hw, Function.update_eq_self]
      rcases h with ⟨p, hp, rfl⟩ | ⟨e1, w, hp, h⟩
      · obtain ⟨a, -, -⟩ := parts_ends (steps_true (S := S)) hp
        obtain ⟨g1, g2, s, g3⟩ := a.gone p rfl
        refine ⟨a.reads, g1.trans hback, a.log, a.worse, fun hr => (by cases hr), ⟨t, s, g3⟩, fun hpl => ?_, fun s hs => a.frozen s (hne s hs) hs⟩
        have : parts = [] := hpl
        subst this
        rw [Part.runs] at hp; injection hp with hp; injection hp with _ hp; cases hp
      · obtain ⟨a, -, -⟩ := parts_ends (steps_true (S := S)) hp
        obtain ⟨g1, g2⟩ := a.held w rfl
        rcases h with ⟨w', hu, hf⟩ | ⟨p, x, hu, rfl, rfl⟩
        · have := flush_ends steps_true cfg boom n t w' ev e1
          rw [hf] at this
          obtain ⟨c, hc⟩ := one_of t this.one
          have hc' : ∀ s, e'.bad s = true → e.bad s = true ∨ s = c := fun s hs => by rw [show e.bad = e1.bad from g2.symm]; exact hc s hs
          refine ⟨this.reads.trans a.reads, ?_, a.log.trans this.log, fun s hs => this.worse s (a.worse s hs), fun hr => (this.calm () hr).trans g2,
            ⟨c, c, fun s hs => (hc' s hs).imp_right Or.inl⟩, fun _ => ⟨c, hc'⟩, fun s hs => ?_⟩
          · rw [this.writer]
            show Function.update e1.env.writer t false = _
            rw [g1, hback]
          · rw [this.frozen s (Or.inl (a.worse s hs))]
            show Function.update e1.env.tbl t w'.tbl s = _
            rw [Function.update_of_ne (hne s hs)]
            exact a.frozen s (hne s hs) hs
        · have b : PartEnds (fun _ _ => True) t w e1 (e1.dropped t x) (.error p) := use_dropped
          have hc : ∀ s, (e1.dropped t x).bad s = true → e.bad s = true ∨ s = t := by
            intro s hs
            by_cases hst : s = t
            · exact Or.inr hst
            · rw [show (e1.dropped t x).bad s = Function.update e1.bad t true s from rfl, Function.update_of_ne hst, g2] at hs
              exact Or.inl hs
          refine ⟨b.reads.trans a.reads, ?_, a.log.trans b.log, fun s hs => b.worse s (a.worse s hs), fun hr => (by cases hr),
            ⟨t, t, fun s hs => (hc s hs).imp_right Or.inl⟩, fun _ => ⟨t, hc⟩, fun s hs => ?_⟩
          · show Function.update e1.env.writer t false = _
            rw [g1, hback]
          · exact (b.frozen s (hne s hs) (a.worse s hs)).trans (a.frozen s (hne s hs) hs)

/-- The calls under a write lock of a session. -/
def Deed.Calls (d : Deed S) (t : T) (l : List (UOp (S t))) : Prop :=
  ∃ parts ops ev boom, d = .write t parts ops ev boom ∧ (l = ops ∨ ∃ x ∈ parts, l = x.ops)

theorem Deed.Calls.possible {d : Deed S} {t : T} {l : List (UOp (S t))} (h : d.Calls t l) (hd : d.Possible) : ∀ o ∈ l, o.Allowed (S t) := by
  obtain ⟨parts, ops, ev, boom, rfl, rfl | ⟨x, hx, rfl⟩⟩ := h
  · exact hd.2
  · exact hd.1 x hx

theorem Deed.Calls.whole {d : Deed S} {t : T} {l : List (UOp (S t))} (h : d.Calls t l) (hd : d.Whole) : ∀ o ∈ l, o.Whole := by
  obtain ⟨parts, ops, ev, boom, rfl, rfl | ⟨x, hx, rfl⟩⟩ := h
  · exact hd.2
  · exact hd.1 x hx

/-- A property of the tables whose locks are not poisoned, which calls that return keep. -/
theorem deed_keeps {P : (t : T) → Tbl (S t) → Prop} (hP : StepsKeep P) {d : Deed S}
    (hd : ∀ t l, d.Calls t l → ∀ w w' : W (S t), P t w.tbl → w.use (key t) l = .held w' → P t w'.tbl)
    {e e' : PEnv S} {r : R Unit} (h : d.run key cfg n e = some (e', r)) (hp : ∀ t, e.bad t = false → P t (e.env.tbl t)) :
    ∀ t, e'.bad t = false → P t (e'.env.tbl t) := by
  intro s hs
  have hs0 : e.bad s = false := by
    cases hb : e.bad s
    · rfl
    · rw [(deed_ends h).worse s hb] at hs; cases hs
  cases d with
  | tell t sel ev boom =>
    rw [Deed.run] at h
    injection h with h
    have := tell_ends (cfg := cfg) (n := n) hP t sel ev boom e
    rw [h] at this
    exact this.keeps s (hp s hs0)
  | write t parts ops ev boom =>
    rcases write_cases h with ⟨rfl, -⟩ | ⟨hw, hb, h⟩
    · exact hp s hs0
    · rcases h with ⟨p, hpt, rfl⟩ | ⟨e1, w, hpt, h⟩
      · obtain ⟨a, -, -⟩ := parts_ends hP hpt
        have hst : s ≠ t := by
          rintro rfl
          rw [(a.gone p rfl).2.1] at hs; cases hs
        exact a.keeps s hst (hp s hs0)
      · obtain ⟨a, b, -⟩ := parts_ends hP hpt
        rcases h with ⟨w', hu, hf⟩ | ⟨p, x, hu, rfl, rfl⟩
        · have := flush_ends hP cfg boom n t w' ev e1
          rw [hf] at this
          refine this.keeps s ?_
          show P s (Function.update e1.env.tbl t w'.tbl s)
          by_cases hst : s = t
          · subst hst
            rw [Function.update_self]
            refine hd s ops ⟨parts, ops, ev, boom, rfl, Or.inl rfl⟩ _ w' (b (fun x hx w w' => ?_) (hp s hs0) w rfl) hu
            exact hd s x.ops ⟨parts, ops, ev, boom, rfl, Or.inr ⟨x, hx, rfl⟩⟩ w w'
          · rw [Function.update_of_ne hst]; exact a.keeps s hst (hp s hs0)
        · have hst : s ≠ t := by
            rintro rfl
            rw [show (e1.dropped s x).bad s = true from Function.update_self ..] at hs; cases hs
          show P s (Function.update e1.env.tbl t x s)
          rw [Function.update_of_ne hst]; exact a.keeps s hst (hp s hs0)

/-- The same of all tables, if calls that panic keep it as well. -/
theorem deed_keeps_all {P : (t : T) → Tbl (S t) → Prop} (hP : StepsKeep P) {d : Deed S}
    (hd : ∀ t l, d.Calls t l → ∀ w : W (S t), P t w.tbl →
      (∀ w', w.use (key t) l = .held w' → P t w'.tbl) ∧ ∀ p y, w.use (key t) l = .unwound p y → P t y)
    {e e' : PEnv S} {r : R Unit} (h : d.run key cfg n e = some (e', r)) (hp : ∀ t, P t (e.env.tbl t)) :
    ∀ t, P t (e'.env.tbl t) := by
  intro s
  cases d with
  | tell t sel ev boom =>
    rw [Deed.run] at h
    injection h with h
    have := tell_ends (cfg := cfg) (n := n) hP t sel ev boom e
    rw [h] at this
    exact this.keeps s (hp s)
  | write t parts ops ev boom =>
    rcases write_cases h with ⟨rfl, -⟩ | ⟨hw, hb, h⟩
    · exact hp s
    · have hparts : ∀ x ∈ parts, ∀ w : W (S t), P t w.tbl →
          (∀ w', w.use (key t) x.ops = .held w' → P t w'.tbl) ∧ ∀ p y, w.use (key t) x.ops = .unwound p y → P t y :=
        fun x hx => hd t x.ops ⟨parts, ops, ev, boom, rfl, Or.inr ⟨x, hx, rfl⟩⟩
      rcases h with ⟨p, hpt, rfl⟩ | ⟨e1, w, hpt, h⟩
      · obtain ⟨a, -, c⟩ := parts_ends hP hpt
        by_cases hst : s = t
        · subst hst; exact c hparts (hp s) p rfl
        · exact a.keeps s hst (hp s)
      · obtain ⟨a, b, -⟩ := parts_ends hP hpt
        have hPw := b (fun x hx w w' hp hu => (hparts x hx w hp).1 w' hu) (hp t) w rfl
        have hops := hd t ops ⟨parts, ops, ev, boom, rfl, Or.inl rfl⟩ w hPw
        rcases h with ⟨w', hu, hf⟩ | ⟨p, x, hu, rfl, rfl⟩
        · have := flush_ends hP cfg boom n t w' ev e1
          rw [hf] at this
          refine this.keeps s ?_
          show P s (Function.update e1.env.tbl t w'.tbl s)
          by_cases hst : s = t
          · subst hst
            rw [Function.update_self]; exact hops.1 w' hu
          · rw [Function.update_of_ne hst]; exact a.keeps s hst (hp s)
        · show P s (Function.update e1.env.tbl t x s)
          by_cases hst : s = t
          · subst hst
            rw [Function.update_self]; exact hops.2 p x hu
          · rw [Function.update_of_ne hst]; exact a.keeps s hst (hp s)

/-! ## Histories -/

/-- Reading off the first of several. -/
theorem runs_cons {d : Deed S} {ds : List (Deed S)} {e e' : PEnv S} {rs : List (R Unit)} (h : Deed.runs key cfg n (d :: ds) e = some (e', rs)) :
    ∃ e1 r rs', d.run key cfg n e = some (e1, r) ∧ Deed.runs key cfg n ds e1 = some (e', rs') ∧ rs = r :: rs' := by
  rw [Deed.runs] at h
  rcases hd : d.run key cfg n e with _ | ⟨e1, r⟩
  · rw [hd] at h; cases h
  · rw [hd] at h
    cases r with
    | ok a =>
      simp only [] at h
      rw [Option.map_eq_some_iff] at h
      obtain ⟨⟨e2, rs'⟩, h1, h2⟩ := h
      injection h2 with h2 h3
      subst h2
      exact ⟨e1, .ok a, rs', rfl, h1, h3.symm⟩
    | error p =>
      simp only [] at h
      split at h
      · cases h
      · rw [Option.map_eq_some_iff] at h
        obtain ⟨⟨e2, rs'⟩, h1, h2⟩ := h
        injection h2 with h2 h3
        subst h2
        exact ⟨e1, .error p, rs', rfl, h1, h3.symm⟩

/-- What every session keeps every history keeps. -/
theorem runs_keep {Q : PEnv S → Prop} {ds : List (Deed S)}
    (hQ : ∀ d ∈ ds, ∀ e e' r, d.run key cfg n e = some (e', r) → Q e → Q e') {e e' : PEnv S} {rs : List (R Unit)}
    (h : Deed.runs key cfg n ds e = some (e', rs)) (hq : Q e) : Q e' := by
  induction ds generalizing e rs with
  | nil => rw [Deed.runs] at h; injection h with h; injection h with h _; subst h; exact hq
  | cons d ds ih =>
    obtain ⟨e1, r, rs', h1, h2, -⟩ := runs_cons h
    exact ih (fun d hd => hQ d (by simp [hd])) h2 (hQ d (by simp) e e1 r h1 hq)

end

end V11
