import Verif.Lemmas.Caught
import Verif.Lemmas.FlushReach

/-!
# Programs that catch their panics: which tables they get at
-/

set_option linter.unusedSimpArgs false
set_option linter.unusedSectionVars false
set_option linter.unusedVariables false

namespace V11

section
variable {S : Schema} [LS : LawfulSchema S] [LV : LeavesSchema S] {K : Type} [LinearOrder K] {key : Row S → K}

/-- A panic that unwinds leaves the ids of a consistent table alone. -/
theorem use_unwound (hk : S.kind = .consistent) {w : W S} {L : List (Row S)} (hL : WF w.tbl L) (ops : List (UOp S))
    (ha : ∀ o ∈ ops, o.Allowed S) {p : Panic} {x : Tbl S} (h : w.use key ops = .unwound p x) (hp : p ≠ .idxOverflow) :
    ∀ i, x.contains i = w.tbl.contains i := by
  rcases use_cases (key := key) w ops with ⟨w', e⟩ | ⟨pre, op, post, w1, w2, q, e1, e2, e3, e4⟩
  · rw [e] at h; cases h
  · have ha' : ∀ o ∈ pre ++ [op], o.Allowed S := by
      intro o ho
      apply ha
      rw [e1]
      rcases List.mem_append.1 ho with ho | ho
      · exact List.mem_append_left _ ho
      · rw [List.mem_singleton.1 ho]; simp
    have hq : q = p ∧ x = w2.tbl ∧ w2.changes.isEmpty = true := by
      rw [h] at e4
      unfold W.unwind W.drop at e4
      by_cases hc : S.kind = .consistent ∧ w2.changes.isEmpty = false
      · rw [if_pos hc] at e4; cases e4
      · rw [if_neg hc] at e4
        injection e4 with a b
        refine ⟨a.symm, b, ?_⟩
        cases hx : w2.changes.isEmpty
        · exact absurd ⟨hk, hx⟩ hc
        · rfl
    obtain ⟨rfl, rfl, hemp⟩ := hq
    obtain ⟨⟨L', h'⟩, hm, h3⟩ := use_held hk pre (fun o ho => ha' o (by simp [ho])) hL e2
    obtain ⟨hg, ht2⟩ := op.panicked hk (ha' op (by simp)) h' e3
    have hno : ¬ (w1.changes.isEmpty = false ∨ op.GivesOne w1.tbl) := by
      intro hx
      rw [hg.2 hx] at hemp; cases hemp
    obtain ⟨h4, h5, -⟩ := h3 (fun o ho hmk => hno (Or.inl (hm.2 (Or.inr ⟨o, ho, hmk⟩))))
    intro i
    rw [ht2 (fun hx => hno (Or.inr hx)) hp]
    have hlen : L'.length = L.length := by rw [← h'.len, ← hL.len]; exact h5
    rw [Bool.eq_iff_iff, h'.contains_iff, hL.contains_iff, h4, hlen]

end

section
variable {T : Type} [DecidableEq T] {S : T → Schema} [LV : ∀ t, LeavesSchema (S t)] {K : Type} [LinearOrder K] {key : (t : T) → Row (S t) → K} {cfg : Cfg S}
  {n : Nat}

/-- A `live_flush` of `t` gets only at `t` and tables that depend on it. -/
theorem liveFlush_misses {s t : T} (hs : s ≠ t) (hd : ¬ DependsOn cfg s t) {boom : Boom S} {w : W (S t)} {ev : Event} {e e' : PEnv S} {r : R (W (S t))}
    (h : gLiveFlush cfg boom n t w ev e = (e', r)) : e'.env.tbl s = e.env.tbl s ∧ e'.bad s = e.bad s := by
  rcases liveFlush_cases h with ⟨-, rfl, -⟩ | ⟨e1, c, hf, h⟩
  · exact ⟨rfl, rfl⟩
  · have hm := doFlush_misses cfg boom n t hd ev w.pushed w.delete w.changes { e with env := e.env.put t w.tbl }
    rw [hf] at hm
    have h0 : ({ e with env := e.env.put t w.tbl } : PEnv S).env.tbl s = e.env.tbl s := Function.update_of_ne hs ..
    rw [h0] at hm
    have hdr : ∀ x, (e1.dropped t x).env.tbl s = e.env.tbl s ∧ (e1.dropped t x).bad s = e.bad s := fun x =>
      ⟨(Function.update_of_ne hs ..).trans hm.1, (Function.update_of_ne hs ..).trans hm.2⟩
    rcases h with ⟨q, -, rfl, -⟩ | ⟨c, x, -, -, rfl, -⟩ | ⟨c, x, q, -, -, rfl, -⟩
    · exact hdr _
    · exact ⟨(Function.update_of_ne hs ..).trans hm.1, hm.2⟩
    · exact hdr _

/-- Nor does selecting rows through it, nor, so, a part of a session. -/
theorem act_misses {s t : T} (hs : s ≠ t) (hd : ¬ DependsOn cfg s t) {p : Part S t} {w : W (S t)} {e e' : PEnv S} {r : R (W (S t))}
    (h : p.act cfg n t w e = some (e', r)) : e'.env.tbl s = e.env.tbl s ∧ e'.bad s = e.bad s := by
  unfold Part.act at h
  cases hv : p.view with
  | none => rw [hv] at h; injection h with h; exact liveFlush_misses hs hd h
  | some sel =>
    rw [hv] at h
    have hm := doFlush_misses cfg p.boom n t hd p.ev false false sel { e with env := e.env.put t w.tbl }
    have h0 : ({ e with env := e.env.put t w.tbl } : PEnv S).env.tbl s = e.env.tbl s := Function.update_of_ne hs ..
    rw [h0] at hm
    rcases view_cases cfg p.boom n t w p.ev sel e with ⟨e1, c, h1, h2⟩ | ⟨e1, q, h1, h2, h3⟩ | ⟨e1, q, h1, h2, h3, h4⟩
    · simp only [] at h
      rw [h2] at h; injection h with h; injection h with a b; subst a
      rw [h1] at hm; exact hm
    · simp only [] at h
      rw [h3] at h; injection h with h; injection h with a b; subst a
      rw [h1] at hm
      exact ⟨(Function.update_of_ne hs ..).trans hm.1, (Function.update_of_ne hs ..).trans hm.2⟩
    · simp only [] at h
      rw [h4] at h; cases h

theorem parts_misses {s t : T} (hs : s ≠ t) (hd : ¬ DependsOn cfg s t) {parts : List (Part S t)} {w : W (S t)} {e e' : PEnv S} {r : R (W (S t))}
    (h : Part.runs key cfg n t parts w e = some (e', r)) : e'.env.tbl s = e.env.tbl s ∧ e'.bad s = e.bad s := by
  induction parts generalizing w e with
  | nil => rw [Part.runs] at h; injection h with h; injection h with a _; subst a; exact ⟨rfl, rfl⟩
  | cons p ps ih =>
    rw [Part.runs] at h
    cases hu : w.use (key t) p.ops with
    | aborted q => rw [hu] at h; cases h
    | unwound q x =>
      rw [hu] at h
      injection h with h; injection h with a b; subst a
      exact ⟨Function.update_of_ne hs .., Function.update_of_ne hs ..⟩
    | held w1 =>
      rw [hu] at h
      simp only [] at h
      rcases hf : p.act cfg n t w1 e with _ | ⟨e1, c⟩
      · rw [hf] at h; cases h
      rw [hf] at h
      have hm := act_misses hs hd hf
      cases c with
      | error q => injection h with h; injection h with a b; subst a; exact hm
      | ok w2 => simp only [] at h; exact ⟨(ih h).1.trans hm.1, (ih h).2.trans hm.2⟩

/-- A session on `t` gets only at `t` and tables that depend on it. -/
theorem deed_misses {d : Deed S} {s : T} (hs : s ≠ d.about) (hd : ¬ DependsOn cfg s d.about) {e e' : PEnv S} {r : R Unit}
    (h : d.run key cfg n e = some (e', r)) : e'.env.tbl s = e.env.tbl s ∧ e'.bad s = e.bad s := by
  cases d with
  | tell t sel ev boom =>
    rw [Deed.run] at h; injection h with h
    have := ((PrMisses.peek (s := s) t).andThen fun _ => (doFlush_misses cfg boom n t hd ev false false sel).andThen fun _ => PrMisses.ret ()) e
    rw [h] at this
    exact this
  | write t parts ops ev boom =>
    rcases write_cases h with ⟨rfl, -⟩ | ⟨-, -, h⟩
    · exact ⟨rfl, rfl⟩
    · rcases h with ⟨p, hp, -⟩ | ⟨e1, w, hp, h⟩
      · exact parts_misses (e := e.taken t) hs hd hp
      · have hm := parts_misses (e := e.taken t) hs hd hp
        rcases h with ⟨w', -, hf⟩ | ⟨p, x, -, rfl, -⟩
        · have := flush_misses cfg boom n t hs hd w' ev e1
          rw [hf] at this
          exact ⟨this.1.trans hm.1, this.2.trans hm.2⟩
        · exact ⟨(Function.update_of_ne hs ..).trans hm.1, (Function.update_of_ne hs ..).trans hm.2⟩

/-- If a table that depends on `p` directly is poisoned, a `live_flush` of `p` that has anything to do panics, and leaves the table as it was. -/
theorem liveFlush_stuck {p : T} {fk : FK S} (hfk : IsFK cfg p fk) {boom : Boom S} {w : W (S p)} {ev : Event} {e e' : PEnv S} {r : R (W (S p))}
    (h : gLiveFlush cfg boom n p w ev e = (e', r)) (hb : e.bad fk.child = true) :
    (∀ w', r = .ok w' → w' = w ∧ e' = e) ∧ ∀ q, r = .error q → e'.env.tbl p = w.tbl := by
  rcases liveFlush_cases h with ⟨-, rfl, rfl⟩ | ⟨e1, c, hf, h⟩
  · exact ⟨fun w' hw => by injection hw with hw; exact ⟨hw.symm, rfl⟩, fun q hq => by cases hq⟩
  · have hne := doFlush_poisoned cfg boom n p fk hfk ev w.pushed w.delete w.changes { e with env := e.env.put p w.tbl } hb
    rw [hf] at hne
    rcases h with ⟨q, -, rfl, rfl⟩ | ⟨c, x, rfl, -⟩ | ⟨c, x, q, rfl, -⟩
    · exact ⟨fun w' hw => (by cases hw), fun q _ => Function.update_self ..⟩
    · exact absurd rfl (hne c)
    · exact absurd rfl (hne c)

/-- Likewise for what a part does after its calls. -/
theorem act_stuck {p : T} {fk : FK S} (hfk : IsFK cfg p fk) {x : Part S p} {w : W (S p)} {e e' : PEnv S} {r : R (W (S p))}
    (h : x.act cfg n p w e = some (e', r)) (hb : e.bad fk.child = true) :
    (∀ w', r = .ok w' → w' = w ∧ e' = e) ∧ ∀ q, r = .error q → e'.env.tbl p = w.tbl := by
  unfold Part.act at h
  cases hv : x.view with
  | none => rw [hv] at h; injection h with h; exact liveFlush_stuck hfk h hb
  | some sel =>
    rw [hv] at h
    simp only [] at h
    refine ⟨fun w' hw => ?_, (view_ends (steps_true (S := S)) h).2.2⟩
    subst hw
    have hne := doFlush_poisoned cfg x.boom n p fk hfk x.ev false false sel { e with env := e.env.put p w.tbl } hb
    rcases view_cases cfg x.boom n p w x.ev sel e with ⟨e1, c, h1, h2⟩ | ⟨e1, q, h1, h2, h3⟩ | ⟨e1, q, h1, h2, h3, h4⟩
    · rw [h1] at hne; exact absurd rfl (hne c)
    · rw [h3] at h; injection h with h; injection h with a b; cases b
    · rw [h4] at h; cases h

variable [LS : ∀ t, LawfulSchema (S t)]

theorem parts_stuck {p : T} (hk : (S p).kind = .consistent) {fk : FK S} (hfk : IsFK cfg p fk) {parts : List (Part S p)}
    (hpp : ∀ x ∈ parts, ∀ o ∈ x.ops, o.Allowed (S p)) (hww : ∀ x ∈ parts, ∀ o ∈ x.ops, o.Whole) {w : W (S p)} {e e' : PEnv S} {r : R (W (S p))}
    (h : Part.runs key cfg n p parts w e = some (e', r)) (hb : e.bad fk.child = true) (hov : r ≠ .error .idxOverflow)
    (hw : Reach (key p) true w.tbl) :
    (∀ w', r = .ok w' → Reach (key p) true w'.tbl ∧ ∀ i, w.tbl.contains i = true → w'.tbl.contains i = true) ∧
    ∀ q, r = .error q → ∀ i, w.tbl.contains i = true → (e'.env.tbl p).contains i = true := by
  induction parts generalizing w e with
  | nil =>
    rw [Part.runs] at h; injection h with h; injection h with a b; subst a; subst b
    exact ⟨fun w' hx => by injection hx with hx; subst hx; exact ⟨hw, fun _ hi => hi⟩, fun q hq => by cases hq⟩
  | cons x xs ih =>
    rw [Part.runs] at h
    cases hu : w.use (key p) x.ops with
    | aborted q => rw [hu] at h; cases h
    | unwound q y =>
      rw [hu] at h
      injection h with h; injection h with a b; subst a; subst b
      refine ⟨fun w' hx => (by cases hx), fun q' hq i hi => ?_⟩
      show (Function.update e.env.tbl p y p).contains i = true
      obtain ⟨L, hL⟩ := hw.wf
      rw [Function.update_self, use_unwound hk hL x.ops (hpp x (by simp)) hu (by rintro rfl; exact hov rfl) i]
      exact hi
    | held w1 =>
      rw [hu] at h
      simp only [] at h
      rcases hf : x.act cfg n p w1 e with _ | ⟨e1, c⟩
      · rw [hf] at h; cases h
      rw [hf] at h
      obtain ⟨s1, s2⟩ := act_stuck hfk hf hb
      have hr1 : Reach (key p) true w1.tbl :=
        use_carries (key := key p) (P := fun a => Reach (key p) true a)
          (fun o a a' ha hal hc hrun => Reach.step ha hal (fun _ hcl => absurd hcl (by rw [(hc hk).1]; simp)) hrun)
          x.ops (hpp x (by simp)) (hww x (by simp)) hu hw
      have hi1 : ∀ i, w.tbl.contains i = true → w1.tbl.contains i = true := fun i hi =>
        (use_carries (key := key p) (P := fun a => Reach (key p) true a ∧ a.contains i = true)
          (fun o a a' ha hal hc hrun => ⟨Reach.step ha.1 hal (fun _ hcl => absurd hcl (by rw [(hc hk).1]; simp)) hrun,
            op_keeps ha.1 hk hal (hc hk).1 (hc hk).2 hrun i ha.2⟩)
          x.ops (hpp x (by simp)) (hww x (by simp)) hu ⟨hw, hi⟩).2
      cases c with
      | error q =>
        injection h with h; injection h with a b; subst a; subst b
        refine ⟨fun w' hx => (by cases hx), fun q' hq i hi => ?_⟩
        rw [s2 q rfl]; exact hi1 i hi
      | ok w2 =>
        simp only [] at h
        obtain ⟨rfl, rfl⟩ := s1 w2 rfl
        obtain ⟨a1, a2⟩ := ih (fun x hx => hpp x (by simp [hx])) (fun x hx => hww x (by simp [hx])) h hb hr1
        exact ⟨fun w' hx => ⟨(a1 w' hx).1, fun i hi => (a1 w' hx).2 i (hi1 i hi)⟩, fun q hq i hi => a2 q hq i (hi1 i hi)⟩

/-- A session on `p` of that kind. -/
theorem deed_stuck {p : T} (hk : (S p).kind = .consistent) (hnd : ∀ t, ¬ DependsOn cfg p t) {fk : FK S} (hfk : IsFK cfg p fk) {d : Deed S}
    (hpp : d.Possible) (hww : d.Whole) {e e' : PEnv S} {r : R Unit} (h : d.run key cfg n e = some (e', r)) (hb : e.bad fk.child = true)
    (hov : r ≠ .error .idxOverflow) (hr : e.bad p = false → Reach (key p) true (e.env.tbl p)) :
    (e'.bad p = false → Reach (key p) true (e'.env.tbl p)) ∧ ∀ i, (e.env.tbl p).contains i = true → (e'.env.tbl p).contains i = true := by
  by_cases hb0 : e.bad p = true
  · refine ⟨fun hx => ?_, fun i hi => ?_⟩
    · rw [(deed_ends h).worse p hb0] at hx; cases hx
    · rw [(deed_ends h).frozen p hb0]; exact hi
  have hb0 : e.bad p = false := by simpa using hb0
  by_cases hab : p = d.about
  · cases d with
    | tell t sel ev boom =>
      rw [Deed.run] at h; injection h with h
      have := ((PrMisses.peek (s := p) t).andThen fun _ => (doFlush_misses cfg boom n t (hnd t) ev false false sel).andThen fun _ => PrMisses.ret ()) e
      rw [h] at this
      rw [this.1]
      exact ⟨fun _ => hr hb0, fun _ hi => hi⟩
    | write t parts ops ev boom =>
      replace hab : p = t := hab
      subst hab
      rcases write_cases h with ⟨rfl, -⟩ | ⟨-, -, h⟩
      · exact ⟨fun _ => hr hb0, fun _ hi => hi⟩
      · rcases h with ⟨q, hp, rfl⟩ | ⟨e1, w, hp, h⟩
        · obtain ⟨a, -, -⟩ := parts_ends (steps_true (S := S)) hp
          obtain ⟨-, a2⟩ := parts_stuck hk hfk hpp.1 hww.1 hp hb (by rintro hx; injection hx with hx; subst hx; exact hov rfl) (hr hb0)
          refine ⟨fun hx => ?_, fun i hi => a2 q rfl i hi⟩
          rw [(a.gone q rfl).2.1] at hx; cases hx
        · obtain ⟨a, -, -⟩ := parts_ends (steps_true (S := S)) hp
          obtain ⟨a1, -⟩ := parts_stuck hk hfk hpp.1 hww.1 hp hb (by intro hx; cases hx) (hr hb0)
          obtain ⟨hrw, hiw⟩ := a1 w rfl
          rcases h with ⟨w', hu, hf⟩ | ⟨q, x, hu, rfl, rfl⟩
          · have := (flush_stuck cfg boom n p (hnd p) fk hfk w' ev e1 (a.worse _ hb)).1
            rw [hf] at this
            simp only [] at this
            rw [this]
            refine ⟨fun _ => ?_, fun i hi => ?_⟩
            · exact use_carries (key := key p) (P := fun a => Reach (key p) true a)
                (fun o a a' ha hal hc hrun => Reach.step ha hal (fun _ hcl => absurd hcl (by rw [(hc hk).1]; simp)) hrun) ops hpp.2 hww.2 hu hrw
            · exact (use_carries (key := key p) (P := fun a => Reach (key p) true a ∧ a.contains i = true)
                (fun o a a' ha hal hc hrun => ⟨Reach.step ha.1 hal (fun _ hcl => absurd hcl (by rw [(hc hk).1]; simp)) hrun,
                  op_keeps ha.1 hk hal (hc hk).1 (hc hk).2 hrun i ha.2⟩) ops hpp.2 hww.2 hu ⟨hrw, hiw i hi⟩).2
          · refine ⟨fun hx => ?_, fun i hi => ?_⟩
            · rw [show (e1.dropped p x).bad p = true from Function.update_self ..] at hx; cases hx
            · show (Function.update e1.env.tbl p x p).contains i = true
              obtain ⟨L, hL⟩ := hrw.wf
              rw [Function.update_self, use_unwound hk hL ops hpp.2 hu (by rintro rfl; exact hov rfl) i]
              exact hiw i hi
  · have hm := deed_misses hab (hnd _) h
    rw [hm.1]
    exact ⟨fun _ => hr hb0, fun _ hi => hi⟩

end
end V11
