import Verif.Props.Cascade
import Verif.Lemmas.Grow

/-!
# Referential integrity in every history: C30

`Integrity` is in `Spec/Cascade.lean`; `History`, `UStep` and `Safe` are in `Spec/History.lean`.
-/

set_option linter.unusedSimpArgs false
set_option linter.unusedSectionVars false
set_option linter.unusedVariables false

namespace V11
variable {T : Type} [DecidableEq T] {S : T → Schema} [LS : ∀ t, LawfulSchema (S t)]
variable {K : Type} [LinearOrder K] {key : (t : T) → Row (S t) → K} {cfg : Cfg S} {rank : T → Nat}

theorem reach_contains {S : Schema} [LS : LawfulSchema S] {key : Row S → K} {c : Bool} {t : Tbl S} (h : Reach key c t) (i : Nat) :
    t.contains i = true ↔ ∃ r, t.view i = some r := by
  obtain ⟨L, d, ha⟩ := h.aligned
  unfold Tbl.view
  constructor
  · intro hc
    rw [if_pos hc]
    rw [ha.contains_eq] at hc
    simp only [Bool.and_eq_true, decide_eq_true_eq] at hc
    rw [ha.rep.rowAt hc.1]
    exact ⟨_, rfl⟩
  · rintro ⟨r, hr⟩
    by_contra hc
    rw [if_neg hc] at hr; cases hr

theorem integrity_iff (u : (t : T) → Tbl (S t)) :
    Integrity cfg u ↔ ∀ t i r, (u t).view i = some r → RefsLive cfg u r := by
  constructor
  · intro h t i r hv p fk k hfk ⟨e, hk⟩
    subst e; subst hk
    exact h p fk i r hfk hv
  · intro h p fk i r hfk hv
    exact h fk.child i r hv p fk _ hfk ⟨rfl, rfl⟩

/-- What holds of a table during a session. -/
structure During (cfg : Cfg S) (key : (t : T) → Row (S t) → K) (u : (t : T) → Tbl (S t)) (t : T) (x : Tbl (S t)) : Prop where
  reach : Reach (key t) true x
  refs : ∀ i r, x.view i = some r → RefsLive cfg u r
  live : (S t).kind = .consistent → ∀ i, (u t).contains i = true → x.contains i = true
  order : ∀ p fk, IsFK cfg p fk → fk.bySort = true → fk.child = t → ∀ L, Holds x L → SortedBy (key t) L

theorem toOp_allowed {S : Schema} {op : LOp S} {k : Kind} {o : TOp S} (h : op.toOp k = some o) (ha : op.Allowed k) : o.Allowed k := by
  cases op <;> simp only [LOp.toOp] at h
  all_goals first
    | (injection h with h; subst h; exact ha)
    | cases h
    | skip
  · split at h
    · injection h with h; subst h; assumption
    · cases h
  · split at h
    · injection h with h; subst h; trivial
    · cases h

theorem During.step (hst : Standard cfg) (hsr : SortsByRef cfg key) {u : (t : T) → Tbl (S t)} {t : T} {w w' : W (S t)}
    (h : During cfg key u t w.tbl) {op : LOp (S t)} (ha : op.Allowed (S t).kind) (hs : Safe cfg key u t op)
    (hr : w.step (key t) op = .ok w') : During cfg key u t w'.tbl := by
  have hstep := step_tbl hr
  cases e : op.toOp (S t).kind with
  | none =>
    rw [e] at hstep
    simp only [] at hstep
    rw [hstep]; exact h
  | some o =>
    rw [e] at hstep
    simp only [] at hstep
    have hao := toOp_allowed e ha
    have hclr : o.clears = true → (S t).kind ≠ .consistent := by
      intro hc hk
      rw [hk] at e
      cases op <;> simp only [LOp.toOp] at e <;> first | (injection e with e; subst e; cases hc) | cases e | simp at e
    have hreach : Reach (key t) true w'.tbl := by
      refine h.reach.step hao (fun _ hc i hi => ?_) hstep
      unfold Tbl.contains
      rw [if_neg (hclr hc)]; simpa using hi
    by_cases hk : (S t).kind = .consistent ∨ (S t).kind = .sorted
    · refine ⟨hreach, ?_, ?_, ?_⟩
      · intro i r hv
        rcases op_rows h.reach hk hao hstep i r hv with ⟨i', hi'⟩ | hn | ⟨j, v, r0, rfl, h0, rfl⟩
        · exact h.refs i' r hi'
        · cases op <;> simp only [LOp.toOp] at e
          case push row =>
            injection e with e; subst e
            simp only [TOp.newRows, List.mem_singleton] at hn
            subst hn; exact hs
          case pushArray rows => injection e with e; subst e; exact hs r hn
          case merge rows => injection e with e; subst e; exact hs.1 r hn
          all_goals first
            | (injection e with e; subst e; cases hn)
            | cases e
            | (split at e
               · injection e with e; subst e; cases hn
               · cases e)
        · cases op <;> simp only [LOp.toOp] at e
          case set j' i' v' =>
            injection e with e; injection e with e1 e2 e3; subst e1 e2
            have e3 := eq_of_heq e3; subst e3
            intro p fk k hfk hrf
            exact h.refs i' r0 h0 p fk k hfk ((hs p fk hfk r0 k).1 hrf)
          all_goals first
            | (injection e with e; cases e; done)
            | cases e
            | (split at e
               · injection e with e; cases e
               · cases e)
      · intro hc i hi
        have hnr : ∀ sel, o ≠ .remove sel := by
          rintro sel rfl
          cases op <;> simp only [LOp.toOp] at e
          all_goals first
            | (injection e with e; cases e; done)
            | cases e
            | (split at e
               · injection e with e; cases e
               · cases e)
        refine op_keeps h.reach hc hao ?_ hnr hstep i (h.live hc i hi)
        cases hcl : o.clears with
        | false => rfl
        | true => exact absurd hc (hclr hcl)
      · intro p fk hfk hb he L hL
        subst he
        have hs' := hst.sorted p fk hfk hb
        obtain ⟨L0, hL0, -, -⟩ := h.reach.holds (sorted_ne hs')
        have hko : KeepsOrder (key fk.child) o := by
          cases op <;> simp only [LOp.toOp] at e
          case set j' i' v' =>
            injection e with e; subst e
            intro r
            have := (hs p fk hfk r (fk.ref r)).2 ⟨rfl, rfl⟩
            obtain ⟨e', h'⟩ := this
            have h' : fk.ref (Function.update r j' v') = fk.ref r := h'
            exact le_antisymm ((hsr p fk hfk hb _ _).2 (by rw [h'])) ((hsr p fk hfk hb _ _).2 (by rw [h']))
          case merge rows => injection e with e; subst e; exact hs.2
          all_goals first
            | (injection e with e; subst e; trivial)
            | cases e
            | (split at e
               · injection e with e; subst e; trivial
               · cases e)
        obtain ⟨L', g1, g2⟩ := sorted_step hs' h.reach.weaken hL0 (h.order p fk hfk hb rfl L0 hL0) o hao hko hstep
        rw [hL.unique g1]; exact g2
    · have hno : ∀ p fk, IsFK cfg p fk → fk.child ≠ t := by
        rintro p fk hfk rfl
        exact hk (hst.child p fk hfk)
      refine ⟨hreach, ?_, fun hc => absurd (Or.inl hc) hk, fun p fk hfk _ he => absurd he (hno p fk hfk)⟩
      intro i r _ p fk k hfk ⟨e', _⟩
      exact absurd e'.symm (hno p fk hfk)

theorem During.steps (hst : Standard cfg) (hsr : SortsByRef cfg key) {u : (t : T) → Tbl (S t)} {t : T} {w w' : W (S t)}
    (h : During cfg key u t w.tbl) {ops : List (LOp (S t))} (ha : ∀ op ∈ ops, op.Allowed (S t).kind)
    (hs : ∀ op ∈ ops, Safe cfg key u t op) (hr : w.steps (key t) ops = .ok w') : During cfg key u t w'.tbl := by
  unfold W.steps at hr
  induction ops generalizing w with
  | nil => injection hr with hr; subst hr; exact h
  | cons op ops ih =>
    rw [List.foldlM_cons] at hr
    cases e : w.step (key t) op with
    | error p => rw [e] at hr; cases hr
    | ok w1 =>
      rw [e, okBind] at hr
      exact ih (h.step hst hsr (ha op (by simp)) (hs op (by simp)) e) (fun o ho => ha o (by simp [ho]))
        (fun o ho => hs o (by simp [ho])) hr

theorem sortedBy_iff (hsr : SortsByRef cfg key) {p : T} {fk : FK S} (hfk : IsFK cfg p fk) (hb : fk.bySort = true)
    (L : List (Row (S fk.child))) : SortedBy (key fk.child) L ↔ SortedBy fk.ref L := by
  unfold SortedBy
  constructor
  · intro h; exact h.imp (fun {a b} hab => (hsr p fk hfk hb a b).1 hab)
  · intro h; exact h.imp (fun {a b} hab => (hsr p fk hfk hb a b).2 hab)

/-- What is kept along a history. -/
structure Sound (key : (t : T) → Row (S t) → K) (cfg : Cfg S) (env : Env S) : Prop where
  unlocked : Unlocked env
  ready : Ready key cfg env.tbl
  integrity : Integrity cfg env.tbl

theorem session_inv {n : Nat} {t : T} {ops : List (LOp (S t))} {ev : Event} {env env' : Env S} (hu : Unlocked env)
    (h : session cfg n key t ops ev env = .ok env') :
    ∃ w env1, (W.lock (env.tbl t)).steps (key t) ops = .ok w ∧ Holding env1 t ∧ env1.tbl = env.tbl ∧
      flush cfg n t w ev env1 = .ok env' := by
  obtain ⟨env1, a1, a2, a3, a4⟩ := unlocked_lock hu t
  unfold session at h
  rw [a1, okBind] at h
  simp only [] at h
  cases e : (W.lock (env.tbl t)).steps (key t) ops with
  | error p => rw [e] at h; cases h
  | ok w => rw [e, okBind] at h; exact ⟨w, env1, rfl, a2, a3, h⟩

theorem flush_interleaved {n : Nat} {t : T} {w : W (S t)} {ev : Event} {env env' : Env S} (h : flush cfg n t w ev env = .ok env') :
    env' = env.unlock t w.tbl ∧ w.changes.isEmpty = true ∨ (w.pushed && w.delete) = false := by
  unfold flush flushWith at h
  by_cases he : w.changes.isEmpty = true
  · rw [if_pos he] at h; injection h with h; exact Or.inl ⟨h.symm, he⟩
  · rw [if_neg he] at h
    right
    by_contra hc
    simp only [Bool.not_eq_false] at hc
    cases n with
    | zero => simp [doFlush] at h
    | succ n => simp only [doFlush, hc, Bool.true_or, if_true] at h; cases h

theorem Sound.grow (hst : Standard cfg) (hac : Acyclic cfg rank) (hsr : SortsByRef cfg key) {n : Nat} {env env' : Env S}
    (h : Sound key cfg env) {t : T} (hn : rank t < n) {ops : List (LOp (S t))} {ev : Event} (hrem : ev.isRemoval = false)
    (hh : cfg.handlers[ev.id]? = some .null) (ha : ∀ op ∈ ops, op.Allowed (S t).kind)
    (hs : ∀ op ∈ ops, Safe cfg key env.tbl t op)
    (hroom : ∀ w, (W.lock (env.tbl t)).steps (key t) ops = .ok w → w.tbl.len ≤ (S t).max)
    (hrun : session cfg n key t ops ev env = .ok env') : Sound key cfg env' := by
  obtain ⟨w, env1, b1, b2, b3, b4⟩ := session_inv h.unlocked hrun
  have hd : During cfg key env.tbl t (W.lock (env.tbl t)).tbl := by
    refine ⟨h.ready.reach t, ?_, fun _ _ hi => hi, ?_⟩
    · exact (integrity_iff env.tbl).1 h.integrity t
    · intro p fk hfk hb he L hL
      subst he
      exact (sortedBy_iff hsr hfk hb L).2 (h.ready.inOrder p fk hfk hb L hL)
  have hd' := hd.steps hst hsr ha hs b1
  have hrd : Ready key cfg (Function.update env1.tbl t w.tbl) := by
    rw [b3]
    refine ⟨?_, ?_, ?_⟩
    · intro q
      by_cases e : q = t
      · subst e; simpa using hd'.reach
      · rw [Function.update_of_ne e]; exact h.ready.reach q
    · intro q
      by_cases e : q = t
      · subst e; simpa using hroom w b1
      · rw [Function.update_of_ne e]; exact h.ready.room q
    · intro p fk hfk hb L hL
      by_cases e : fk.child = t
      · subst e
        rw [Function.update_self] at hL
        exact (sortedBy_iff hsr hfk hb L).1 (hd'.order p fk hfk hb rfl L hL)
      · rw [Function.update_of_ne e] at hL
        exact h.ready.inOrder p fk hfk hb L hL
  have hint : Integrity cfg (Function.update env1.tbl t w.tbl) := by
    rw [b3]
    have hkeep : ∀ p fk k, IsFK cfg p fk → (env.tbl p).contains k = true → (Function.update env.tbl t w.tbl p).contains k = true := by
      intro p fk k hfk hc
      by_cases e : p = t
      · subst e
        rw [Function.update_self]
        exact hd'.live (hst.parent p (by intro h0; unfold IsFK at hfk; rw [h0] at hfk; cases hfk)) k hc
      · rw [Function.update_of_ne e]; exact hc
    intro p fk i r hfk hv
    apply hkeep p fk _ hfk
    by_cases e : fk.child = t
    · subst e
      rw [Function.update_self] at hv
      exact hd'.refs i r hv p fk _ hfk ⟨rfl, rfl⟩
    · rw [Function.update_of_ne e] at hv
      exact h.integrity p fk i r hfk hv
  rcases flush_interleaved b4 with ⟨e, -⟩ | hpd
  · subst e
    exact ⟨b2.unlock _, hrd, hint⟩
  · obtain ⟨env2, c1, c2, c3, -⟩ := flush_null (key := key) ⟨hst.sorted, hst.indexed⟩ hac hrem hh hn b2 hrd hpd
    rw [b4] at c1; injection c1 with c1; subst c1
    exact ⟨c2, by rw [c3]; exact hrd, by rw [c3]; exact hint⟩

/-- A cascade keeps referential integrity. -/
theorem Cascaded.integrity (hst : Standard cfg) {u u' : (t : T) → Tbl (S t)} {p : T} {rows : List Nat}
    (hrd : Ready key cfg u) (hrd' : Ready key cfg u') (hi : Integrity cfg u) (h : Cascaded cfg u u' p rows) : Integrity cfg u' := by
  intro q fk i r hfk hv
  have hq : (S q).kind = .consistent := hst.parent q (by intro h0; unfold IsFK at hfk; rw [h0] at hfk; cases hfk)
  have main : ∀ i0, (u fk.child).view i0 = some r → ¬ Doomed cfg u p rows q (fk.ref r) → (u' q).contains (fk.ref r) = true := by
    intro i0 hv0 hnd
    obtain ⟨x, hx⟩ := (reach_contains (hrd.reach q) _).1 (hi q fk i0 r hfk hv0)
    exact (reach_contains (hrd'.reach q) _).2 ⟨x, by rw [h.kept q hq _ hnd]; exact hx⟩
  rcases hst.child q fk hfk with hk | hk
  · have hnd : ¬ Doomed cfg u p rows fk.child i := by
      intro hd; rw [h.gone _ hk i hd] at hv; cases hv
    have hv0 := (h.kept _ hk i hnd) ▸ hv
    exact main i hv0 (fun hd => hnd (Doomed.step hd hfk hv0 ⟨rfl, rfl⟩))
  · obtain ⟨keep, k1, k2⟩ := h.sorted _ hk
    obtain ⟨L, hL, hw, hf⟩ := (hrd.reach fk.child).holds (sorted_ne hk)
    obtain ⟨hw', hf'⟩ := (hrd'.reach fk.child).wf_of_holds (sorted_ne hk) (k2 L hL)
    obtain ⟨h1, -⟩ := (hw'.view_iff i r).1 hv
    have hm := List.mem_of_getElem? h1
    rw [List.mem_filter] at hm
    obtain ⟨i0, hi0⟩ := List.mem_iff_getElem?.1 hm.1
    refine main i0 ((hw.view_iff i0 r).2 ⟨hi0, by simp [hf]⟩) ?_
    intro hd
    have := (k1 r).2 ⟨q, fk, _, hfk, ⟨rfl, rfl⟩, hd⟩
    rw [hm.2] at this; cases this

theorem steps_deletes_live {S : Schema} [LS : LawfulSchema S] {key : Row S → K} (hk : S.kind = .consistent) (rows : List Nat) {w w' : W S}
    (h : w.steps key (rows.map .delete) = .ok w') : ∀ i ∈ rows, w.tbl.contains i = true := by
  unfold W.steps at h
  induction rows generalizing w with
  | nil => simp
  | cons i rows ih =>
    rw [List.map_cons, List.foldlM_cons] at h
    cases e : w.step key (.delete i) with
    | error p => rw [e] at h; cases h
    | ok w1 =>
      rw [e, okBind] at h
      have hd : w.deleteRow i = .ok w1 := e
      obtain ⟨d1, -, -, d4⟩ := C04_delete_defers hk w w1 i hd
      intro k hk'
      rcases List.mem_cons.1 hk' with rfl | hk'
      · exact d4
      · rw [← d1]; exact ih h k hk'

theorem dependsOn_trans {p t : T} {fk : FK S} (h : DependsOn cfg p t) (hfk : IsFK cfg p fk) : DependsOn cfg fk.child t := by
  induction h with
  | direct h => exact .step h (.direct hfk)
  | step h _ ih => exact .step h (ih hfk)

theorem Sound.step (hst : Standard cfg) (hac : Acyclic cfg rank) (hsr : SortsByRef cfg key) {n : Nat} (hn : ∀ t, rank t < n)
    {env env' : Env S} (h : Sound key cfg env) (hs : UStep cfg n key env env') : Sound key cfg env' := by
  cases hs with
  | grow t ops ev removes handler allowed safe room run =>
    exact h.grow hst hac hsr (hn t) removes handler allowed safe room run
  | delete t kind rows ev removes creates handler tame run =>
    obtain ⟨w, env1, b1, -⟩ := session_inv h.unlocked run
    have hl := steps_deletes_live kind rows b1
    obtain ⟨env2, c1, c2, c3, c4⟩ := C29_cascade_exact hst hac removes creates handler (hn t) kind h.unlocked h.ready rows hl tame
    rw [run] at c1; injection c1 with c1; subst c1
    exact ⟨c2, c3, c4.integrity hst h.ready c3 h.integrity⟩
  | clear t kind ev removes creates handler full run =>
    obtain ⟨env1, a1, a2, a3, a4⟩ := unlocked_lock h.unlocked t
    let w : W (S t) := { W.lock (env.tbl t) with delete := true, changes := .all }
    have hs : (W.lock (env.tbl t)).steps (key t) [.clear] = .ok w := by
      unfold W.steps
      rw [List.foldlM_cons]
      have : (W.lock (env.tbl t)).step (key t) .clear = .ok w := by
        simp only [W.step, W.clear]; rw [kind]
      rw [this, okBind]; rfl
    have hup : Function.update env1.tbl t w.tbl = env.tbl := by
      rw [a3]; show Function.update env.tbl t (env.tbl t) = _; rw [Function.update_eq_self]
    obtain ⟨env2, env3, b1, b2, b3, b4, b5, -, -⟩ := flush_clear (key := key) (w := w) hst hac creates removes handler (hn t) a2
      (by rw [hup]; exact fun t => (h.ready.reach t).weaken) rfl rfl
    have he : env3 = env' := by
      unfold session at run
      rw [a1, okBind] at run
      simp only [] at run
      rw [hs, okBind, b1] at run
      injection run
    subst he
    rw [hup] at b3
    have hsame : ∀ q, ¬ AtOrBelow cfg q t → env3.tbl q = env.tbl q := fun q hq => by rw [b5 q hq, a3]
    refine ⟨b2, ⟨?_, ?_, ?_⟩, ?_⟩
    · intro q
      by_cases hq : AtOrBelow cfg q t
      · exact ((b3 q).2.1 (h.ready.reach q) (full q hq)).1
      · rw [hsame q hq]; exact h.ready.reach q
    · intro q
      by_cases hq : AtOrBelow cfg q t
      · rw [b4 q hq]; exact Nat.zero_le _
      · rw [hsame q hq]; exact h.ready.room q
    · intro p fk hfk hb L hL
      by_cases hq : AtOrBelow cfg fk.child t
      · have : L = [] := by
          have := hL.1; rw [b4 _ hq] at this; exact List.length_eq_zero_iff.1 this.symm
        subst this; exact List.Pairwise.nil
      · rw [hsame _ hq] at hL; exact h.ready.inOrder p fk hfk hb L hL
    · intro p fk i r hfk hv
      by_cases hq : AtOrBelow cfg fk.child t
      · rw [(C32_empty_shows_nothing _ (b4 _ hq) i).2] at hv; cases hv
      · have hp : ¬ AtOrBelow cfg p t := by
          rintro (e | hd)
          · subst e; exact hq (Or.inr (DependsOn.direct hfk))
          · exact hq (Or.inr (dependsOn_trans hd hfk))
        rw [hsame _ hq] at hv
        rw [hsame _ hp]
        exact h.integrity p fk i r hfk hv

theorem fresh_sound {env : Env S} (h : Fresh env) : Sound key cfg env := by
  have hv : ∀ t i, (env.tbl t).view i = none := fun t i => by
    rw [h.1 t]
    exact (C32_empty_shows_nothing _ (by have := (WF.new (S := S t)).len; simpa using this) i).2
  refine ⟨h.2, ⟨fun t => by rw [h.1 t]; exact Reach.new, ?_, ?_⟩, ?_⟩
  · intro t; rw [h.1 t, (WF.new (S := S t)).len]; exact Nat.zero_le _
  · intro p fk hfk hb L hL
    have : L = [] := by
      have := hL.1
      rw [h.1, (WF.new (S := S fk.child)).len] at this
      exact List.length_eq_zero_iff.1 this.symm
    subst this; exact List.Pairwise.nil
  · intro p fk i r hfk hvw; rw [hv] at hvw; cases hvw

/-- C30: start from a fresh universe (or any state with referential integrity) and run any number of
sessions, each of which either adds rows that reference live rows and edits non-reference columns, or deletes
rows, or clears a table, and flushes. After every session every live row references live rows, no lock is
held, and the theorems about cascades apply again. -/
theorem C30_integrity_always (hst : Standard cfg) (hac : Acyclic cfg rank) (hsr : SortsByRef cfg key) {n : Nat}
    (hn : ∀ t, rank t < n) {env env' : Env S} (hu : Unlocked env) (hrd : Ready key cfg env.tbl) (hi : Integrity cfg env.tbl)
    (h : History cfg n key env env') : Unlocked env' ∧ Ready key cfg env'.tbl ∧ Integrity cfg env'.tbl := by
  have : Sound key cfg env' := by
    induction h with
    | nil => exact ⟨hu, hrd, hi⟩
    | cons _ hs ih => exact ih.step hst hac hsr hn hs
  exact ⟨this.unlocked, this.ready, this.integrity⟩

theorem C30_integrity_from_fresh (hst : Standard cfg) (hac : Acyclic cfg rank) (hsr : SortsByRef cfg key) {n : Nat}
    (hn : ∀ t, rank t < n) {env env' : Env S} (hf : Fresh env) (h : History cfg n key env env') : Integrity cfg env'.tbl := by
  have hs : Sound key cfg env := fresh_sound hf
  exact (C30_integrity_always hst hac hsr hn hs.unlocked hs.ready hs.integrity h).2.2

theorem uniSorts : SortsByRef uniCfg uniKey := by
  intro p fk h hb r r'
  rcases uniIsFK.1 h with ⟨rfl, rfl⟩ | ⟨rfl, rfl⟩
  · cases hb
  · exact Iff.rfl

/-- The demo universe with nothing in it. -/
def uniFresh : Env UniS := { tbl := fun _ => Tbl.new, reads := fun _ => 0, writer := fun _ => false, log := [] }

def getEnv (r : R (Env UniS)) : Env UniS := match r with | .ok e => e | .error _ => uniFresh

def uniE1 : Env UniS := getEnv (session uniCfg 3 uniKey 0 [.push (uniRow 0 10 0), .push (uniRow 0 11 0)] evCreate uniFresh)
def uniE2 : Env UniS := getEnv (session uniCfg 3 uniKey 1 [.push (uniRow 1 1 20), .push (uniRow 1 0 21)] evCreate uniE1)
def uniE3 : Env UniS := getEnv (session uniCfg 3 uniKey 2 [.merge [uniRow 2 0 30, uniRow 2 1 31]] evCreate uniE2)
def uniE4 : Env UniS := getEnv (session uniCfg 3 uniKey 0 ([0].map .delete) evDelete uniE3)

/-- C30 applies, from scratch: two parents, a child of each, a grandchild of each; then parent 0 is deleted
and takes its descendants along. -/
theorem uniHistory : Fresh uniFresh ∧ History uniCfg 3 uniKey uniFresh uniE4 ∧
    uniDump (.ok uniE3) = some [[some (10, 0), some (11, 0), none, none], [some (1, 20), some (0, 21), none, none],
      [some (0, 30), some (1, 31), none, none, none]] ∧
    uniDump (.ok uniE4) = some [[none, some (11, 0), none, none], [some (1, 20), none, none, none], [some (0, 30), none, none, none, none]] := by
  have len2 : ∀ {t : Fin 3} {env : Env UniS} {ops : List (LOp (UniS t))},
      (match (W.lock (env.tbl t)).steps (uniKey t) ops with | .ok w => decide (w.tbl.len ≤ 255) | .error _ => true) = true →
      ∀ w, (W.lock (env.tbl t)).steps (uniKey t) ops = .ok w → w.tbl.len ≤ 255 := by
    intro t env ops h w hw; rw [hw] at h; simpa using h
  have s1 : UStep uniCfg 3 uniKey uniFresh uniE1 := by
    refine .grow 0 [.push (uniRow 0 10 0), .push (uniRow 0 11 0)] evCreate rfl rfl (by simp [LOp.Allowed]) ?_ (len2 (by decide)) rfl
    intro op hop
    simp only [List.mem_cons, List.not_mem_nil, or_false] at hop
    rcases hop with rfl | rfl <;>
    · rintro p fk k hfk ⟨e, hk⟩
      rcases uniIsFK.1 hfk with ⟨rfl, rfl⟩ | ⟨rfl, rfl⟩ <;> cases e
  have s2 : UStep uniCfg 3 uniKey uniE1 uniE2 := by
    refine .grow 1 [.push (uniRow 1 1 20), .push (uniRow 1 0 21)] evCreate rfl rfl (by simp [LOp.Allowed]) ?_ (len2 (by decide)) rfl
    intro op hop
    simp only [List.mem_cons, List.not_mem_nil, or_false] at hop
    rcases hop with rfl | rfl <;>
    · rintro p fk k hfk ⟨e, hk⟩
      rcases uniIsFK.1 hfk with ⟨rfl, rfl⟩ | ⟨rfl, rfl⟩
      · subst hk; first
          | (show (uniE1.tbl 0).contains (uniFK01.ref (uniRow 1 1 20)) = true; decide)
          | (show (uniE1.tbl 0).contains (uniFK01.ref (uniRow 1 0 21)) = true; decide)
      · cases e
  have s3 : UStep uniCfg 3 uniKey uniE2 uniE3 := by
    refine .grow 2 [.merge [uniRow 2 0 30, uniRow 2 1 31]] evCreate rfl rfl (by simp [LOp.Allowed]) ?_ (len2 (by decide)) rfl
    intro op hop
    simp only [List.mem_cons, List.not_mem_nil, or_false] at hop
    subst hop
    refine ⟨?_, ?_⟩
    · intro r hr
      simp only [List.mem_cons, List.not_mem_nil, or_false] at hr
      rcases hr with rfl | rfl <;>
      · rintro p fk k hfk ⟨e, hk⟩
        rcases uniIsFK.1 hfk with ⟨rfl, rfl⟩ | ⟨rfl, rfl⟩
        · cases e
        · subst hk; first
            | (show (uniE2.tbl 1).contains (uniFK12.ref (uniRow 2 0 30)) = true; decide)
            | (show (uniE2.tbl 1).contains (uniFK12.ref (uniRow 2 1 31)) = true; decide)
    · simp [SortedBy]; decide
  have s4 : UStep uniCfg 3 uniKey uniE3 uniE4 :=
    .delete 0 rfl [0] evDelete rfl rfl rfl (fun _ => by decide) rfl
  exact ⟨⟨fun _ => rfl, fun _ => rfl, fun _ => rfl⟩, .cons (.cons (.cons (.cons (.nil _) s1) s2) s3) s4, by decide, by decide⟩

example : Integrity uniCfg uniE4.tbl :=
  C30_integrity_from_fresh uniStandard uniAcyclic uniSorts (rank := uniRank) (n := 3) (by decide) uniHistory.1 uniHistory.2.1

/-- Integrity says something: a child that references a missing parent violates it. -/
example : ¬ Integrity uniCfg (getEnv (session uniCfg 3 uniKey 1 [.push (uniRow 1 5 20)] evCreate uniE1)).tbl := by
  intro h
  have h1 := h 0 uniFK01 0
  generalize hx : ((getEnv (session uniCfg 3 uniKey 1 [.push (uniRow 1 5 20)] evCreate uniE1)).tbl uniFK01.child).view 0 = x at h1
  have hv : x.map uniVals = some (5, 20) := by rw [← hx]; decide
  cases x with
  | none => cases hv
  | some r =>
    have h2 := h1 r (uniIsFK.2 (Or.inl ⟨rfl, rfl⟩)) rfl
    have h3 : uniFK01.ref r = 5 := by
      have : uniVals r = (5, 20) := by simpa using hv
      exact congrArg Prod.fst this
    rw [h3] at h2
    revert h2; decide

end V11
