import Verif.Lemmas.FlushRange
import Verif.Lemmas.Caught

/-!
# What a `live_flush` that panics leaves
-/

set_option linter.unusedSimpArgs false
set_option linter.unusedSectionVars false
set_option linter.unusedVariables false

namespace V11
variable {T : Type} [DecidableEq T] {S : T → Schema} [LS : ∀ t, LawfulSchema (S t)] [LV : ∀ t, LeavesSchema (S t)] {K : Type} [LinearOrder K]
  {key : (t : T) → Row (S t) → K} {cfg : Cfg S} {rank : T → Nat}

omit LS in
/-- Nobody but the holder changes a table whose write lock is held. -/
theorem doFlush_held (cfg : Cfg S) (boom : Boom S) (n : Nat) (t : T) (ev : Event) (pushed delete : Bool) (sel : Select (List Nat)) (e : PEnv S) {s : T}
    (h : e.env.writer s = true) : (gDoFlush cfg boom n t ev pushed delete sel e).1.env.tbl s = e.env.tbl s :=
  (PrEnds.doFlush steps_true cfg boom n t ev pushed delete sel e).frozen s (Or.inr h)

/-- The whole `live_flush` of a lock with marked rows. -/
theorem left_live (hse : Searchable cfg) (hpa : ParentsConsistent cfg) (boom : Boom S) (ev : Event) (n : Nat) (p : T)
    (hk : (S p).kind = .consistent) (w : W (S p)) (rows : List Nat) (hw : w.changes = .these rows) (e : PEnv S) (hl : e.env.writer p = true)
    (hwt : e.env.tbl p = w.tbl) (h : Ready key cfg e.env.tbl) :
    LeftBy key cfg p rows e.env.tbl (gLiveFlush cfg boom n p w ev e).1.env.tbl := by
  have hput : (e.env.put p w.tbl).tbl = e.env.tbl := by
    show Function.update e.env.tbl p w.tbl = _
    rw [← hwt]; exact Function.update_eq_self ..
  rcases hf : gLiveFlush cfg boom n p w ev e with ⟨e', r⟩
  rcases liveFlush_cases hf with ⟨hc, rfl, rfl⟩ | ⟨e1, c, hd, h'⟩
  · exact LeftBy.refl h
  · rw [hw] at hd
    obtain ⟨a1, a2⟩ := left_doFlush hse hpa boom ev n p w.pushed w.delete rows { e with env := e.env.put p w.tbl } (by
      show Ready key cfg (e.env.put p w.tbl).tbl
      rw [hput]; exact h)
    have hfz := doFlush_held cfg boom n p ev w.pushed w.delete (.these rows) { e with env := e.env.put p w.tbl } (s := p) hl
    rw [hd] at a1 a2 hfz
    simp only [hput] at a1 a2 hfz
    rw [hwt] at hfz
    have hrm : ∀ rows', rows'.Perm rows → LeftBy key cfg p rows e1.env.tbl (Function.update e1.env.tbl p (Cr.removeSel (.these rows') w.tbl).1) := by
      intro rows' hp
      obtain ⟨b1, b2, -⟩ := removePrefix a1.ready hse p hk rows'
      rw [hfz] at b1 b2
      refine ⟨b1, fun D hc hd => ⟨?_, ?_, ?_⟩⟩
      · intro t ht i
        by_cases et : t = p
        · subst et
          simp only [Function.update_self]
          rw [b2, hfz]
          by_cases hi : i ∈ rows'.takeWhile (· < w.tbl.len)
          · right; rw [if_pos hi]
            exact ⟨rfl, hd hk i (hp.mem_iff.1 (List.takeWhile_subset _ hi))⟩
          · left; rw [if_neg hi]
        · rw [Function.update_of_ne et]; exact Or.inl rfl
      · intro t ht
        have et : t ≠ p := by intro et; subst et; rw [hk] at ht; cases ht
        rw [Function.update_of_ne et]
        exact (Shrinks.refl (cfg := cfg) (D := D) _).sorted t ht
      · intro t ht ht'
        have et : t ≠ p := by intro et; subst et; exact ht hk
        rw [Function.update_of_ne et]
    have hback : Function.update e1.env.tbl p w.tbl = e1.env.tbl := by rw [← hfz]; exact Function.update_eq_self ..
    rcases h' with ⟨q, rfl, rfl, rfl⟩ | ⟨s, x, rfl, hx, rfl, rfl⟩ | ⟨s, x, q, rfl, hx, rfl, rfl⟩
    · show LeftBy key cfg p rows e.env.tbl (Function.update e1.env.tbl p w.tbl)
      rw [hback]; exact a1
    · show LeftBy key cfg p rows e.env.tbl (Function.update e1.env.tbl p x)
      rcases hx with rfl | ⟨-, hx⟩
      · rw [hback]; exact a1
      · obtain ⟨rows', rfl, hp⟩ := a2 s rfl
        have := hrm rows' hp
        rw [hx] at this
        exact a1.trans h this
    · show LeftBy key cfg p rows e.env.tbl (Function.update e1.env.tbl p x)
      obtain ⟨rows', rfl, hp⟩ := a2 s rfl
      have := hrm rows' hp
      rw [hx] at this
      exact a1.trans h this

/-- A `live_flush` that removes rows of which not all exist. -/
theorem live_range {ev : Event} (hst : Standard cfg) (hac : Acyclic cfg rank) (hc : ev.isCreation = false)
    (hr : ev.isRemoval = true) (hh : cfg.handlers[ev.id]? = some .delete) {n : Nat} {p : T} (hn : rank p < n)
    (hp : (S p).kind = .consistent) {w : W (S p)} {e : PEnv S} (hl : Holding e.env p) (hb : ∀ t, e.bad t = false) (hwt : e.env.tbl p = w.tbl)
    (hrd : Ready key cfg e.env.tbl) {rows : List Nat} (hw : w.changes = .these rows)
    (hpd : (w.pushed && w.delete) = false) (ht : Tame cfg rows) (hlt : ∃ i ∈ rows, w.tbl.len ≤ i) :
    ∃ (rows' : List Nat) (env' : Env S), rows'.Perm rows ∧
      gLiveFlush cfg (fun _ => none) n p w ev e = ({ env := env', bad := Function.update e.bad p true }, .error .assertRow) ∧
      Unlocked env' ∧ Ready key cfg env'.tbl ∧ DependantsGone cfg e.env.tbl env'.tbl p rows ∧
      (∀ i, (env'.tbl p).view i = if i ∈ rows'.takeWhile (· < w.tbl.len) then none else w.tbl.view i) := by
  have hput : (e.env.put p w.tbl).tbl = e.env.tbl := by
    show Function.update e.env.tbl p w.tbl = _
    rw [← hwt]; exact Function.update_eq_self ..
  obtain ⟨rows', env1, a1, a2, a3⟩ := doFlush_ok (key := key) hst hac hc hh n p hn w.pushed w.delete rows (e.env.put p w.tbl) hpd ht
    (by rw [hput]; exact hrd) (fun t htr => ⟨hl.1 t, by
      show e.env.writer t = false
      rw [hl.2 t]
      have : t ≠ p := by rintro rfl; omega
      simp [this]⟩)
  obtain ⟨-, -, new, -, b⟩ := (ties_doFlush cfg (fun _ => none) n p ev w.pushed w.delete (.these rows)
    { e with env := e.env.put p w.tbl } hb).ok _ _ a1
  rw [outcome_never (fun _ => rfl)] at b
  have hsame : env1.tbl p = w.tbl := by rw [a3.same p (le_refl _), hput, hwt]
  obtain ⟨c1, c2, c3⟩ := removePrefix a3.ready hst.searchable p hp rows'
  rw [hsame] at c1 c2 c3
  obtain ⟨i, hi, hge⟩ := hlt
  have hne : rows' ≠ [] := by
    intro e0; rw [e0] at a2
    have := a2.mem_iff.2 hi
    cases this
  rw [if_neg (by intro hx; have := hx i (a2.mem_iff.2 hi); omega)] at c3
  refine ⟨rows', env1.unlock p (Cr.removeSel (.these rows') w.tbl).1, a2, ?_, ?_, ?_, ?_, ?_⟩
  · unfold gLiveFlush
    rw [if_neg (by rw [hw]; simp only [Select.isEmpty]; intro hx; cases rows with | nil => cases hi | cons a l => simp at hx)]
    rw [hw, b]
    have he : (ev.isRemoval && !(Select.these rows').isEmpty) = true := by simp [hr, Select.isEmpty, hne]
    simp only [addBad, he, if_true]
    rcases ex : Cr.removeSel (.these rows') w.tbl with ⟨x, r⟩
    rw [ex] at c3
    simp only [] at c3
    subst c3
    simp only [ex]
  · refine ⟨fun t => by show env1.reads t = 0; rw [a3.reads]; exact hl.1 t, fun t => ?_⟩
    show Function.update env1.writer p false t = false
    by_cases htp : t = p
    · subst htp; exact Function.update_self ..
    · rw [Function.update_of_ne htp, a3.writer]
      show e.env.writer t = false
      rw [hl.2 t]; simp [htp]
  · exact c1
  · have := Post.dependants hst hac hp (by rw [hput]; exact hrd) a3 (Cr.removeSel (.these rows') w.tbl).1
    rw [hput] at this
    exact this
  · intro i
    show (Function.update env1.tbl p (Cr.removeSel (.these rows') w.tbl).1 p).view i = _
    rw [Function.update_self]
    exact c2 i

end V11
