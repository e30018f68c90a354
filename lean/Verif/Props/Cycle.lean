import Verif.Props.Cascade
import Verif.Lemmas.Cycle

/-!
# C31: what happens in graphs with cycles

`Props/Cascade` shows that with a cycle no flush returns. Here it is shown what happens instead: deleting rows waits for a
lock the thread holds itself, `clear` and creation events exhaust the stack.
-/

set_option linter.unusedSectionVars false
set_option linter.unusedVariables false

namespace V11
section
variable {T : Type} [DecidableEq T] {S : T → Schema} [LS : ∀ t, LawfulSchema (S t)]
variable {K : Type} [LinearOrder K] {key : (t : T) → Row (S t) → K} {cfg : Cfg S} {rank : T → Nat}

/-- The table, or one that depends on it, depends on itself. -/
def ReachesCycle (cfg : Cfg S) (p : T) : Prop := ∃ q, (q = p ∨ DependsOn cfg q p) ∧ DependsOn cfg q q

theorem path_reaches {p : T} (h : ReachesCycle cfg p) (m : Nat) : Path cfg m p := by
  obtain ⟨q, hq, hc⟩ := h
  have key : ∀ m r, (r = q ∨ DependsOn cfg q r) → Path cfg m r := by
    intro m
    induction m with
    | zero => intro r _; exact Path.nil
    | succ m ih =>
      intro r hr
      have hd : DependsOn cfg q r := by
        rcases hr with rfl | hr
        · exact hc
        · exact hr
      cases hd with
      | direct hfk => exact Path.step hfk (ih _ (Or.inl rfl))
      | step hfk hd => exact Path.step hfk (ih _ (Or.inr hd))
  refine key m p ?_
  rcases hq with rfl | hq
  · exact Or.inl rfl
  · exact Or.inr hq

/-- C31: if a table, or one that depends on it, depends on itself, then no flush of it that has anything to tell ever
returns — for every event, every handler, every state, every stack size, and even if no row matches. -/
theorem C31_cycle_below_never_returns (cfg : Cfg S) (p : T) (h : ReachesCycle cfg p) (n : Nat) (w : W (S p)) (ev : Event) (env : Env S)
    (hw : w.changes.isEmpty = false) : ∀ env', flush cfg n p w ev env ≠ .ok env' := by
  intro env' he
  unfold flush flushWith at he
  rw [if_neg (by simp [hw])] at he
  simp only [] at he
  cases e : doFlush cfg n p ev w.pushed w.delete w.changes (env.unlock p w.tbl) with
  | error q => rw [e] at he; cases he
  | ok r => exact C31_depth_needed cfg n p (path_reaches h n) ev w.pushed w.delete w.changes _ r e

/-- C31: with a cycle, deleting live rows and flushing with a removal event waits for ever for a lock the thread holds
itself, given a stack that has room for every table once. -/
theorem C31_cycle_deadlocks [Fintype T] {ev : Event} (hst : Standard cfg) (hr : ev.isRemoval = true) (hc : ev.isCreation = false)
    (hh : cfg.handlers[ev.id]? = some .delete) {n : Nat} (hn : Fintype.card T < n) {p : T} (hcy : ReachesCycle cfg p) {env : Env S}
    (hu : Unlocked env) (hrd : Ready key cfg env.tbl) (rows : List Nat) (hne : rows ≠ [])
    (hl : ∀ i ∈ rows, (env.tbl p).contains i = true) (ht : Tame cfg rows) :
    session cfg n key p (rows.map .delete) ev env = .error .deadlock := by
  have hp : (S p).kind = .consistent := by
    apply hst.parent
    obtain ⟨q, rfl | hq, hd⟩ := hcy
    · exact hd.tracked
    · exact hq.tracked
  obtain ⟨w, hs⟩ := steps_delete_ok (key := key p) hp (W.lock (env.tbl p)) rows hl
  have hfm : (rows.map (LOp.delete (S := S p))).filterMap LOp.mark = rows := by
    rw [List.filterMap_map]
    have : (LOp.mark ∘ (LOp.delete (S := S p))) = some := rfl
    rw [this, List.filterMap_some]
  obtain ⟨env1, a1, a2, a3, a4, a5, a6, a7⟩ := session_marks hp hu (by simp [LOp.mark]) hs
  rw [hfm] at a6
  rw [a7]
  have hup : Function.update env1.tbl p w.tbl = env.tbl := by rw [a2, a4, Function.update_eq_self]
  have hwe : w.changes.isEmpty = false := by
    rw [a6]
    cases rows with
    | nil => exact absurd rfl hne
    | cons => rfl
  have hu1 := a1.unlock w.tbl
  have hcard : (env1.unlock p w.tbl).free.card < n := lt_of_le_of_lt (Finset.card_le_univ _) hn
  rcases doFlushCyc (key := key) hst hc hh n p w.pushed w.delete rows (env1.unlock p w.tbl) (by simp [a5]) ht
      (by rw [unlock_tbl, hup]; exact hrd) hu1.2 hcard with ⟨rows', env', e1, -⟩ | e1
  · exact absurd e1 (C31_depth_needed cfg n p (path_reaches hcy n) ev w.pushed w.delete _ _ _)
  · unfold flush flushWith
    rw [if_neg (by simp [hwe])]
    simp only []
    rw [a6, e1]
    rfl

/-- C31: with a cycle, `clear()` and a removal flush recurses without end, whatever the stack: on the way down no lock is
held that it would wait for. -/
theorem C31_cycle_clear_overflows {ev : Event} (hst : Standard cfg) (hr : ev.isRemoval = true) (hc : ev.isCreation = false)
    (hh : cfg.handlers[ev.id]? = some .delete) (n : Nat) {p : T} (hcy : ReachesCycle cfg p) {env : Env S}
    (hu : Unlocked env) (hrd : ∀ t, Reach (key t) false (env.tbl t)) :
    session cfg n key p [.clear] ev env = .error .stackOverflow := by
  have hp : (S p).kind = .consistent := by
    apply hst.parent
    obtain ⟨q, rfl | hq, hd⟩ := hcy
    · exact hd.tracked
    · exact hq.tracked
  obtain ⟨env1, a1, a2, a3, a4⟩ := unlocked_lock hu p
  let w : W (S p) := { W.lock (env.tbl p) with delete := true, changes := .all }
  have hs : (W.lock (env.tbl p)).steps (key p) [.clear] = .ok w := by
    unfold W.steps
    rw [List.foldlM_cons]
    have : (W.lock (env.tbl p)).step (key p) .clear = .ok w := by
      simp only [W.step, W.clear]; rw [hp]
    rw [this, okBind]; rfl
  have hup : Function.update env1.tbl p w.tbl = env.tbl := by
    rw [a3]; show Function.update env.tbl p (env.tbl p) = _; rw [Function.update_eq_self]
  have hu1 := a2.unlock w.tbl
  have hret : ∀ n p pushed delete env r, doFlush cfg n p ev pushed delete .all env = .ok r → ¬ DependsOn cfg p p :=
    fun n p pushed delete env r h hd => C31_depth_needed cfg n p (path_cycle hd n) ev pushed delete .all env r h
  have key' : doFlush cfg n p ev w.pushed w.delete w.changes (env1.unlock p w.tbl) = .error .stackOverflow := by
    rcases doFlushAllCyc (key := key) hst hc hr hh hret n p w.pushed w.delete (env1.unlock p w.tbl) rfl
        (by rw [unlock_tbl, hup]; exact hrd) hu1.2 (fun t _ => hu1.1 t) with ⟨env', e1, -⟩ | e1
    · exact absurd e1 (C31_depth_needed cfg n p (path_reaches hcy n) ev w.pushed w.delete _ _ _)
    · exact e1
  unfold session
  rw [a1, okBind]
  simp only []
  rw [hs, okBind]
  unfold flush flushWith
  rw [if_neg (by simp [w, Select.isEmpty])]
  simp only []
  rw [key']
  rfl

/-- C31: with a cycle, an event whose handler does nothing recurses without end too, whatever was changed. -/
theorem C31_cycle_creation_overflows {ev : Event} (hse : Searchable cfg) (hr : ev.isRemoval = false)
    (hh : cfg.handlers[ev.id]? = some .null) (n : Nat) {p : T} (hcy : ReachesCycle cfg p) {w : W (S p)} {env : Env S} (hl : Holding env p)
    (hrd : Ready key cfg (Function.update env.tbl p w.tbl)) (hpd : (w.pushed && w.delete) = false) (hw : w.changes.isEmpty = false) :
    flush cfg n p w ev env = .error .stackOverflow := by
  have hu1 := hl.unlock w.tbl
  have key' : doFlush cfg n p ev w.pushed w.delete w.changes (env.unlock p w.tbl) = .error .stackOverflow := by
    rcases doFlushNullCyc (key := key) hse (by simp [hr]) hh n p w.pushed w.delete w.changes (env.unlock p w.tbl) hpd
        (by rw [unlock_tbl]; exact hrd) hu1.2 with ⟨sel', env', e1, -⟩ | e1
    · exact absurd e1 (C31_depth_needed cfg n p (path_reaches hcy n) ev w.pushed w.delete _ _ _)
    · exact e1
  unfold flush flushWith
  rw [if_neg (by simp [hw])]
  simp only []
  rw [key']
  rfl

end

/-! ### Two tables that reference each other, and one above them -/

/-- Column 0 references: table 0 references nothing, 1 and 2 reference 0 and each other. -/
@[reducible] def RingS (_ : Fin 3) : Schema := mkSchema treeCols 255 .consistent

def ringFK (c : Fin 3) : FK RingS := { child := c, col := 0, key := Equiv.refl Nat, bySort := false }

def ringCfg : Cfg RingS where
  trackers p := if p = 0 then [.auto (ringFK 1)] else if p = 1 then [.auto (ringFK 2)] else [.auto (ringFK 1)]
  handlers := [.panicking, .null, .delete]

def ringRow (a b : Nat) (t : Fin 3) : Row (RingS t) := fun j =>
  match j with
  | 0 => a
  | 1 => b

def ringKey (t : Fin 3) (r : Row (RingS t)) : Nat := r 0

def ringPush : R (Tbl (RingS 0)) := (TOp.push (ringRow 0 7 0)).run (ringKey 0) Tbl.new

/-- A single row, in table 0; nothing references it. -/
def ringEnv : Env RingS where
  tbl t := match ringPush with
    | .ok x => x
    | .error _ => Tbl.new
  reads _ := 0
  writer _ := false
  log := []

/-- C31 applies to table 0, which is on no cycle itself: deleting its row deadlocks; clearing it, and telling of its
creation, overflow. -/
example : ReachesCycle ringCfg 0 ∧ ¬ (ringFK 1).child = 0 ∧ ((ringEnv.tbl 0).contains 0 = true) ∧
    session ringCfg 4 ringKey 0 [.delete 0] evDelete ringEnv = .error .deadlock ∧
    session ringCfg 4 ringKey 0 [.clear] evDelete ringEnv = .error .stackOverflow ∧
    session ringCfg 4 ringKey 0 [.push (ringRow 0 8 0)] evCreate ringEnv = .error .stackOverflow := by
  have h01 : DependsOn ringCfg 1 0 := DependsOn.direct (fk := ringFK 1) (by simp [IsFK, ringCfg])
  have h12 : DependsOn ringCfg 1 1 :=
    DependsOn.step (fk := ringFK 2) (by simp [IsFK, ringCfg]) (DependsOn.direct (p := 2) (fk := ringFK 1) (by simp [IsFK, ringCfg]))
  exact ⟨⟨1, Or.inr h01, h12⟩, by decide, by decide, by rfl, by rfl, by rfl⟩

theorem ringFK_of {p : Fin 3} {fk : FK RingS} (h : IsFK ringCfg p fk) : fk = ringFK 1 ∨ fk = ringFK 2 := by
  unfold IsFK ringCfg at h
  simp only [] at h
  split at h
  · simp at h; exact Or.inl h
  · split at h
    · simp at h; exact Or.inr h
    · simp at h; exact Or.inl h

/-- The graph is one that `table!` and `register_tracker` allow. -/
example : Standard ringCfg ∧ Searchable ringCfg := by
  have h : Standard ringCfg := by
    refine ⟨fun _ _ => rfl, fun _ _ _ => Or.inl rfl, ?_, ?_⟩
    · intro p fk hfk hb
      rcases ringFK_of hfk with rfl | rfl <;> cases hb
    · intro p fk hfk _
      rcases ringFK_of hfk with rfl | rfl <;> rfl
  exact ⟨h, h.searchable⟩

end V11
