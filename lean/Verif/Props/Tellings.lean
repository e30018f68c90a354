import Verif.Props.Cascade
import Verif.Lemmas.Tell

/-!
# C77: how often a tracker is told of one flush
-/

set_option linter.unusedSectionVars false
set_option linter.unusedVariables false

namespace V11
section
variable {T : Type} [DecidableEq T] {S : T → Schema} {cfg : Cfg S} {rank : T → Nat}

/-- The number of calls logged by a flush that returned. -/
theorem flush_told (hpar : ∀ p, cfg.trackers p ≠ [] → (S p).kind = .consistent) {ev : Event} {h : Handler}
    (hh : cfg.handlers[ev.id]? = some h) {n : Nat} {p : T} {w : W (S p)} {env env' : Env S} (hw : w.changes.isEmpty = false)
    (hok : flush cfg n p w ev env = .ok env') :
    ∃ new, env'.log = env.log ++ new ∧
      ∀ t name, toldAt t name new = weight cfg (factor h w.changes) n p t * listening cfg ev t name := by
  have hhd : cfg.handler ev = .ok h := by unfold Cfg.handler; rw [hh]
  obtain ⟨new, a, b⟩ := flushWith_tells (fun e s e' he => doFlush_tells hpar hhd n p w.pushed w.delete w.changes s e e' he) hok
  exact ⟨new, a, fun t name => (b t name).trans (if_neg (by simp [hw]))⟩

/-- C77: when a flush returns, the trackers of every table have been told once for every chain of foreign_auto columns
that leads from the table up to the flushed one — whether or not a row was selected. This is so unless everything was
deleted at once. -/
theorem C77_told_once_per_chain (hpar : ∀ p, cfg.trackers p ≠ [] → (S p).kind = .consistent) {ev : Event} {h : Handler}
    (hh : cfg.handlers[ev.id]? = some h) {n : Nat} {p : T} {w : W (S p)} {env env' : Env S} (hw : w.changes.isEmpty = false)
    (hone : w.changes.isAll = false ∨ h ≠ .delete) (hok : flush cfg n p w ev env = .ok env') :
    ∃ new, env'.log = env.log ++ new ∧
      ∀ t name, toldAt t name new = sumTo n (fun d => chains cfg d p t) * listening cfg ev t name := by
  obtain ⟨new, a, b⟩ := flush_told hpar hh hw hok
  refine ⟨new, a, fun t name => ?_⟩
  have hf : factor h w.changes = 1 := by
    unfold factor
    rw [if_neg]
    rintro ⟨h1, h2⟩
    rcases hone with h3 | h3
    · rw [h3] at h2; cases h2
    · exact h3 h1
  rw [b, hf]
  unfold weight
  congr 1
  exact sumTo_congr (fun d => by rw [Nat.one_pow, Nat.one_mul])

/-- C77, the defect: when everything was deleted (`clear`), each link doubles: the trackers of a table are told `2^d` times
for every chain of `d` foreign_auto columns. -/
theorem C77_clear_doubles (hpar : ∀ p, cfg.trackers p ≠ [] → (S p).kind = .consistent) {ev : Event}
    (hh : cfg.handlers[ev.id]? = some .delete) {n : Nat} {p : T} {w : W (S p)} {env env' : Env S} (hw : w.changes = .all)
    (hok : flush cfg n p w ev env = .ok env') :
    ∃ new, env'.log = env.log ++ new ∧
      ∀ t name, toldAt t name new = sumTo n (fun d => 2 ^ d * chains cfg d p t) * listening cfg ev t name := by
  obtain ⟨new, a, b⟩ := flush_told hpar hh (by rw [hw]; rfl) hok
  refine ⟨new, a, fun t name => ?_⟩
  have hf : factor .delete w.changes = 2 := by rw [hw]; rfl
  rw [b, hf]
  rfl

/-- The sums are finite: in a graph without cycles no chain is longer than the rank. -/
theorem C77_chains_end (hac : Acyclic cfg rank) (d : Nat) (p t : T) (h : rank p < d) : chains cfg d p t = 0 := by
  induction d generalizing p with
  | zero => omega
  | succ d ih =>
    unfold chains
    have : (dependants cfg p).map (fun c => chains cfg d c t) = (dependants cfg p).map (fun _ => 0) := by
      refine List.map_congr_left fun c hc => ?_
      unfold dependants at hc
      obtain ⟨tr, htr, he⟩ := List.mem_filterMap.1 hc
      cases tr with
      | observer o => cases he
      | auto fk =>
        injection he with he
        have := hac p fk htr
        rw [he] at this
        exact ih c (by omega)
    rw [this]
    simp

end

/-! ### A line of tables -/

/-- `m + 1` tables, each but the first referencing the one before; the last has a tracker. -/
@[reducible] def LineS (m : Nat) (_ : Fin (m + 1)) : Schema := mkSchema treeCols 255 .consistent

def lineFK {m : Nat} (c : Fin (m + 1)) : FK (LineS m) := { child := c, col := 0, key := Equiv.refl Nat, bySort := false }

def lineCfg (m : Nat) : Cfg (LineS m) where
  trackers p := if h : p.1 < m then [.auto (lineFK ⟨p.1 + 1, by omega⟩)] else [.observer ⟨0, fun _ => true, false⟩]
  handlers := [.panicking, .null, .delete]

def lineKey {m : Nat} (t : Fin (m + 1)) (r : Row (LineS m t)) : Nat := r 0

/-- A fresh universe. -/
def lineEnv (m : Nat) : Env (LineS m) := { tbl := fun _ => Tbl.new, reads := fun _ => 0, writer := fun _ => false, log := [] }

theorem lineFK_of {m : Nat} {p : Fin (m + 1)} {fk : FK (LineS m)} (h : IsFK (lineCfg m) p fk) :
    ∃ h : p.1 < m, fk = lineFK ⟨p.1 + 1, by omega⟩ := by
  unfold IsFK lineCfg at h
  simp only [] at h
  split at h
  · rename_i hp
    exact ⟨hp, by simpa using h⟩
  · simp at h

theorem line_standard (m : Nat) : Standard (lineCfg m) := by
  refine ⟨fun _ _ => rfl, fun _ _ _ => Or.inl rfl, ?_, ?_⟩
  · intro p fk h hb
    obtain ⟨_, rfl⟩ := lineFK_of h
    cases hb
  · intro p fk h _
    obtain ⟨_, rfl⟩ := lineFK_of h
    rfl

theorem line_acyclic (m : Nat) : Acyclic (lineCfg m) (fun p => m - p.1) := by
  intro p fk h
  obtain ⟨hp, rfl⟩ := lineFK_of h
  show m - (p.1 + 1) < m - p.1
  omega

theorem line_chains (m d : Nat) (p : Fin (m + 1)) :
    chains (lineCfg m) d p ⟨m, by omega⟩ = if p.1 + d = m then 1 else 0 := by
  induction d generalizing p with
  | zero =>
    unfold chains
    by_cases h : p.1 = m
    · rw [if_pos (Fin.ext h), if_pos (by omega)]
    · rw [if_neg (fun e => h (by rw [e])), if_neg (by omega)]
  | succ d ih =>
    unfold chains
    by_cases h : p.1 < m
    · have hd : dependants (lineCfg m) p = [⟨p.1 + 1, by omega⟩] := by
        unfold dependants
        have : (lineCfg m).trackers p = [.auto (lineFK ⟨p.1 + 1, by omega⟩)] := dif_pos h
        rw [this]; rfl
      rw [hd]
      simp only [List.map_cons, List.map_nil, List.sum_cons, List.sum_nil, Nat.add_zero]
      rw [ih ⟨p.1 + 1, by omega⟩]
      simp only []
      by_cases h2 : p.1 + 1 + d = m
      · rw [if_pos h2, if_pos (by omega)]
      · rw [if_neg h2, if_neg (by omega)]
    · have hd : dependants (lineCfg m) p = [] := by
        unfold dependants
        have : (lineCfg m).trackers p = [.observer ⟨0, fun _ => true, false⟩] := dif_neg h
        rw [this]; rfl
      rw [hd, if_neg (by omega)]
      rfl

theorem sumTo_pick (n m : Nat) (f : Nat → Nat) (h : m < n) : sumTo n (fun d => f d * if d = m then 1 else 0) = f m := by
  induction n generalizing m f with
  | zero => omega
  | succ n ih =>
    rw [sumTo_succ]
    cases m with
    | zero =>
      have : sumTo n (fun d => f (d + 1) * if d + 1 = 0 then 1 else 0) = sumTo n (fun _ => 0 * 0) := sumTo_congr (fun d => by simp)
      rw [this, sumTo_mul]
      simp
    | succ m =>
      have h2 := ih m (fun d => f (d + 1)) (by omega)
      have : sumTo n (fun d => f (d + 1) * if d + 1 = m + 1 then 1 else 0) = sumTo n (fun d => f (d + 1) * if d = m then 1 else 0) :=
        sumTo_congr (fun d => by simp)
      rw [this, h2]
      simp

/-- C77, the cost: clearing the first of `m + 1` tables in a line — all of them empty — tells the tracker of the last one
`2^m` times. -/
theorem C77_exponential (m : Nat) :
    ∃ env', session (lineCfg m) (m + 1) lineKey 0 [.clear] ⟨2, true, false⟩ (lineEnv m) = .ok env' ∧
      toldAt ⟨m, by omega⟩ 0 env'.log = 2 ^ m := by
  have hu : Unlocked (lineEnv m) := ⟨fun _ => rfl, fun _ => rfl⟩
  obtain ⟨env', e1, -⟩ := C32_clear_cascades (key := lineKey) (line_standard m) (line_acyclic m) (ev := ⟨2, true, false⟩) rfl rfl rfl
    (n := m + 1) (p := 0) (by simp) rfl hu (fun t => Reach.new)
  refine ⟨env', e1, ?_⟩
  unfold session at e1
  obtain ⟨⟨w0, env1⟩, a1, a2⟩ := bind_ok e1
  obtain ⟨w, b1, b2⟩ := bind_ok a2
  obtain ⟨l1, l2⟩ := lock_log a1
  have hw : w.changes = .all := by
    unfold W.steps at b1
    rw [List.foldlM_cons] at b1
    injection b1 with b1
    subst b1
    rfl
  obtain ⟨new, c1, c2⟩ := C77_clear_doubles (line_standard m).parent (ev := ⟨2, true, false⟩) rfl hw b2
  have hl : env'.log = new := by
    rw [c1]; show env1.log ++ new = new; rw [l1]; rfl
  rw [hl, c2]
  have h1 : listening (lineCfg m) ⟨2, true, false⟩ ⟨m, by omega⟩ 0 = 1 := by
    unfold listening lineCfg
    simp only []
    rw [dif_neg (by simp)]
    rfl
  rw [h1, Nat.mul_one]
  have h2 : ∀ d, 2 ^ d * chains (lineCfg m) d 0 ⟨m, by omega⟩ = 2 ^ d * if d = m then 1 else 0 := by
    intro d
    rw [line_chains]
    congr 1
    simp
  rw [sumTo_congr h2, sumTo_pick (m + 1) m (fun d => 2 ^ d) (by omega)]

/-- C77 applies: clearing table 0 of the demo universe tells the tracker of table 1 twice, deleting a row once. -/
example : (uniLog (session uniCfg 3 uniKey 0 [.clear] evDelete uniEnv)).map (fun l => l.map (·.1)) = some [0, 1, 1] ∧
    (uniLog (session uniCfg 3 uniKey 0 [.delete 0] evDelete uniEnv)).map (fun l => l.map (·.1)) = some [0, 1] := by decide

end V11
