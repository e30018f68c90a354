import Verif.Lemmas.PropLocksMore
import Verif.Props.RegThreads

/-!
# C88: the locks of properties, among threads

Threads use properties of universes after the calls `ops0`, in any schedule: they read, write and swap them, keep guards on them and may
panic. `s.log` is what has happened.
-/

set_option linter.unusedSectionVars false
set_option linter.unusedVariables false

namespace V11
variable {Ty : Type} [DecidableEq Ty] {V : Ty → Type} {P : Type} [DecidableEq P] {ι : Type} [DecidableEq ι] {decl : P → PropDecl V}
variable {s s' : PlSys ι decl} {ops0 : List (ROp decl)} {progs : ι → PScript decl}

/-- C88: a property is a register: whoever reads it, by a call or through a guard, gets what any thread last wrote to a property of that
name in that universe, and if no thread wrote to it what it was before. -/
theorem C88_register (hr : PlRun (PlSys.start (World.after decl ops0) progs) s) {pre post : List (PlEv ι decl)} {i : ι} {k : Nat} {p : P} {v : V (decl p).ty}
    (he : s.log = pre ++ .saw i k p v :: post) :
    (∀ x, lastPut pre (k, (decl p).name) = some x → x = ⟨_, v⟩) ∧
    (lastPut pre (k, (decl p).name) = none → ((World.after decl ops0).get decl k p).1 = .ok v) := (pl_inv hr).saws pre i k p v post he

/-- C88: and so does who reads it later. -/
theorem C88_after (hr : PlRun (PlSys.start (World.after decl ops0) progs) s) {k : Nat} {p : P} {v : V (decl p).ty} (hv : (s.w.get decl k p).1 = .ok v) :
    (∀ x, lastPut s.log (k, (decl p).name) = some x → x = ⟨_, v⟩) ∧
    (lastPut s.log (k, (decl p).name) = none → ((World.after decl ops0).get decl k p).1 = .ok v) := (pl_inv hr).puts k p v hv

/-- C88: until a thread lets go a read guard, nobody writes the value or gets a write guard; until it lets go a write guard, nobody else
reads or writes the value, and nobody gets a guard. -/
theorem C88_guarded (hr : PlRun (PlSys.start (World.after decl ops0) progs) s) {a b c : List (PlEv ι decl)} {i : ι} {g : PGuard P}
    (he : s.log = a ++ .took i g :: (b ++ c)) (hn : .left i g ∉ b) :
    (g.2.2 = .rd → ∀ e ∈ b, ¬ e.writes (g.key decl)) ∧
    (g.2.2 = .wr → ∀ e ∈ b, (e.uses (g.key decl) → e.doer = i) ∧ ∀ j g', e = .took j g' → g'.key decl ≠ g.key decl) :=
  ⟨fun hm e h => ((pl_guarding hr he hn) e h).2 hm, fun hm e h => ((pl_guarding hr he hn) e h).1 hm⟩

/-- C88: two guards on one property at the same time are read guards. -/
theorem C88_exclusive (hr : PlRun (PlSys.start (World.after decl ops0) progs) s) {a b c : List (PlEv ι decl)} {i j : ι} {g g' : PGuard P}
    (he : s.log = a ++ .took i g :: (b ++ .took j g' :: c)) (hn : .left i g ∉ b) (hk : g.key decl = g'.key decl) : g.2.2 = .rd ∧ g'.2.2 = .rd := by
  have h := C88_guarded hr (a := a) (b := b ++ [.took j g']) (c := c) (i := i) (g := g) (by rw [he]; simp) (by
    rw [List.mem_append, not_or]
    exact ⟨hn, by simp⟩)
  have hm : (.took j g' : PlEv ι decl) ∈ b ++ [.took j g'] := by simp
  cases e : g.2.2 with
  | wr => exact absurd hk.symm ((h.2 e _ hm).2 j g' rfl)
  | rd =>
    refine ⟨rfl, ?_⟩
    cases e' : g'.2.2 with
    | rd => rfl
    | wr => exact absurd ⟨hk.symm, e'⟩ (h.1 e _ hm)

theorem noput_of {b : List (PlEv ι decl)} {l : PKey} (h : ∀ e ∈ b, ¬ e.writes l) : lastPut b l = none := by
  unfold lastPut
  rw [List.getLast?_eq_none_iff, List.filterMap_eq_nil_iff]
  intro e he
  have := h e he
  cases e with
  | wrote i k p v => exact if_neg this
  | _ => rfl

/-- C88: until a thread lets go a read guard, everybody who reads the value gets what it was when the guard was got. -/
theorem C88_stable (hr : PlRun (PlSys.start (World.after decl ops0) progs) s) {a b c : List (PlEv ι decl)} {i j : ι} {k : Nat} {p q : P} {v : V (decl q).ty}
    (he : s.log = a ++ .took i (k, p, .rd) :: (b ++ .saw j k q v :: c)) (hn : .left i (k, p, .rd) ∉ b) (hq : (decl q).name = (decl p).name) :
    (∀ x, lastPut a (k, (decl p).name) = some x → x = ⟨_, v⟩) ∧
    (lastPut a (k, (decl p).name) = none → ((World.after decl ops0).get decl k q).1 = .ok v) := by
  have h := (C88_guarded hr (a := a) (b := b) (c := .saw j k q v :: c) he hn).1 rfl
  have h2 := C88_register hr (pre := a ++ .took i (k, p, .rd) :: b) (post := c) (i := j) (k := k) (p := q) (v := v) (by rw [he]; simp)
  have h3 : lastPut (a ++ .took i (k, p, .rd) :: b) (k, (decl q).name) = lastPut a (k, (decl p).name) := by
    rw [lastPut_append, hq, noput_of (b := .took i (k, p, .rd) :: b), Option.none_or]
    intro e hm
    rcases List.mem_cons.1 hm with rfl | hm
    · intro hw; cases hw.2
    · exact h e hm
  rw [h3] at h2
  exact h2

/-- C88: threads that update one property, each time reading and writing it under one write guard, lose no update: the value is what the
updates made so far give, one after the other in some order, each thread's in its own order; all of them when all threads are done. Nobody panics. -/
theorem C88_no_lost_update {k : Nat} {p : P} {v0 : V (decl p).ty} (fs : ι → List (V (decl p).ty → V (decl p).ty))
    (h0 : ((World.after decl ops0).get decl k p).1 = .ok v0) (hr : PlRun (PlSys.start (World.after decl ops0) (fun i => updates k p (fs i))) s) :
    (∀ i, .died i ∉ s.log) ∧
    ∃ order : List (ι × (V (decl p).ty → V (decl p).ty)), (s.w.get decl k p).1 = .ok (order.foldl (fun v x => x.2 v) v0) ∧
      ∀ i, (order.filter (fun x => decide (x.1 = i))).map Prod.snd <+: fs i ∧
        ((s.th i).script = .done → (order.filter (fun x => decide (x.1 = i))).map Prod.snd = fs i) := by
  obtain ⟨order, h1, h2⟩ := (pl_upd h0 hr).order
  refine ⟨?_, order, h1, ?_⟩
  · intro i hd
    have := ((pl_inv hr).died i).1 hd
    obtain ⟨rest, h3, h4⟩ := h2 i
    generalize s.th i = t at h4 this
    cases h4 <;> cases this
  · intro i
    obtain ⟨rest, h3, h4⟩ := h2 i
    refine ⟨⟨rest, h3.symm⟩, ?_⟩
    intro hd
    generalize s.th i = t at h4 hd
    cases h4 with
    | next =>
      cases rest with
      | nil => rw [List.append_nil] at h3; exact h3.symm
      | cons f r => cases hd
    | got => cases hd
    | saw => cases hd
    | put => cases hd

/-- C88: once a thread that panicked has dropped a write guard, nobody reads or writes the value any more, and nobody gets a guard on it. -/
theorem C88_poison (hr : PlRun (PlSys.start (World.after decl ops0) progs) s) {pre post : List (PlEv ι decl)} {e : PlEv ι decl} {l : PKey}
    (he : s.log = pre ++ e :: post) (hsp : Spoiled pre l) : ¬ e.uses l := (pl_inv hr).spoils pre e post l he hsp

/-- C88: who asks for it then panics. -/
theorem C88_poison_spreads (hr : PlRun (PlSys.start (World.after decl ops0) progs) s) {i : ι} (hs : PlStep s i s') {k : Nat} {p : P} {m : Mode}
    (hf : .died i ∉ s.log) (ha : (s.th i).script.asks = some (k, p, m)) (hsp : Spoiled s.log (k, (decl p).name)) : .died i ∈ s'.log := by
  have hv := pl_inv hr
  have hb : s.bad (PropDecl.key decl k p) = true := (hv.bad _).2 hsp
  rw [(hv.step hs).died]
  have hni : (s.th i).falling = false := by
    cases h : (s.th i).falling with
    | false => rfl
    | true => exact absurd ((hv.died i).2 h) hf
  cases hs with
  | absent h1 h2 h3 => rw [fall_th]
  | poisoned h1 h2 h3 h4 h5 => rw [fall_th]
  | take h1 h2 h3 h4 h5 =>
    rw [ha] at h2
    simp only [Option.some.injEq, Prod.mk.injEq] at h2
    obtain ⟨rfl, rfl, rfl⟩ := h2
    rw [hb] at h5
    cases h5
  | look h1 h2 h3 h4 => rw [h2] at ha; cases ha
  | store h1 h2 h3 => rw [h2] at ha; cases ha
  | drop h1 h2 h3 => rw [h2] at ha; cases ha
  | panic h1 h2 => rw [h2] at ha; cases ha
  | leave h1 h2 h3 => rw [h2] at ha; cases ha
  | unwind h1 h2 => rw [hni] at h1; cases h1

/-- C88: a thread panics only if it would do so itself, if the property it asks for is not there, or if a thread that panicked has
dropped a write guard on it. Reading guards, guards on other properties and calls do no harm. -/
theorem C88_panics (hr : PlRun (PlSys.start (World.after decl ops0) progs) s) {i : ι} (hs : PlStep s i s') (hf : .died i ∉ s.log) (hd : .died i ∈ s'.log) :
    (s.th i).script = .panic ∨ ∃ k p m, (s.th i).script.asks = some (k, p, m) ∧
      ((∃ e, (s.w.get decl k p).1 = .error e) ∨ Spoiled s.log (k, (decl p).name)) := by
  have hv := pl_inv hr
  refine step_dies hv hs ?_ (((hv.step hs).died i).1 hd)
  cases h : (s.th i).falling with
  | false => rfl
  | true => exact absurd ((hv.died i).2 h) hf

/-- C88: threads that do not panic of themselves, and use properties only that could be read before they were started, do not panic. -/
theorem C88_steady (hp : ∀ i, (progs i).Steady (fun k p => ∃ v, ((World.after decl ops0).get decl k p).1 = .ok v))
    (hr : PlRun (PlSys.start (World.after decl ops0) progs) s) (i : ι) : .died i ∉ s.log := by
  intro h
  have := ((pl_inv hr).died i).1 h
  rw [(pl_calm (fun k p h => h) hp hr).up i] at this
  cases this

/-- C88: if every thread asks only for locks below all those it has a guard on, then as long as a thread is not over some thread can go
on, also if readers wait for writers that wait; threads may panic as they like. -/
theorem C88_no_deadlock {lev : PKey → Nat} (hp : ∀ i, (progs i).InTurn lev []) (hr : PlRun (PlSys.start (World.after decl ops0) progs) s) {i : ι} (ho : ¬ s.Over i) :
    ∃ j, s.Sure j := pl_no_deadlock (pl_inv hr) (fun i => pl_inTurn hp hr i) i ho

/-- C88: no thread goes on for ever. -/
theorem C88_ends (f : Nat → PlSys ι decl) (who : Nat → ι) (hf : ∀ n, PlStep (f n) (who n) (f (n + 1))) (i : ι) : ∃ N, ∀ n, N ≤ n → who n ≠ i :=
  pl_ends f who hf i

/-- C88: a thread that asks for a property it has a guard on itself waits for ever, unless both are for reading. -/
theorem C88_self_wait (hr : PlRun (PlSys.start (World.after decl ops0) progs) s) {i : ι} {k : Nat} {p : P} {m m' : Mode} (hf : .died i ∉ s.log)
    (ha : (s.th i).script.asks = some (k, p, m)) (hg : (k, p, m') ∈ (s.th i).held) (hm : m = .wr ∨ m' = .wr) {t t' : PlSys ι decl} (ht : PlRun s t) : ¬ PlStep t i t' := by
  have hni : (s.th i).falling = false := by
    cases h : (s.th i).falling with
    | false => rfl
    | true => exact absurd (((pl_inv hr).died i).2 h) hf
  have hsame : t.th i = s.th i := by
    clear t'
    induction ht with
    | refl => rfl
    | @step t t' j h hs ih =>
      by_cases hj : i = j
      · subst hj
        exact absurd hs (no_step_hung (pl_inv (hr.trans h)) (by rw [ih]; exact hni) (by rw [ih]; exact ha) (by rw [ih]; exact hg) hm)
      · rw [(step_next hs).2 i hj, ih]
  exact no_step_hung (pl_inv (hr.trans ht)) (by rw [hsame]; exact hni) (by rw [hsame]; exact ha) (by rw [hsame]; exact hg) hm

end V11

/-! ## Schedules -/

namespace V11.RegDemo

instance (s : PlSys Bool decl) (l : PKey) (m : Mode) : Decidable (s.free l m) := by
  cases m
  · exact inferInstanceAs (Decidable (∀ j, ∀ g ∈ (s.th j).held, g.key decl = l → g.2.2 = .rd))
  · exact inferInstanceAs (Decidable (∀ j, ∀ g ∈ (s.th j).held, g.key decl ≠ l))

/-- What thread `i` does next, if it can. -/
def plAct (s : PlSys Bool decl) (i : Bool) : Option (PlSys Bool decl) :=
  if (s.th i).falling then
    match (s.th i).held with
    | [] => none
    | g :: rest => some { (s.goOn i { script := .panic, held := rest, falling := true } s.w [.left i g]) with
        bad := if g.2.2 = .wr then Function.update s.bad (g.key decl) true else s.bad }
  else match (s.th i).script.asks with
    | some (k, p, m) =>
      if (s.w.get decl k p).1.isOk then
        if s.free (PropDecl.key decl k p) m then
          if s.bad (PropDecl.key decl k p) then some (s.fall i (s.w.get decl k p).2 [.found i k p]) else some (s.grant i (s.th i).script)
        else none
      else some (s.fall i (s.w.get decl k p).2 [.found i k p])
    | none =>
      match (s.th i).script with
      | .look k p f =>
        if (k, p, .rd) ∈ (s.th i).held ∨ (k, p, .wr) ∈ (s.th i).held then
          match (s.w.get decl k p).1 with
          | .ok v => some (s.goOn i { script := f v, held := (s.th i).held, falling := false } s.w [.saw i k p v])
          | .error _ => none
        else none
      | .store k p x next =>
        if (k, p, .wr) ∈ (s.th i).held then
          some (s.goOn i { script := next, held := (s.th i).held, falling := false } (s.w.set decl k p x).2 [.wrote i k p x])
        else none
      | .drop k p m next =>
        if (k, p, m) ∈ (s.th i).held then
          some (s.goOn i { script := next, held := (s.th i).held.erase (k, p, m), falling := false } s.w [.left i (k, p, m)])
        else none
      | .panic => some (s.fall i s.w [])
      | .done =>
        match (s.th i).held with
        | [] => none
        | g :: rest => some (s.goOn i { script := .done, held := rest, falling := false } s.w [.left i g])
      | _ => none

theorem isOk_ex {α : Type} {r : R α} (h : r.isOk = true) : ∃ v, r = .ok v := by
  cases r with
  | ok v => exact ⟨v, rfl⟩
  | error e => cases h

theorem isOk_no {α : Type} {r : R α} (h : ¬ r.isOk = true) : ∃ e, r = .error e := by
  cases r with
  | ok v => exact absurd rfl h
  | error e => exact ⟨e, rfl⟩

theorem plAct_step {s s' : PlSys Bool decl} {i : Bool} (h : plAct s i = some s') : PlStep s i s' := by
  unfold plAct at h
  by_cases hf : (s.th i).falling = true
  · rw [if_pos hf] at h
    cases e : (s.th i).held with
    | nil => rw [e] at h; cases h
    | cons g r => rw [e] at h; injection h with h; subst h; exact .unwind hf e
  · rw [if_neg hf] at h
    have hf : (s.th i).falling = false := by simpa using hf
    cases ea : (s.th i).script.asks with
    | some x =>
      obtain ⟨k, p, m⟩ := x
      rw [ea] at h
      simp only [] at h
      split at h
      · rename_i ho
        obtain ⟨v, hv⟩ := isOk_ex ho
        split at h
        · rename_i hfree
          split at h
          · rename_i hb; injection h with h; subst h; exact .poisoned hf ea hv hfree hb
          · rename_i hb; injection h with h; subst h; exact .take hf ea hv hfree (by simpa using hb)
        · cases h
      · rename_i ho
        obtain ⟨e, he⟩ := isOk_no ho
        injection h with h; subst h
        exact .absent hf ea he
    | none =>
      rw [ea] at h
      simp only [] at h
      cases e : (s.th i).script with
      | done =>
        rw [e] at h
        cases eh : (s.th i).held with
        | nil => rw [eh] at h; cases h
        | cons g r => rw [eh] at h; injection h with h; subst h; exact .leave hf e eh
      | panic => rw [e] at h; injection h with h; subst h; exact .panic hf e
      | get k p f => rw [e] at ea; cases ea
      | set k p x n => rw [e] at ea; cases ea
      | swap k p x f => rw [e] at ea; cases ea
      | read k p n => rw [e] at ea; cases ea
      | write k p n => rw [e] at ea; cases ea
      | look k p f =>
        rw [e] at h
        simp only [] at h
        split at h
        · rename_i hm
          cases ev : (s.w.get decl k p).1 with
          | error x => rw [ev] at h; cases h
          | ok v =>
            rw [ev] at h
            injection h with h; subst h
            rcases hm with hm | hm <;> exact .look hf e hm ev
        · cases h
      | store k p x n =>
        rw [e] at h
        simp only [] at h
        split at h
        · rename_i hm; injection h with h; subst h; exact .store hf e hm
        · cases h
      | drop k p m n =>
        rw [e] at h
        simp only [] at h
        split at h
        · rename_i hm; injection h with h; subst h; exact .drop hf e hm
        · cases h

/-- A thread that can do nothing by `plAct` can do nothing. -/
theorem step_plAct {s s' : PlSys Bool decl} {i : Bool} (h : PlStep s i s') : (plAct s i).isSome = true := by
  unfold plAct
  cases h with
  | absent h1 h2 h3 => simp [h1, h2, h3, Except.isOk, Except.toBool]
  | poisoned h1 h2 h3 h4 h5 => simp [h1, h2, h3, h4, h5, Except.isOk, Except.toBool]
  | take h1 h2 h3 h4 h5 => simp [h1, h2, h3, h4, h5, Except.isOk, Except.toBool]
  | @look k p f v m h1 h2 h3 h4 =>
    have : (k, p, Mode.rd) ∈ (s.th i).held ∨ (k, p, Mode.wr) ∈ (s.th i).held := by cases m; exact Or.inl h3; exact Or.inr h3
    simp [h1, h2, h4, PScript.asks, this]
  | store h1 h2 h3 => simp [h1, h2, h3, PScript.asks]
  | drop h1 h2 h3 => simp [h1, h2, h3, PScript.asks]
  | panic h1 h2 => simp [h1, h2, PScript.asks]
  | leave h1 h2 h3 => simp [h1, h2, h3, PScript.asks]
  | unwind h1 h2 => simp [h1, h2]

/-- The schedule in which these threads take the next steps. -/
def plSched (s : PlSys Bool decl) : List Bool → Option (PlSys Bool decl)
  | [] => some s
  | i :: r => (plAct s i).bind (fun s => plSched s r)

theorem plSched_run {s0 s s' : PlSys Bool decl} {l : List Bool} (hr : PlRun s0 s) (h : plSched s l = some s') : PlRun s0 s' := by
  induction l generalizing s with
  | nil => injection h with h; subst h; exact hr
  | cons i r ih =>
    unfold plSched at h
    cases e : plAct s i with
    | none => rw [e] at h; cases h
    | some t => rw [e] at h; exact ih (.step i hr (plAct_step e)) h

/-- Who panicked. -/
def deaths (log : List (PlEv Bool decl)) : List Bool := log.filterMap (fun e => match e with | .died i => some i | _ => none)

/-- The numbers read. -/
def sights (log : List (PlEv Bool decl)) : List (Bool × Got) := log.filterMap (fun e => match e with | .saw i k p v => some (i, gotOf (.ok (.value ⟨_, v⟩))) | _ => none)

/-- The processes that read and write a property in two calls. -/
def careless : Bool → PScript decl := fun _ => .get 0 0 (fun v => .set 0 0 (Nat.succ v) .done)

/-- And that do so under a guard. -/
def careful : Bool → PScript decl := fun _ => updates 0 0 [Nat.succ]

/-- What the property is in the end. -/
def finally0 (s : PlSys Bool decl) : Got := gotOf ((s.w.get decl 0 0).1.map (fun v => .value ⟨_, v⟩))

/-- C88: of two threads that add one by reading and then writing, one addition is lost. -/
example : (plSched (PlSys.start (World.after decl before) careless) [false, true, true, false]).map (fun s => (sights s.log, deaths s.log, finally0 s)) =
    some ([(false, .num 7), (true, .num 7)], [], .num 8) := by decide +kernel

/-- C88: under write guards none is. One waits while the other has its guard. -/
example : (plSched (PlSys.start (World.after decl before) careful) [false, false, false, false, true, true, true, true]).map (fun s => (sights s.log, deaths s.log, finally0 s)) =
    some ([(false, .num 7), (true, .num 8)], [], .num 9) ∧
    (plSched (PlSys.start (World.after decl before) careful) [false, true]).isNone = true := by decide +kernel

/-- C88_no_lost_update: its hypothesis is met. -/
example : ((World.after decl before).get decl 0 0).1 = .ok (7 : Nat) := rfl

/-- A thread panics with a write guard; the other reads, through the twin's name. -/
def spoiler : Bool → PScript decl
  | false => .write 0 0 (.store 0 0 (40 : Nat) .panic)
  | true => .get 0 1 (fun _ => .get 0 1 (fun _ => .done))

/-- C88: the property is lost for the other, who panics at its second read. With a read guard instead of the write guard nothing happens. -/
example : (plSched (PlSys.start (World.after decl before) spoiler) [true, false, false, false, false, true]).map (fun s => (sights s.log, deaths s.log)) =
    some ([(true, .num 7)], [false, true]) ∧
    (plSched (PlSys.start (World.after decl before) (fun i => if i then spoiler true else .read 0 0 .panic)) [true, false, false, false, true]).map
      (fun s => (sights s.log, deaths s.log)) = some ([(true, .num 7), (true, .num 7)], [false]) := by decide +kernel

/-- C88: while the write guard is there the other waits. -/
example : (plSched (PlSys.start (World.after decl before) spoiler) [false, false, false, true]).isNone = true := by decide +kernel

/-- Two properties. -/
def twoProps : List (ROp decl) := [.registerDomain "game", .registerProp 0, .registerProp 2, .newUniverse ["game"]]

/-- Threads that lock two properties, each in its own order. -/
def crossing : Bool → PScript decl
  | false => .write 0 0 (.write 0 2 .done)
  | true => .write 0 2 (.write 0 0 .done)

/-- C88_no_deadlock: without the order there are deadlocks. -/
example : ∃ s, PlRun (PlSys.start (World.after decl twoProps) crossing) s ∧ (∀ i, ¬ s.Over i) ∧ ∀ i s', ¬ PlStep s i s' := by
  obtain ⟨s, hs⟩ : ∃ s, plSched (PlSys.start (World.after decl twoProps) crossing) [false, true] = some s := Option.isSome_iff_exists.1 (by decide +kernel)
  refine ⟨s, plSched_run .refl hs, ?_⟩
  have h : (plSched (PlSys.start (World.after decl twoProps) crossing) [false, true]).map
      (fun s => ((s.th false).held.length, (s.th true).held.length, (plAct s false).isSome, (plAct s true).isSome)) = some (1, 1, false, false) := by decide +kernel
  rw [hs] at h
  simp only [Option.map_some, Option.some.injEq, Prod.mk.injEq] at h
  obtain ⟨h1, h2, h3, h4⟩ := h
  refine ⟨?_, ?_⟩
  · intro i ho
    cases i
    · rw [ho.1] at h1; cases h1
    · rw [ho.1] at h2; cases h2
  · intro i s' hs'
    have := step_plAct hs'
    cases i
    · rw [h3] at this; cases this
    · rw [h4] at this; cases this

/-- C88_no_deadlock, C88_steady: what they ask, of two threads that lock two properties in one order, read one and write the other. -/
example : let progs : Bool → PScript decl := fun i => .read 0 0 (.write 0 2 (.look 0 0 (fun v => .store 0 2 v (.drop 0 2 .wr (.get 0 2 (fun _ => .done))))))
    (∀ i, (progs i).InTurn (fun l => if l.2 = "game/score" then 1 else 0) []) ∧
    ∀ i, (progs i).Steady (fun k p => ∃ v, ((World.after decl twoProps).get decl k p).1 = .ok v) := by
  refine ⟨fun i => ?_, fun i => ?_⟩
  · refine ⟨(by intro g hg; simp at hg), ?_⟩
    refine ⟨?_, ⟨_, List.mem_cons_of_mem _ List.mem_cons_self⟩, fun v => ?_⟩
    · intro g hg
      simp only [List.mem_cons, List.not_mem_nil, or_false] at hg
      subst hg
      decide
    · refine ⟨List.mem_cons_self, List.mem_cons_self, ?_, fun _ => trivial⟩
      intro g hg
      simp only [List.erase_cons_head, List.mem_cons, List.not_mem_nil, or_false] at hg
      subst hg
      decide
  · exact ⟨⟨(7 : Nat), rfl⟩, ⟨(3 : Nat), rfl⟩, fun v => ⟨⟨(3 : Nat), rfl⟩, fun _ => trivial⟩⟩

/-- A thread that writes a property while it has a read guard on it. -/
def selfish : Bool → PScript decl := fun _ => .read 0 0 (.set 0 0 (1 : Nat) .done)

/-- C88_self_wait: it happens. -/
example : ∃ s, PlRun (PlSys.start (World.after decl before) selfish) s ∧ .died true ∉ s.log ∧
    (s.th true).script.asks = some (0, 0, .wr) ∧ (0, 0, .rd) ∈ (s.th true).held := by
  refine ⟨_, .step true .refl (.take (k := 0) (p := 0) (m := .rd) (v := (7 : Nat)) rfl rfl rfl ?_ rfl), ?_, rfl, ?_⟩
  · intro j g hg
    cases hg
  · simp [PlSys.grant, PlSys.goOn, PlSys.start, selfish]
  · simp [PlSys.grant, PlSys.goOn, PlSys.start, selfish]

end V11.RegDemo
