import Verif.Lemmas.System
import Verif.Lemmas.Guarded
import Verif.Lemmas.RunAlone
import Verif.Lemmas.Serialise
import Verif.Props.DemoUni
import Verif.Props.Index
import Mathlib.Algebra.BigOperators.Group.Finset.Basic

/-!
# Threads: C63, C64
-/

set_option linter.unusedSectionVars false
set_option linter.unusedVariables false

namespace V11
variable {T : Type} [DecidableEq T] {S : T → Schema} [LS : ∀ t, LawfulSchema (S t)] {K : Type} [LinearOrder K]
  {key : (t : T) → Row (S t) → K} {cfg : Cfg S} {rank : T → Nat} {live : T → Bool} {ι : Type} [DecidableEq ι]
open Sys

theorem start_good {I : (t : T) → Tbl (S t) → Prop} (hI : Closed key I) (hac : Acyclic cfg rank) (n : Nat) (scripts : ι → Script S)
    (ho : ∀ i, Orderly rank live [] (scripts i)) (tbl : (t : T) → Tbl (S t)) (ht : ∀ t, I t (tbl t)) (fl : T → FlushLock)
    (hfl : ∀ t, FlushOk live t (fl t)) : Good (lockOrd rank) I (FlushOk live) (startSys key cfg n tbl fl scripts) where
  tidy i := tidy_script hI hac n (scripts i) (fun _ => none) [] ⟨fun _ h => by (cases h), fun _ _ h => by (cases h), fun _ _ => rfl, fun _ => Nat.zero_le _⟩ (ho i)
  excl i j l m _ h := by cases h
  rows := ht
  flush := hfl

theorem closedTrivial : Closed key (fun _ _ => True) := ⟨fun _ _ _ _ _ _ _ => trivial⟩

theorem closed_reach : Closed key (fun t x => Reach (key t) false x) :=
  ⟨fun t x y op hx ha hr => Reach.step hx ha (fun h => by cases h) hr⟩

/-! ## C63 -/

/-- C63: threads whose scripts take locks in order, on an acyclic foreign_auto graph. In every state that any schedule
reaches, every thread is finished or some thread can go on. The graph may be ranked in any way that makes dependants lower than
what they depend on; writers may or may not be given precedence over readers. -/
theorem C63_no_deadlock (hac : Acyclic cfg rank) (scripts : ι → Script S) (ho : ∀ i, Orderly rank live [] (scripts i))
    (tbl : (t : T) → Tbl (S t)) (fl : T → FlushLock) (hfl : ∀ t, (fl t).leaked = 0 ∧ (live t = true → (fl t).remapped = []))
    (waits : Sys S ι → ι → Prop) (hw : MayWait waits) (n : Nat) (s : Sys S ι)
    (hr : Run waits (startSys key cfg n tbl fl scripts) s) :
    (∀ i, Finished s i) ∨ ∃ i s', Step s i s' ∧ ¬ waits s i := by
  have hg := (start_good (I := fun _ _ => True) (closedTrivial (key := key)) hac n scripts ho tbl (fun _ => trivial) fl hfl).run hr
  by_cases hc : CanMove waits s
  · exact Or.inr hc
  · exact Or.inl (hg.progress hw (fun t => (hg.flush t).1) hc)

/-- C63: and no schedule goes on for ever, so in every schedule every thread finishes. -/
theorem C63_no_infinite_schedule [Fintype ι] (scripts : ι → Script S) (tbl : (t : T) → Tbl (S t)) (fl : T → FlushLock) (n : Nat)
    (f : Nat → Sys S ι) (h0 : f 0 = startSys key cfg n tbl fl scripts) (hf : ∀ k, ∃ i, Step (f k) i (f (k + 1))) : False :=
  steps_end f hf

/-- C63: whatever has happened so far, the threads can all be finished. -/
theorem C63_completes [Fintype ι] (hac : Acyclic cfg rank) (scripts : ι → Script S) (ho : ∀ i, Orderly rank live [] (scripts i))
    (tbl : (t : T) → Tbl (S t)) (fl : T → FlushLock) (hfl : ∀ t, (fl t).leaked = 0 ∧ (live t = true → (fl t).remapped = []))
    (waits : Sys S ι → ι → Prop) (hw : MayWait waits) (n : Nat) (s : Sys S ι)
    (hr : Run waits (startSys key cfg n tbl fl scripts) s) : ∃ s', Run waits s s' ∧ ∀ i, Finished s' i :=
  ((start_good (I := fun _ _ => True) (closedTrivial (key := key)) hac n scripts ho tbl (fun _ => trivial) fl hfl).run hr).completes hw
    (fun _ _ h => h.1)

/-- C63: what panics do to the locks. In every step of every schedule a lock is poisoned afterwards exactly if it was before or
the thread has panicked (for whatever reason) and had it for writing; and nobody gets a guard of a poisoned lock. -/
theorem C63_poison {s s' : Sys S ι} {i : ι} (hs : Step s i s') (l : Lk T) :
    (s'.poisoned l = true ↔ s.poisoned l = true ∨ (∃ p, (s.th i).prog = .fail p) ∧ (l, .wr) ∈ (s.th i).held) ∧
      (s.poisoned l = true → ∀ j m, (l, m) ∈ (s'.th j).held → (l, m) ∈ (s.th j).held) := by
  have up : ∀ {p : Prog S Unit} {h : List (Lk T × Mode)}, (∀ m, (l, m) ∈ h → (l, m) ∈ (s.th i).held) →
      ∀ j m, (l, m) ∈ ((Function.update s.th i ⟨p, h⟩) j).held → (l, m) ∈ (s.th j).held := by
    intro p h hh j m hj
    by_cases e : j = i
    · subst e; rw [Function.update_self] at hj; exact hh m hj
    · rw [Function.update_of_ne e] at hj; exact hj
  cases hs with
  | acq hp hf hn =>
    rename_i l' m' k
    refine ⟨by simp [Sys.go, hp], fun hpo => up ?_⟩
    intro m hm
    rcases List.mem_cons.1 hm with e | e
    · injection e with e1 e2; subst e1; rw [hpo] at hn; cases hn
    · exact e
  | acqPoisoned hp hf hn => exact ⟨by simp [Sys.go, hp], fun _ => up (fun _ h => h)⟩
  | att hp hf hn =>
    rename_i t' m' yes no
    refine ⟨by simp [Sys.go, hp], fun hpo => up ?_⟩
    intro m hm
    rcases List.mem_cons.1 hm with e | e
    · injection e with e1 e2; subst e1; rw [hpo] at hn; cases hn
    · exact e
  | attPoisoned hp hf hn => exact ⟨by simp [Sys.go, hp], fun _ => up (fun _ h => h)⟩
  | attBusy hp hb => exact ⟨by simp [Sys.go, hp], fun _ => up (fun _ h => h)⟩
  | rel hp => exact ⟨by simp [Sys.go, hp], fun _ => up (fun _ h => List.mem_of_mem_erase h)⟩
  | get hp => exact ⟨by simp [Sys.go, hp], fun _ => up (fun _ h => h)⟩
  | put hp => exact ⟨by simp [Sys.go, hp], fun _ => up (fun _ h => h)⟩
  | getF hp => exact ⟨by simp [Sys.go, hp], fun _ => up (fun _ h => h)⟩
  | putF hp => exact ⟨by simp [Sys.go, hp], fun _ => up (fun _ h => h)⟩
  | forget hp => exact ⟨by simp [Sys.go, hp], fun _ => up (fun _ h => List.mem_of_mem_erase h)⟩
  | see hp => exact ⟨by simp [Sys.go, hp], fun _ => up (fun _ h => h)⟩
  | unwind hp hh => exact ⟨by simp [hp], fun _ => up (fun _ h => by cases h)⟩

/-! ### The hypotheses are met -/

/-- Thread 0 deletes a parent row, with the cascade, while it has nothing else; thread 1 adds a child row and looks at the
grandchildren while it has the guard; thread 2 live-flushes the grandchildren. -/
def uniScript : Fin 3 → Script UniS
  | 0 => .write 0 (.call 0 (.delete 0) (.flush 0 evDelete (.read 1 (.select 1 evCreate .all .done))))
  | 1 => .write 1 (.call 1 (.push (uniRow 1 2 5)) (.read 2 (.look 2 fun x =>
      if x.len = 0 then .unread 2 (.close 1 .done) else .unread 2 (.flush 1 evCreate .done))))
  | 2 => .write 2 (.call 2 (.merge [uniRow 2 2 7]) (.liveFlush 2 evCreate (.close 2 .done)))

theorem uniScript_orderly (i : Fin 3) : Orderly uniRank (fun t => decide (t = 2)) [] (uniScript i) := by
  match i with
  | 0 => simp [uniScript, Orderly, LOp.Allowed, uniRank]
  | 1 =>
    refine ⟨by simp, List.mem_cons_self, ?_, by simp [uniRank], ⟨.rd, List.mem_cons_self⟩, fun x => ?_⟩
    · show (UniS 1).kind ≠ .sorted; decide
    · by_cases h : x.len = 0 <;> simp [h, Orderly]
  | 2 =>
    refine ⟨by simp, List.mem_cons_self, rfl, List.mem_cons_self, rfl, by simp, List.mem_cons_self, rfl⟩

/-- Every schedule of these three threads ends with all of them finished, and the tables are well formed throughout. -/
example (s : Sys UniS (Fin 3)) (waits : Sys UniS (Fin 3) → Fin 3 → Prop) (hw : MayWait waits)
    (hr : Run waits (startSys uniKey uniCfg 5 uniTbl (fun _ => .new) uniScript) s) :
    ((∀ i, Finished s i) ∨ ∃ i s', Step s i s' ∧ ¬ waits s i) ∧ ∃ s', Run waits s s' ∧ ∀ i, Finished s' i :=
  ⟨C63_no_deadlock uniAcyclic uniScript uniScript_orderly uniTbl _ (fun _ => ⟨rfl, fun _ => rfl⟩) waits hw 5 s hr,
    C63_completes uniAcyclic uniScript uniScript_orderly uniTbl _ (fun _ => ⟨rfl, fun _ => rfl⟩) waits hw 5 s hr⟩

/-- Thread 0 writes to the parents and then asks for the children; thread 1 has the children and tries for the parents, which is
against the order, doing without them if it must; it tries again for the children it has, which cannot succeed. -/
def uniTryScript : Fin 2 → Script UniS
  | 0 => .write 0 (.call 0 (.push (uniRow 0 1 1)) (.write 1 (.close 1 (.flush 0 evCreate .done))))
  | 1 => .write 1 (.call 1 (.push (uniRow 1 2 5)) (.tryWrite 0 (.call 0 (.push (uniRow 0 3 3)) (.flush 1 evCreate (.flush 0 evCreate .done)))
      fun _ => .tryRead 1 (.unread 1 (.flush 1 evCreate .done)) fun _ => .flush 1 evCreate .done))

theorem uniTryScript_orderly (i : Fin 2) : Orderly uniRank (fun _ => false) [] (uniTryScript i) := by
  have h0 : (UniS 0).kind ≠ .sorted := by decide
  have h1 : (UniS 1).kind ≠ .sorted := by decide
  match i with
  | 0 => simp [uniTryScript, Orderly, LOp.Allowed, uniRank, h0]
  | 1 => simp [uniTryScript, Orderly, LOp.Allowed, uniRank, h0, h1, List.erase_cons]

/-- They do not deadlock. -/
example (s : Sys UniS (Fin 2)) (waits : Sys UniS (Fin 2) → Fin 2 → Prop) (hw : MayWait waits)
    (hr : Run waits (startSys uniKey uniCfg 5 uniTbl (fun _ => .new) uniTryScript) s) :
    ((∀ i, Finished s i) ∨ ∃ i s', Step s i s' ∧ ¬ waits s i) ∧ ∃ s', Run waits s s' ∧ ∀ i, Finished s' i :=
  ⟨C63_no_deadlock uniAcyclic uniTryScript uniTryScript_orderly uniTbl _ (fun _ => ⟨rfl, fun h => by cases h⟩) waits hw 5 s hr,
    C63_completes uniAcyclic uniTryScript uniTryScript_orderly uniTbl _ (fun _ => ⟨rfl, fun h => by cases h⟩) waits hw 5 s hr⟩

/-- C63: `try_write` never blocks and tells the truth: would block exactly if any thread has a guard on the table, poisoned exactly if
nobody has and it is poisoned, and otherwise the guard is the caller's. -/
theorem C63_try_write {s : Sys S ι} {i : ι} {n : Nat} {o : Open S} {t : T} {yes : Script S} {no : TryErr → Script S}
    (hp : (s.th i).prog = (Script.tryWrite t yes no).prog key cfg n o) :
    (∃ s', Step s i s') ∧ ∀ s', Step s i s' →
      ((∃ j m, (Lk.tbl t, m) ∈ (s.th j).held) → s' = s.go i ((no .wouldBlock).prog key cfg n o) (s.th i).held) ∧
      ((∀ j m, (Lk.tbl t, m) ∉ (s.th j).held) → s.poisoned (.tbl t) = true →
        s' = s.go i ((no .poisoned).prog key cfg n o) (s.th i).held) ∧
      ((∀ j m, (Lk.tbl t, m) ∉ (s.th j).held) → s.poisoned (.tbl t) = false →
        s' = s.go i (.get t fun x => yes.prog key cfg n (Function.update o t (some (W.lock x)))) ((.tbl t, .wr) :: (s.th i).held)) := by
  simp only [Script.prog] at hp
  refine ⟨?_, ?_⟩
  · by_cases hf : s.Free (.tbl t) .wr
    · cases h : s.poisoned (.tbl t) with
      | true => exact ⟨_, .attPoisoned hp hf h⟩
      | false => exact ⟨_, .att hp hf h⟩
    · exact ⟨_, .attBusy hp (Or.inl hf)⟩
  · intro s' hs
    cases hs with
    | att hp' hf h =>
      rw [hp] at hp'; cases hp'
      exact ⟨fun ⟨j, m, hx⟩ => absurd hx (hf j m), fun _ h' => by (rw [h] at h'; cases h'), fun _ _ => rfl⟩
    | attPoisoned hp' hf h =>
      rw [hp] at hp'; cases hp'
      exact ⟨fun ⟨j, m, hx⟩ => absurd hx (hf j m), fun _ _ => rfl, fun _ h' => by (rw [h] at h'; cases h')⟩
    | attBusy hp' hb =>
      rw [hp] at hp'; cases hp'
      rcases hb with hb | ⟨hb, -⟩
      · exact ⟨fun _ => rfl, fun h' => absurd h' hb, fun h' => absurd h' hb⟩
      · cases hb
    | _ hp' => rw [hp] at hp'; cases hp'

/-- C63: `try_read` likewise; it is refused if a thread has the table for writing, and may also be refused while another waits to
write to it. -/
theorem C63_try_read {s : Sys S ι} {i : ι} {n : Nat} {o : Open S} {t : T} {yes : Script S} {no : TryErr → Script S}
    (hp : (s.th i).prog = (Script.tryRead t yes no).prog key cfg n o) :
    (∃ s', Step s i s') ∧ ∀ s', Step s i s' →
      ((∃ j, (Lk.tbl t, .wr) ∈ (s.th j).held) → s' = s.go i ((no .wouldBlock).prog key cfg n o) (s.th i).held) ∧
      ((∀ j, (Lk.tbl t, .wr) ∉ (s.th j).held) → s.poisoned (.tbl t) = true →
        s' = s.go i ((no .poisoned).prog key cfg n o) (s.th i).held ∨
        s' = s.go i ((no .wouldBlock).prog key cfg n o) (s.th i).held ∧ ∃ j k, j ≠ i ∧ (s.th j).prog = .acq (.tbl t) .wr k) ∧
      ((∀ j, (Lk.tbl t, .wr) ∉ (s.th j).held) → s.poisoned (.tbl t) = false →
        s' = s.go i (yes.prog key cfg n o) ((.tbl t, .rd) :: (s.th i).held) ∨
        s' = s.go i ((no .wouldBlock).prog key cfg n o) (s.th i).held ∧ ∃ j k, j ≠ i ∧ (s.th j).prog = .acq (.tbl t) .wr k) := by
  simp only [Script.prog] at hp
  refine ⟨?_, ?_⟩
  · by_cases hf : s.Free (.tbl t) .rd
    · cases h : s.poisoned (.tbl t) with
      | true => exact ⟨_, .attPoisoned hp hf h⟩
      | false => exact ⟨_, .att hp hf h⟩
    · exact ⟨_, .attBusy hp (Or.inl hf)⟩
  · intro s' hs
    cases hs with
    | att hp' hf h =>
      rw [hp] at hp'; cases hp'
      exact ⟨fun ⟨j, hx⟩ => absurd hx (hf j), fun _ h' => by (rw [h] at h'; cases h'), fun _ _ => Or.inl rfl⟩
    | attPoisoned hp' hf h =>
      rw [hp] at hp'; cases hp'
      exact ⟨fun ⟨j, hx⟩ => absurd hx (hf j), fun _ _ => Or.inl rfl, fun _ h' => by (rw [h] at h'; cases h')⟩
    | attBusy hp' hb =>
      rw [hp] at hp'; cases hp'
      refine ⟨fun _ => rfl, fun hfr _ => Or.inr ⟨rfl, ?_⟩, fun hfr _ => Or.inr ⟨rfl, ?_⟩⟩
      · rcases hb with hb | ⟨-, hb⟩
        · exact absurd hfr hb
        · exact hb
      · rcases hb with hb | ⟨-, hb⟩
        · exact absurd hfr hb
        · exact hb
    | _ hp' => rw [hp] at hp'; cases hp'

/-! ### What happens out of order -/

/-- No thread is finished and no thread can ever go on. -/
def Deadlocked (s : Sys S ι) : Prop := ∀ i, ¬ Finished s i ∧ ∀ s', ¬ Step s i s'

theorem blocked_step {s : Sys S ι} {i : ι} {l : Lk T} {m : Mode} {k : Prog S Unit} (hp : (s.th i).prog = .acq l m k)
    (hf : ¬ s.Free l m) : ¬ Finished s i ∧ ∀ s', ¬ Step s i s' := by
  constructor
  · rintro (h | ⟨⟨p, h⟩, -⟩) <;> rw [hp] at h <;> cases h
  · intro s' hs
    cases hs with
    | acq h hfr _ => rw [hp] at h; injection h with h1 h2 h3; subst h1 h2; exact hf hfr
    | acqPoisoned h hfr _ => rw [hp] at h; injection h with h1 h2 h3; subst h1 h2; exact hf hfr
    | _ h => rw [hp] at h; cases h

/-- Who does not ask for a lock for reading does not wait when the lock is free. -/
theorem nowait {waits : Sys S ι → ι → Prop} (hw : MayWait waits) {s : Sys S ι} {i : ι}
    (h : ∀ l k, (s.th i).prog = .acq l .rd k → ∀ j k', (s.th j).prog ≠ .acq l .wr k') : ¬ waits s i := by
  intro hwi
  obtain ⟨l, k, hp, j, k', -, hj⟩ := hw s i hwi
  exact h l k hp j k' hj

/-- Two threads: who does what. -/
def pair {α : Type} (a b : α) : Bool → α
  | false => a
  | true => b

/-- C63: taking the write guards of two tables in both orders can deadlock, whatever the tables hold. -/
theorem C63_opposite_orders (n : Nat) (tbl : (t : T) → Tbl (S t)) (fl : T → FlushLock) (a b : T) (hab : a ≠ b) (k1 k2 : Script S)
    (waits : Sys S Bool → Bool → Prop) (hw : MayWait waits) :
    ∃ s, Run waits (startSys key cfg n tbl fl (pair (.write a (.write b k1)) (.write b (.write a k2)))) s ∧ Deadlocked s := by
  have noread : ∀ {s : Sys S Bool} {i : Bool}, (∀ l k, (s.th i).prog ≠ .acq l .rd k) → ¬ waits s i :=
    fun h => nowait hw (fun l k hp => absurd hp (h l k))
  have h0 := Run.start (waits := waits) (s := startSys key cfg n tbl fl (pair (.write a (.write b k1)) (.write b (.write a k2))))
  have h1 := Run.step (i := false) h0 (Step.acq (l := .tbl a) (m := .wr) rfl (fun j m h => by cases h) rfl)
    (noread (by intro l k h; cases h))
  have h2 := Run.step (i := false) h1 (Step.get (t := a) rfl) (noread (by intro l k h; cases h))
  have h3 := Run.step (i := true) h2 (Step.acq (l := .tbl b) (m := .wr) rfl (fun j m h => by
      cases j
      · rcases List.mem_cons.1 h with e | e
        · injection e with e1 e2; injection e1 with e1; exact hab e1.symm
        · cases e
      · cases h) rfl)
    (noread (by intro l k h; cases h))
  have h4 := Run.step (i := true) h3 (Step.get (t := b) rfl) (noread (by intro l k h; cases h))
  refine ⟨_, h4, fun i => ?_⟩
  cases i
  · refine blocked_step (l := .tbl b) (m := .wr) rfl (fun hf => hf true .wr ?_)
    exact List.mem_cons_self
  · refine blocked_step (l := .tbl a) (m := .wr) rfl (fun hf => hf false .wr ?_)
    exact List.mem_cons_self

/-- The first thing a flush of `p` does when its first tracker is a foreign_auto column of `c`: it locks `c`. -/
theorem doFlush_locks (n : Nat) (p : T) (ev : Event) (hev : (ev.isRemoval && ev.isCreation) = false) (fk : FK S) (rest : List (Tracker S))
    (htr : cfg.trackers p = .auto fk :: rest) (h : Handler) (hh : cfg.handler ev = .ok h) :
    ∃ k, doFlushP cfg (n + 1) p ev false false .all = .acq (.tbl fk.child) .rd k := by
  simp only [doFlushP, hev, hh, htr, Prog.ofR, List.foldlM_cons, flushStepP, Tracker.considers, trackerHandleP, peekP]
  exact ⟨_, rfl⟩

theorem restore_locks (n : Nat) {c : T} (sig : Sig) (o : Own S c) (own : List (Own S c)) (x : Extraction (S c))
    (hx : x.validate sig = .ok none) (ev : Event) (k : Script S) (op : Open S) (w : W (S c)) (hop : op c = some w) :
    ∃ k', (Script.restore c sig (o :: own) x ev k).prog key cfg n op = .acq (.tbl o.parent) .rd k' := by
  simp only [Script.prog, hop, restoreP, hx, Prog.ofR]
  exact ⟨_, rfl⟩

theorem liveFlush_locks (n : Nat) (p : T) (ev : Event) (hev : (ev.isRemoval && ev.isCreation) = false) (fk : FK S) (rest : List (Tracker S))
    (htr : cfg.trackers p = .auto fk :: rest) (h : Handler) (hh : cfg.handler ev = .ok h) (k : Script S) (op : Open S)
    (x : Tbl (S p)) (hop : op p = some (W.lock x)) :
    ∃ k', (Script.call p .selectAll (.liveFlush p ev k)).prog key cfg (n + 1) op =
      .put p x (.acq (.fl p) .rd (.acq (.tbl fk.child) .rd k')) := by
  obtain ⟨k', hk⟩ := doFlush_locks (cfg := cfg) n p ev hev fk rest htr h hh
  simp only [Script.prog, hop]
  have hst : (W.lock x).step (key p) .selectAll = .ok { W.lock x with changes := .all } := rfl
  rw [hst]
  have : Prog.bind (.ret { W.lock x with changes := .all }) (fun w : W (S p) => (Script.liveFlush p ev k).prog key cfg (n + 1) (Function.update op p (some w)))
      = (Script.liveFlush p ev k).prog key cfg (n + 1) (Function.update op p (some { W.lock x with changes := .all })) := rfl
  show ∃ k', Prog.bind (.ret { W.lock x with changes := .all }) _ = _
  simp only [Prog.bind, Script.prog, Function.update_self, liveFlushP]
  have e1 : (Select.all : Select (List Nat)).isEmpty = false := rfl
  have e2 : (W.lock x).pushed = false ∧ (W.lock x).delete = false := ⟨rfl, rfl⟩
  simp only [e1, e2, hk]
  exact ⟨_, rfl⟩

/-- C63: `restore_extract` asks for the parent of a foreign column while it has the write guard of the child, so against a
`live_flush` of the parent it can deadlock, although each thread asks for one guard only. (`live_flush` of the parent locks the
children while it has the guard of the parent.) -/
theorem C63_restore_deadlocks (n : Nat) (tbl : (t : T) → Tbl (S t)) (fl : T → FlushLock) (p : T) (fk : FK S) (hpc : p ≠ fk.child)
    (rest : List (Tracker S)) (htr : cfg.trackers p = .auto fk :: rest) (ev : Event) (hev : (ev.isRemoval && ev.isCreation) = false)
    (h : Handler) (hh : cfg.handler ev = .ok h) (sig : Sig) (o : Own S fk.child) (own : List (Own S fk.child)) (hop : o.parent = p)
    (x : Extraction (S fk.child)) (hx : x.validate sig = .ok none) (ev' : Event) (k1 k2 : Script S)
    (waits : Sys S Bool → Bool → Prop) (hw : MayWait waits) :
    ∃ s, Run waits (startSys key cfg (n + 1) tbl fl (pair (.write fk.child (.restore fk.child sig (o :: own) x ev' k1))
      (.write p (.call p .selectAll (.liveFlush p ev k2))))) s ∧ Deadlocked s := by
  subst hop
  have noread : ∀ {s : Sys S Bool} {i : Bool}, (∀ l k, (s.th i).prog ≠ .acq l .rd k) → ¬ waits s i :=
    fun h => nowait hw (fun l k hp => absurd hp (h l k))
  have hr : ∀ y : Tbl (S fk.child), ∃ k', (Script.restore fk.child sig (o :: own) x ev' k1).prog key cfg (n + 1)
      (Function.update (fun _ => none) fk.child (some (W.lock y))) = .acq (.tbl o.parent) .rd k' :=
    fun y => restore_locks _ _ _ _ _ hx _ _ _ _ (Function.update_self ..)
  have hl : ∀ y : Tbl (S o.parent), ∃ k', (Script.call o.parent .selectAll (.liveFlush o.parent ev k2)).prog key cfg (n + 1)
      (Function.update (fun _ => none) o.parent (some (W.lock y))) =
        .put o.parent y (.acq (.fl o.parent) .rd (.acq (.tbl fk.child) .rd k')) :=
    fun y => liveFlush_locks _ _ _ hev fk rest htr h hh _ _ _ (Function.update_self ..)
  choose kr hr using hr
  choose kl hl using hl
  have p1 : (Script.write fk.child (.restore fk.child sig (o :: own) x ev' k1)).prog key cfg (n + 1) (fun _ => none) =
      .acq (.tbl fk.child) .wr (.get fk.child fun y => .acq (.tbl o.parent) .rd (kr y)) :=
    congrArg _ (congrArg _ (funext hr))
  have p2 : (Script.write o.parent (.call o.parent .selectAll (.liveFlush o.parent ev k2))).prog key cfg (n + 1) (fun _ => none) =
      .acq (.tbl o.parent) .wr (.get o.parent fun y => .put o.parent y (.acq (.fl o.parent) .rd (.acq (.tbl fk.child) .rd (kl y)))) :=
    congrArg _ (congrArg _ (funext hl))
  have hs : startSys key cfg (n + 1) tbl fl (pair (.write fk.child (.restore fk.child sig (o :: own) x ev' k1))
      (.write o.parent (.call o.parent .selectAll (.liveFlush o.parent ev k2)))) =
      { tbl := tbl, fl := fl, poisoned := fun _ => false, th := fun i => ⟨pair (.acq (.tbl fk.child) .wr (.get fk.child fun y =>
          .acq (.tbl o.parent) .rd (kr y))) (.acq (.tbl o.parent) .wr (.get o.parent fun y => .put o.parent y
            (.acq (.fl o.parent) .rd (.acq (.tbl fk.child) .rd (kl y))))) i, []⟩ } := by
    unfold startSys
    congr 1
    funext i
    cases i
    · exact congrArg (fun p => Thread.mk p []) p1
    · exact congrArg (fun p => Thread.mk p []) p2
  rw [hs]
  have h0 := Run.start (waits := waits) (s := ({ tbl := tbl, fl := fl, poisoned := fun _ => false, th := fun i => ⟨pair (.acq (.tbl fk.child) .wr (.get fk.child fun y =>
          .acq (.tbl o.parent) .rd (kr y))) (.acq (.tbl o.parent) .wr (.get o.parent fun y => .put o.parent y
            (.acq (.fl o.parent) .rd (.acq (.tbl fk.child) .rd (kl y))))) i, []⟩ } : Sys S Bool))
  have h1 := Run.step (i := false) h0 (Step.acq (l := .tbl fk.child) (m := .wr) rfl (fun j m h => by cases h) rfl)
    (noread (by intro l k h; cases h))
  have h2 := Run.step (i := false) h1 (Step.get (t := fk.child) rfl) (noread (by intro l k h; cases h))
  have h3 := Run.step (i := true) h2 (Step.acq (l := .tbl o.parent) (m := .wr) rfl (fun j m h => by
      cases j
      · rcases List.mem_cons.1 h with e | e
        · injection e with e1 e2; injection e1 with e1; exact hpc e1
        · cases e
      · cases h) rfl)
    (noread (by intro l k h; cases h))
  have h4 := Run.step (i := true) h3 (Step.get (t := o.parent) rfl) (noread (by intro l k h; cases h))
  have h5 := Run.step (i := true) h4 (Step.put (t := o.parent) rfl) (noread (by intro l k h; cases h))
  have h6 := Run.step (i := true) h5 (Step.acq (l := .fl o.parent) (m := .rd) rfl (fun j h => by
      cases j
      · rcases List.mem_cons.1 h with e | e
        · injection e with e1 e2; cases e1
        · cases e
      · rcases List.mem_cons.1 h with e | e
        · injection e with e1 e2; cases e1
        · cases e) rfl)
    (nowait hw (by
      intro l k h j k' h'
      cases j
      · cases h'
      · cases h'))
  refine ⟨_, h6, fun i => ?_⟩
  cases i
  · refine blocked_step (l := .tbl o.parent) (m := .rd) rfl (fun hf => hf true ?_)
    exact List.mem_cons_of_mem _ List.mem_cons_self
  · refine blocked_step (l := .tbl fk.child) (m := .rd) rfl (fun hf => hf false ?_)
    exact List.mem_cons_self

/-- The deadlock of `restore_extract` in the example universe: one thread restores children, one tells the trackers of the
parents that all rows were created. -/
example (waits : Sys UniS Bool → Bool → Prop) (hw : MayWait waits) (x : Extraction (UniS 1)) (sig : Sig)
    (hx : x.validate sig = .ok none) :
    ∃ s, Run waits (startSys uniKey { uniCfg with trackers := fun | 0 => [.auto uniFK01] | _ => [] } 5 uniTbl (fun _ => .new)
      (pair (.write 1 (.restore 1 sig [⟨0, 0, Equiv.refl Nat⟩] x evCreate .done))
        (.write 0 (.call 0 .selectAll (.liveFlush 0 evCreate (.close 0 .done)))))) s ∧ Deadlocked s :=
  C63_restore_deadlocks 4 uniTbl _ 0 uniFK01 (by decide) [] rfl evCreate rfl .null rfl sig ⟨0, 0, Equiv.refl Nat⟩ [] rfl x hx evCreate _ _ waits hw

/-- C63: with two foreign columns of the same parent `restore_extract` locks that parent twice. If waiting writers go before
readers (std allows it), another thread that only wants to write to the parent deadlocks with it. -/
theorem C63_shared_parent_deadlocks (n : Nat) (tbl : (t : T) → Tbl (S t)) (fl : T → FlushLock) (c : T)
    (o1 o2 : Own S c) (own : List (Own S c)) (hsame : o2.parent = o1.parent) (hpc : o1.parent ≠ c) (sig : Sig)
    (x : Extraction (S c)) (hx : x.validate sig = .ok none) (ev : Event) (k1 k2 : Script S) :
    ∃ (waits : Sys S Bool → Bool → Prop) (s : Sys S Bool), MayWait waits ∧
      Run waits (startSys key cfg n tbl fl (pair (.write c (.restore c sig (o1 :: o2 :: own) x ev k1)) (.write o1.parent k2))) s ∧
      ∀ i, ¬ Finished s i ∧ (waits s i ∨ ∀ s', ¬ Step s i s') := by
  let waits : Sys S Bool → Bool → Prop := fun s i => ∃ l k, (s.th i).prog = .acq l .rd k ∧ ¬ s.Free l .wr ∧
    ∃ j k', j ≠ i ∧ (s.th j).prog = .acq l .wr k'
  have hw : MayWait waits := fun s i ⟨l, k, h1, _, h2⟩ => ⟨l, k, h1, h2⟩
  have noread : ∀ {s : Sys S Bool} {i : Bool}, (∀ l k, (s.th i).prog ≠ .acq l .rd k) → ¬ waits s i :=
    fun h => nowait hw (fun l k hp => absurd hp (h l k))
  have hr : ∀ y : Tbl (S c), ∃ k' : FlushLock → Prog S Unit, (Script.restore c sig (o1 :: o2 :: own) x ev k1).prog key cfg n
      (Function.update (fun _ => none) c (some (W.lock y))) =
        .acq (.tbl o1.parent) .rd (.acq (.fl o1.parent) .rd (.getF o1.parent fun f => .acq (.tbl o1.parent) .rd (k' f))) := by
    intro y
    simp only [Script.prog, Function.update_self, restoreP, hx, Prog.ofR, lockParents, hsame]
    exact ⟨_, rfl⟩
  choose kr hr using hr
  have p1 : (Script.write c (.restore c sig (o1 :: o2 :: own) x ev k1)).prog key cfg n (fun _ => none) =
      .acq (.tbl c) .wr (.get c fun y => .acq (.tbl o1.parent) .rd (.acq (.fl o1.parent) .rd (.getF o1.parent fun f =>
        .acq (.tbl o1.parent) .rd (kr y f)))) :=
    congrArg _ (congrArg _ (funext hr))
  have p2 : ∃ k, (Script.write o1.parent k2).prog key cfg n (fun _ => none) = .acq (.tbl o1.parent) .wr k := ⟨_, rfl⟩
  obtain ⟨kw, p2⟩ := p2
  have hs : startSys key cfg n tbl fl (pair (.write c (.restore c sig (o1 :: o2 :: own) x ev k1)) (.write o1.parent k2)) =
      { tbl := tbl, fl := fl, poisoned := fun _ => false, th := fun i => ⟨pair (.acq (.tbl c) .wr (.get c fun y =>
          .acq (.tbl o1.parent) .rd (.acq (.fl o1.parent) .rd (.getF o1.parent fun f => .acq (.tbl o1.parent) .rd (kr y f)))))
          (.acq (.tbl o1.parent) .wr kw) i, []⟩ } := by
    unfold startSys
    congr 1
    funext i
    cases i
    · exact congrArg (fun p => Thread.mk p []) p1
    · exact congrArg (fun p => Thread.mk p []) p2
  rw [hs]
  have h0 := Run.start (waits := waits) (s := ({ tbl := tbl, fl := fl, poisoned := fun _ => false, th := fun i => ⟨pair (.acq (.tbl c) .wr (.get c fun y =>
          .acq (.tbl o1.parent) .rd (.acq (.fl o1.parent) .rd (.getF o1.parent fun f => .acq (.tbl o1.parent) .rd (kr y f)))))
          (.acq (.tbl o1.parent) .wr kw) i, []⟩ } : Sys S Bool))
  have h1 := Run.step (i := false) h0 (Step.acq (l := .tbl c) (m := .wr) rfl (fun j m h => by cases h) rfl)
    (noread (by intro l k h; cases h))
  have h2 := Run.step (i := false) h1 (Step.get (t := c) rfl) (noread (by intro l k h; cases h))
  have free : ∀ j, (Lk.tbl o1.parent, Mode.wr) ∉ ((pair ⟨.ret (), [(Lk.tbl c, Mode.wr)]⟩ ⟨.ret (), []⟩ : Bool → Thread S) j).held := by
    intro j h
    cases j
    · rcases List.mem_cons.1 h with e | e
      · injection e with e1 e2; injection e1 with e1; exact hpc e1
      · cases e
    · cases h
  have h3 := Run.step (i := false) h2 (Step.acq (l := .tbl o1.parent) (m := .rd) rfl (fun j h => by
      cases j
      · exact free false h
      · exact free true h) rfl)
    (by
      rintro ⟨l, k, hp, hn, -⟩
      have hl : l = .tbl o1.parent := by injection hp with e1 e2 e3; exact e1.symm
      subst hl
      refine hn (fun j m h => ?_)
      cases j
      · rcases List.mem_cons.1 h with e | e
        · injection e with e1 e2; injection e1 with e1; exact hpc e1
        · cases e
      · cases h)
  have h4 := Run.step (i := false) h3 (Step.acq (l := .fl o1.parent) (m := .rd) rfl (fun j h => by
      cases j
      · rcases List.mem_cons.1 h with e | e
        · injection e with e1 e2; cases e1
        · rcases List.mem_cons.1 e with e | e
          · injection e with e1 e2; cases e1
          · cases e
      · cases h) rfl)
    (nowait hw (by
      intro l k h j k' h'
      cases j
      · cases h'
      · have e1 : l = .fl o1.parent := by injection h with e1 e2 e3; exact e1.symm
        subst e1
        cases h'))
  have h5 := Run.step (i := false) h4 (Step.getF (t := o1.parent) rfl) (noread (by intro l k h; cases h))
  refine ⟨waits, _, hw, h5, fun i => ?_⟩
  cases i
  · refine ⟨?_, Or.inl ⟨.tbl o1.parent, _, rfl, ?_, true, kw, by decide, rfl⟩⟩
    · rintro (h | ⟨⟨p, h⟩, -⟩) <;> cases h
    · intro h
      exact h false .rd (List.mem_cons_of_mem _ List.mem_cons_self)
  · refine And.imp_right Or.inr (blocked_step (l := .tbl o1.parent) (m := .wr) (k := kw) rfl (fun h => h false .rd ?_))
    exact List.mem_cons_of_mem _ List.mem_cons_self

/-! ## C64 -/

/-- C64: any threads, whatever locks they ask for in whatever order, whatever they flush or restore. While a thread has a guard on
a table (for reading or for writing), no step of another thread changes its rows, and no other thread has a guard for writing. -/
theorem C64_isolated (scripts : ι → Script S) (ho : ∀ i, Guarded [] (scripts i)) (tbl : (t : T) → Tbl (S t))
    (ht : ∀ t, Reach (key t) false (tbl t)) (fl : T → FlushLock)
    (waits : Sys S ι → ι → Prop) (n : Nat) (s : Sys S ι) (hr : Run waits (startSys key cfg n tbl fl scripts) s)
    (i j : ι) (hij : i ≠ j) (t : T) (m : Mode) (hi : (.tbl t, m) ∈ (s.th i).held) :
    (.tbl t, .wr) ∉ (s.th j).held ∧ ∀ s', Step s j s' → s'.tbl t = s.tbl t := by
  have hg := (start_sound (cfg := cfg) n scripts ho tbl ht fl).run hr
  have hx : (Lk.tbl t, Mode.wr) ∉ (s.th j).held := fun hj => hg.excl j i _ m hij.symm hj hi
  refine ⟨hx, fun s' hs => ?_⟩
  cases hs with
  | @put t' x k hp =>
    have ht := hg.careful j
    rw [hp] at ht
    show Function.update s.tbl t' x t = s.tbl t
    rw [Function.update_of_ne]
    rintro rfl
    exact hx ht.1
  | _ => rfl

/-- C64: in every schedule of any threads, at every moment, every table is the result of a history of structural operations; so
what was proved for those (C10, C11, …) holds of every table in every schedule. -/
theorem C64_reachable (scripts : ι → Script S) (ho : ∀ i, Guarded [] (scripts i)) (tbl : (t : T) → Tbl (S t))
    (ht : ∀ t, Reach (key t) false (tbl t)) (fl : T → FlushLock)
    (waits : Sys S ι → ι → Prop) (n : Nat) (s : Sys S ι) (hr : Run waits (startSys key cfg n tbl fl scripts) s) (t : T) :
    Reach (key t) false (s.tbl t) :=
  ((start_sound (cfg := cfg) n scripts ho tbl ht fl).run hr).rows t

/-! ### Threads that run alone: the programs are the functions of the other models -/

/-- C64: `t::write(universe)`, calls, `flush`. -/
theorem C64_session_alone (n : Nat) (t : T) (ops : List (LOp (S t))) (ev : Event) (u : Uni S) :
    ((Script.write t (Script.session t ev .done ops)).prog key cfg n (fun _ => none)).run u =
      (session cfg n key t ops ev u.env >>= fun env => .ok ((), { u with env := env })) := by
  have main : ∀ (ops : List (LOp (S t))) (w : W (S t)) (o : Open S) (u : Uni S), o t = some w →
      ((Script.session t ev .done ops).prog key cfg n o).run u =
        (w.steps (key t) ops >>= fun w => flush cfg n t w ev u.env >>= fun env => .ok ((), { u with env := env })) := by
    intro ops
    induction ops with
    | nil =>
      intro w o u ho
      simp only [Script.session, Script.prog, ho]
      rw [Prog.run_bind, run_flushP, liftE_bind]
      rfl
    | cons op ops ih =>
      intro w o u ho
      simp only [Script.session, Script.prog, ho]
      unfold W.steps
      rw [List.foldlM_cons, Prog.run_bind, run_ofR, bindAssoc, bindAssoc]
      refine bindCongr (fun w' hw' => ?_)
      rw [okBind]
      exact ih w' _ u (Function.update_self ..)
  simp only [Script.prog]
  unfold session
  rw [Prog.run_bind, run_lockP, liftU_bind, bindAssoc]
  refine bindCongr (fun x hx => ?_)
  obtain ⟨w, env⟩ := x
  simp only []
  rw [main ops w _ _ (Function.update_self ..), bindAssoc]

/-- C64: `live_flush`, `select_rows` and `restore_extract`. -/
theorem C64_calls_alone (n : Nat) (t : T) (ev : Event) (u : Uni S) (w : W (S t)) (sel : Select (List Nat)) (sig : Sig)
    (own : List (Own S t)) (x : Extraction (S t)) :
    (liveFlushP cfg n t w ev).run u = liveFlushU cfg n t w ev u ∧
    (do Prog.lock (.tbl t) .rd; readSelectP cfg n t ev sel : Prog S Unit).run u =
      (readSelect cfg n t ev sel u.env >>= fun env => .ok ((), { u with env := env })) ∧
    (restoreP key cfg n t sig own x ev w).run u = restoreExtract key cfg n t sig own x ev w u :=
  ⟨run_liveFlushP cfg n t w ev u, run_readSelectP cfg n t ev sel u, run_restoreP key cfg n sig own x ev w u⟩

/-! ## C65 -/

/-- C65: threads that each run sessions (lock a table, look at its rows, change it depending on what is there, flush with an event
that removes nothing). In every state of every schedule the tables are as if the sessions that have taken effect had
been run one after another by a single thread, those of each thread in its order; all of them if the thread has returned. -/
theorem C65_serialisable (L : ι → List (Sess S)) (hL : ∀ i, ∀ s ∈ L i, s.ev.isRemoval = false ∧ cfg.handler s.ev ≠ .ok .delete)
    (tbl : (t : T) → Tbl (S t)) (fl : T → FlushLock) (waits : Sys S ι → ι → Prop) (n : Nat) (s : Sys S ι)
    (hr : Run waits (startSys key cfg n tbl fl (fun i => Script.sessions (L i))) s) :
    ∃ order : List (ι × Sess S), Effects key tbl (order.map (·.2)) s.tbl ∧
      ∀ i, (order.filter (fun x => decide (x.1 = i))).map (·.2) <+: L i ∧
        ((s.th i).prog = .ret () → (order.filter (fun x => decide (x.1 = i))).map (·.2) = L i) := by
  have h0 : Ser key L tbl (startSys key cfg n tbl fl (fun i => Script.sessions (L i))) (fun i => .idle (L i)) [] := by
    constructor
    · exact fun i => lin_sessions n (L i) (hL i) _
    · exact fun i t h => by cases h
    · exact fun i q x M h => by cases h
    · exact fun i j l m _ h => by cases h
    · exact fun i => rfl
    · exact Effects.nil
  obtain ⟨ph, order, h⟩ := h0.run hr
  refine ⟨order, h.eff, fun i => ⟨⟨_, h.proj i⟩, fun hp => ?_⟩⟩
  have hl := h.lin i
  rw [hp] at hl
  have he : ph i = .idle [] := hl
  have := h.proj i
  rw [he] at this
  simpa [Ph.pending] using this

/-- Read a cell, store `f` of what was there: `let mut x = t::write(u); x.col[i] = f(x.col[i]); x.flush(u, ev)`. -/
def modifyCell (t : T) (i : Nat) (j : Fin ((S t).n + 1)) (f : (S t).E j → (S t).E j) (ev : Event) : Sess S where
  t := t
  ops x := match x.view i with
    | some r => [.set j i (f (r j))]
    | none => []
  ev := ev

theorem modifyCell_effects {t : T} {i : Nat} {j : Fin ((S t).n + 1)} {f : (S t).E j → (S t).E j} {ev : Event} {a b : (t : T) → Tbl (S t)}
    (ha : Reach (key t) true (a t)) {r : Row (S t)} (hv : (a t).view i = some r) {l : List (Sess S)} (hl : ∀ s ∈ l, s = modifyCell t i j f ev)
    (h : Effects key a l b) :
    Reach (key t) true (b t) ∧ (b t).view i = some (Function.update r j (f^[l.length] (r j))) ∧ ∀ k, k ≠ i → (b t).view k = (a t).view k := by
  induction h with
  | nil => exact ⟨ha, by simpa using hv, fun _ _ => rfl⟩
  | @snoc l s b c _ he ih =>
    obtain ⟨h1, h2, h3⟩ := ih (fun s hs => hl s (List.mem_append_left _ hs))
    have es : s = modifyCell t i j f ev := hl s (by simp)
    subst es
    obtain ⟨w, hw, hc⟩ := he
    have hops : (modifyCell t i j f ev).ops (b (modifyCell t i j f ev).t) = [.set j i (f ((Function.update r j (f^[l.length] (r j))) j))] := by
      show (match (b t).view i with | some r => [LOp.set j i (f (r j))] | none => []) = _
      rw [h2]
      rfl
    rw [hops] at hw
    have hset : ∃ t', (b t).setCell j i (f (f^[l.length] (r j))) = .ok t' ∧ w.tbl = t' := by
      replace hw : (W.lock (b t)).setCell j i (f (f^[l.length] (r j))) = .ok w := by
        simpa [W.steps, W.step, modifyCell] using hw
      unfold W.setCell at hw
      cases e : (b t).setCell j i (f (f^[l.length] (r j))) with
      | error p =>
        have : (W.lock (b t)).tbl.setCell j i (f (f^[l.length] (r j))) = .error p := e
        rw [this] at hw; cases hw
      | ok t' =>
        have : (W.lock (b t)).tbl.setCell j i (f (f^[l.length] (r j))) = .ok t' := e
        rw [this] at hw
        injection hw with hw
        exact ⟨t', rfl, by rw [← hw]⟩
    obtain ⟨t', h4, h5⟩ := hset
    have hct : c t = t' := by rw [hc, ← h5]; exact Function.update_self ..
    have hwr := C14_write_exact (key := key t) (b t) t' h1 j i _ h4
    rw [hct]
    refine ⟨Reach.step (op := .set j i (f (f^[l.length] (r j)))) h1 trivial (fun _ h => by cases h) h4, ?_, fun k hk => ?_⟩
    · rw [hwr.2.2.2, h2]
      simp only [Option.map_some, Function.update_idem, List.length_append, List.length_cons, List.length_nil, Nat.zero_add, Function.iterate_succ_apply']
    · rw [hwr.2.2.1 k hk]; exact h3 k hk

/-- The elements of a list, thread by thread. -/
theorem length_by_thread [Fintype ι] {β : Type} (l : List (ι × β)) : l.length = ∑ i, (l.filter (fun x => decide (x.1 = i))).length := by
  induction l with
  | nil => simp
  | cons x l ih =>
    have : ∀ i, ((x :: l).filter (fun x => decide (x.1 = i))).length = (if x.1 = i then 1 else 0) + (l.filter (fun x => decide (x.1 = i))).length := by
      intro i
      by_cases h : x.1 = i
      · simp [h, Nat.add_comm]
      · simp [h]
    simp only [this, Finset.sum_add_distrib, List.length_cons, ← ih]
    simp [Nat.add_comm]

/-- C65: no update is lost. However many threads store `f` of what they read in one cell, each however often, under any schedule:
when all have returned, `f` was applied exactly that many times, and nothing else in the table has changed. -/
theorem C65_no_lost_update [Fintype ι] (t : T) (i : Nat) (j : Fin ((S t).n + 1)) (f : (S t).E j → (S t).E j) (ev : Event)
    (hev : ev.isRemoval = false) (hh : cfg.handler ev ≠ .ok .delete) (times : ι → Nat)
    (tbl : (t : T) → Tbl (S t)) (ht : Reach (key t) true (tbl t)) (r : Row (S t)) (hv : (tbl t).view i = some r)
    (fl : T → FlushLock) (waits : Sys S ι → ι → Prop) (n : Nat) (s : Sys S ι)
    (hr : Run waits (startSys key cfg n tbl fl (fun k => Script.sessions (List.replicate (times k) (modifyCell t i j f ev)))) s)
    (hdone : ∀ k, (s.th k).prog = .ret ()) :
    (s.tbl t).view i = some (Function.update r j (f^[∑ k, times k] (r j))) ∧ ∀ k, k ≠ i → (s.tbl t).view k = (tbl t).view k := by
  obtain ⟨order, he, ho⟩ := C65_serialisable (key := key) (cfg := cfg) (fun k => List.replicate (times k) (modifyCell t i j f ev))
    (fun k s hs => by rw [List.eq_of_mem_replicate hs]; exact ⟨hev, hh⟩) tbl fl waits n s hr
  have hall : ∀ s ∈ order.map (·.2), s = modifyCell t i j f ev := by
    intro s hs
    obtain ⟨⟨k, s'⟩, h1, rfl⟩ := List.mem_map.1 hs
    have hm : s' ∈ (order.filter (fun x => decide (x.1 = k))).map (·.2) :=
      List.mem_map.2 ⟨(k, s'), List.mem_filter.2 ⟨h1, by simp⟩, rfl⟩
    rw [(ho k).2 (hdone k)] at hm
    exact List.eq_of_mem_replicate hm
  have hlen : (order.map (·.2)).length = ∑ k, times k := by
    rw [List.length_map, length_by_thread]
    refine Finset.sum_congr rfl (fun k _ => ?_)
    have := congrArg List.length ((ho k).2 (hdone k))
    simpa using this
  obtain ⟨-, h2, h3⟩ := modifyCell_effects ht hv hall he
  rw [hlen] at h2
  exact ⟨h2, h3⟩

/-- Two threads, each adding one to a cell of table 0. -/
def uniIncr : Sess UniS := modifyCell 0 0 1 (fun v : Nat => v + 1) evCreate

/-- There is a schedule in which both return (what they store is `uniIncr`, so the cell then is what it was plus 2). -/
example : ∃ s, Run (fun _ _ => False) (startSys uniKey uniCfg 5 uniTbl (fun _ => .new)
      (fun _ : Bool => Script.sessions (List.replicate 1 uniIncr))) s ∧ (∀ k, (s.th k).prog = .ret ()) ∧
      uniView (s.tbl 0) 2 = [some (10, 2), some (11, 0)] := by
  have h0 := Run.start (waits := fun _ _ => False) (s := startSys uniKey uniCfg 5 uniTbl (fun _ => .new)
      (fun _ : Bool => Script.sessions (List.replicate 1 uniIncr)))
  have h1 := Run.step (i := false) h0 (Step.acq (l := .tbl 0) (m := .wr) rfl (fun j m h => by cases h) rfl) id
  have h2 := Run.step (i := false) h1 (Step.get (t := 0) rfl) id
  have h3 := Run.step (i := false) h2 (Step.put (t := 0) rfl) id
  have h4 := Run.step (i := false) h3 (Step.rel (l := .tbl 0) (m := .wr) rfl) id
  have h5 := Run.step (i := true) h4 (Step.acq (l := .tbl 0) (m := .wr) rfl (fun j m h => by cases j <;> cases h) rfl) id
  have h6 := Run.step (i := true) h5 (Step.get (t := 0) rfl) id
  have h7 := Run.step (i := true) h6 (Step.put (t := 0) rfl) id
  have h8 := Run.step (i := true) h7 (Step.rel (l := .tbl 0) (m := .wr) rfl) id
  refine ⟨_, h8, fun k => ?_, ?_⟩
  · cases k <;> rfl
  · rfl

end V11
