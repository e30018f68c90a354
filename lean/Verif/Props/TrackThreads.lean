import Verif.Lemmas.TrackOrder
import Mathlib.Data.Fintype.Basic
import Mathlib.Data.Fintype.Sets

/-!
# Trackers registered while threads run (C85)
-/

set_option linter.unusedSimpArgs false
set_option linter.unusedVariables false
set_option linter.unusedSectionVars false

namespace V11
open TkSys
variable {T X ι : Type} [DecidableEq T] [DecidableEq ι] {Code : T → X → List (TkOp T X) → Prop}

theorem TkSys.go_same (s : TkSys T X ι) (i : ι) (x : TkThread T X) : (s.go i x).th i = x := Function.update_self _ _ _

theorem TkSys.go_ne (s : TkSys T X ι) {i j : ι} (h : j ≠ i) (x : TkThread T X) : (s.go i x).th j = s.th j := Function.update_of_ne h _ _

/-! ## What trackers are told -/

/-- C85: every flush tells the trackers that were registered when it began, in the order they were registered, each once: all of
them if it has ended, the first ones otherwise. Nobody is registered on that table until it has ended. A thread that has done
everything has ended all its flushes. For any programs and trackers, whatever they lock. -/
theorem C85_told {trk : T → List X} {progs : ι → List (TkOp T X)} {waits : TkSys T X ι → ι → Prop} {s : TkSys T X ι}
    (hr : Run Code waits (TkSys.start trk progs) s) (a b : List (TkEv T X ι)) (n : Nat) (i : ι) (t : T)
    (hlog : s.log = a ++ .began n i t :: b) :
    (∃ rest, toldBy n b ++ rest = trk t ++ registeredOn t a ∧ (.ended n ∈ b → rest = [])) ∧
    (∀ b1 b2 j x, b = b1 ++ .reg j t x :: b2 → .ended n ∈ b1) ∧
    (Done s i → .ended n ∈ b) := by
  obtain ⟨_, h⟩ := (tk_run hr).state a b n i t hlog
  rcases h with ⟨j, hj, hle, ht, hrg, hen⟩ | ⟨b1, b2, hb, ht, ht2, hrg, hen, hen2, hc⟩
  · refine ⟨⟨(trk t ++ registeredOn t a).drop j, ?_, fun h => absurd h hen⟩, ?_, ?_⟩
    · rw [ht, List.take_append_drop]
    · intro c1 c2 j' x e
      rw [e, registeredOn_append] at hrg
      have := (List.append_eq_nil_iff.1 hrg).2
      simp [registeredOn, TkEv.regOn] at this
    · intro hd
      rw [show (s.th i).todo = [] from hd] at hj
      cases hj
  · refine ⟨⟨[], ?_, fun _ => rfl⟩, ?_, fun _ => by rw [hb]; simp⟩
    · rw [hb, toldBy_append, ht]
      have : toldBy n (TkEv.ended n :: b2 : List (TkEv T X ι)) = toldBy n b2 := rfl
      rw [this, ht2, List.append_nil, List.append_nil]
    · intro c1 c2 j x e
      rw [hb] at e
      rcases List.append_eq_append_iff.1 e with ⟨c, hc1, hc2⟩ | ⟨c, hc1, hc2⟩
      · rw [hc1]
        cases c with
        | nil => simp at hc2
        | cons y c => injection hc2 with hy; rw [← hy]; simp
      · rw [hc1, registeredOn_append] at hrg
        have h2 := (List.append_eq_nil_iff.1 hrg).2
        cases c with
        | nil => simp at hc2
        | cons y c =>
          injection hc2 with hy hc2
          rw [← hy] at h2
          simp [registeredOn, TkEv.regOn] at h2

/-- C85: at every time a table has the trackers it had at the start and those registered since, in that order. None is lost, none
is doubled. -/
theorem C85_list {trk : T → List X} {progs : ι → List (TkOp T X)} {waits : TkSys T X ι → ι → Prop} {s : TkSys T X ι}
    (hr : Run Code waits (TkSys.start trk progs) s) (t : T) : s.trackers t = trk t ++ registeredOn t s.log :=
  (tk_run hr).list t

/-- C85: what a thread has asked to register has been registered when it has done everything, in the order asked for (trackers it
called may have registered others in between); and nothing else, if trackers register nothing. -/
theorem C85_registered {trk : T → List X} {progs : ι → List (TkOp T X)} {waits : TkSys T X ι → ι → Prop} {s : TkSys T X ι}
    (hr : Run Code waits (TkSys.start trk progs) s) (i : ι) (hd : Done s i) :
    ((progs i).filterMap TkOp.registers).Sublist (registeredBy i s.log) ∧
      ((∀ t x ops, Code t x ops → ops.filterMap TkOp.registers = []) → registeredBy i s.log = (progs i).filterMap TkOp.registers) := by
  have := regs_run hr i
  unfold TkSys.regs at this
  rw [show (s.th i).todo = [] from hd] at this
  simpa using this

/-! ## A lock order -/

/-- C85: if the threads and the trackers ask for locks from higher to lower levels — each table's lock and the lock of its list of
trackers having any level — then in every state of every schedule all have finished or some thread can go on; registering is
allowed at any time. -/
theorem C85_no_deadlock (lev : Lk T → Nat) (hcode : CodeInOrder lev Code) (hsome : ∀ t x, ∃ ops, Code t x ops) (trk : T → List X)
    (progs : ι → List (TkOp T X)) (hp : ∀ i, TkOrder lev [] (progs i)) (waits : TkSys T X ι → ι → Prop) (hw : MayWait waits)
    (s : TkSys T X ι) (hr : Run Code waits (TkSys.start trk progs) s) :
    (∀ i, Done s i) ∨ ∃ i s', Step Code s i s' ∧ ¬ waits s i :=
  progress hsome hw (fit_run hcode hp hr)

/-- C85: and no schedule is infinite. (Here it is enough that trackers ask for locks below that of the list they are on.) -/
theorem C85_no_infinite_schedule [Fintype ι] (lev : Lk T → Nat)
    (hcode : ∀ t x ops, Code t x ops → ∀ op ∈ ops, ∀ l ∈ op.asks, lev l < lev (.fl t)) (trk : T → List X)
    (progs : ι → List (TkOp T X)) (f : Nat → TkSys T X ι) (h0 : f 0 = TkSys.start trk progs)
    (hf : ∀ k, ∃ i, Step Code (f k) i (f (k + 1))) : False := by
  have hinv : ∀ k, TkInv trk (f k) := by
    intro k
    induction k with
    | zero => rw [h0]; exact tk_start trk progs
    | succ k ih => obtain ⟨i, hi⟩ := hf k; exact tk_step ih hi
  exact no_infinite (fun k => (f k).wts lev) (fun k => by obtain ⟨i, hi⟩ := hf k; exact step_lighter hcode (hinv k) hi)

theorem TkSys.Run.trans {waits : TkSys T X ι → ι → Prop} {s s' s'' : TkSys T X ι} (h : Run Code waits s s') (h' : Run Code waits s' s'') :
    Run Code waits s s'' := by
  induction h' with
  | start => exact h
  | step _ hs hn ih => exact .step ih hs hn

/-- C85: whatever has happened so far, all threads can finish. -/
theorem C85_completes [Fintype ι] (lev : Lk T → Nat) (hcode : CodeInOrder lev Code) (hsome : ∀ t x, ∃ ops, Code t x ops) (trk : T → List X)
    (progs : ι → List (TkOp T X)) (hp : ∀ i, TkOrder lev [] (progs i)) (waits : TkSys T X ι → ι → Prop) (hw : MayWait waits)
    (s : TkSys T X ι) (hr : Run Code waits (TkSys.start trk progs) s) : ∃ s', Run Code waits s s' ∧ ∀ i, Done s' i := by
  have wf := InvImage.wf (fun s : TkSys T X ι => s.wts lev) (Multiset.wellFounded_isDershowitzMannaLT (α := Nat ×ₗ WithTop Nat))
  induction s using wf.induction with
  | _ s ih =>
    rcases C85_no_deadlock lev hcode hsome trk progs hp waits hw s hr with h | ⟨i, s', hs, hn⟩
    · exact ⟨s, .start, h⟩
    · obtain ⟨s'', h1, h2⟩ := ih s' (step_lighter (fun t x ops hc => (hcode t x ops hc).2) (tk_run hr) hs) (.step hr hs hn)
      exact ⟨s'', TkSys.Run.trans (.step .start hs hn) h1, h2⟩

/-- C85: `foreign_auto` trackers keep the order if the graph has no cycle: tables by rank, each list of trackers just below
its table. -/
theorem C85_derived (deps : T → T → Prop) (rank : T → Nat) (hac : ∀ t c, deps t c → rank c < rank t) :
    CodeInOrder (X := X) (byRank rank) (fun t _ ops => AutoCode deps t ops) := by
  rintro t x ops ⟨h, c, all, hd, rfl⟩
  have hlt := hac t c hd
  constructor
  · cases h <;> rcases all with _ | _ | _ <;> simp [autoOps, TkOrder, byRank]
  · cases h <;> rcases all with _ | _ | _ <;> simp [autoOps, TkOp.asks, byRank] <;> omega

/-- C85: the documentation of `Tracker::handle` lets a tracker lock its own table. That keeps the order too, on tables that no
`foreign_auto` column makes a dependant — if nobody registers a tracker on that table while the threads run, and nobody calls
`live_flush` on it (`C85_own_excludes`). -/
theorem C85_own_table (deps : T → T → Prop) (rank : T → Nat) (own : T → Bool)
    (hac : ∀ t c, deps t c → rank c < rank t ∧ own c = false) :
    CodeInOrder (X := X) (byRankOwn own rank)
      (fun t _ ops => AutoCode deps t ops ∨ own t = true ∧ ∃ m, ops = [.lock t m, .unlock t m]) := by
  rintro t x ops (⟨h, c, all, hd, rfl⟩ | ⟨ho, m, rfl⟩)
  · obtain ⟨hlt, hown⟩ := hac t c hd
    constructor
    · cases h <;> rcases all with _ | _ | _ <;> simp [autoOps, TkOrder, byRankOwn, hown]
    · cases h <;> rcases all with _ | _ | _ <;> simp [autoOps, TkOp.asks, byRankOwn, hown] <;> split <;> omega
  · constructor
    · simp [TkOrder]
    · simp [TkOp.asks, byRankOwn, ho]

/-- C85: an order in which trackers of `t` may lock `t` has no room for `register_tracker` on `t`, for `live_flush` of `t`, or for a
cascade that reaches `t`. -/
theorem C85_own_excludes (lev : Lk T → Nat) (t : T) (hown : lev (.tbl t) < lev (.fl t)) (h : List (T × Mode)) (k : List (TkOp T X)) (x : X) :
    ¬ TkOrder lev h (.register t x :: k) ∧ ¬ TkOrder lev h (.run t :: k) ∧ ¬ TkOrder lev h (.liveFlush t :: k) := by
  refine ⟨fun ho => ?_, fun ho => ?_, fun ho => ?_⟩
  · have := ho.2.1; omega
  · have := ho.2.1; omega
  · have := ho.2.1 _ ho.1; simp at this; omega

/-! ## What is left out hangs -/

/-- Thread `i` is in, or about to begin, a flush of `t` while it has a guard of `t`, and the first tracker wants to lock `t`. -/
def OwnStuck (t : T) (x : X) (i : ι) (s : TkSys T X ι) : Prop :=
  (∃ m, (t, m) ∈ (s.th i).tb) ∧ (s.trackers t)[0]? = some x ∧
  ((∃ k, (s.th i).todo = .enter t :: k) ∨ (∃ n k, (s.th i).todo = .iter n t 0 :: k) ∨ ∃ k, (s.th i).todo = .acq t .wr :: k)

theorem trackers_step {s s' : TkSys T X ι} {j : ι} (hs : Step Code s j s') (t : T) {x : X} (h : (s.trackers t)[0]? = some x) :
    (s'.trackers t)[0]? = some x := by
  cases hs with
  | @push t' y k hp =>
    show (Function.update s.trackers t' (s.trackers t' ++ [y]) t)[0]? = some x
    by_cases e : t = t'
    · subst e
      rw [Function.update_self]
      exact log_append_get _ h
    · rw [Function.update_of_ne e]; exact h
  | _ => exact h

theorem others_step {s s' : TkSys T X ι} {i j : ι} (hs : Step Code s j s') (hij : i ≠ j) : s'.th i = s.th i := by
  cases hs <;> exact Function.update_of_ne hij _ _

theorem ownStuck_step {t : T} {x : X} (hcode : ∀ ops, Code t x ops → ∃ k, ops = .lock t .wr :: k) {s s' : TkSys T X ι} {i j : ι}
    (h : OwnStuck t x i s) (hs : Step Code s j s') : OwnStuck t x i s' := by
  obtain ⟨⟨m, hm⟩, hx, hsh⟩ := h
  refine ⟨?_, trackers_step hs t hx, ?_⟩
  · by_cases e : i = j
    · subst e
      rcases hsh with ⟨k, hk⟩ | ⟨n, k, hk⟩ | ⟨k, hk⟩
      · cases hs with
        | enter hp hf =>
          refine ⟨m, ?_⟩
          show _ ∈ ((s.go i _).th i).tb
          rw [show ∀ y, (s.go i y).th i = y from fun y => Function.update_self _ _ _]; exact hm
        | _ hp => rw [hk] at hp; cases hp
      · cases hs with
        | tell hp hx' hc =>
          refine ⟨m, ?_⟩
          show _ ∈ ((s.go i _).th i).tb
          rw [show ∀ y, (s.go i y).th i = y from fun y => Function.update_self _ _ _]; exact hm
        | leave hp hx' => rw [hk] at hp; injection hp with hp; injection hp with e1 e2 e3; subst e2 e3; rw [hx] at hx'; cases hx'
        | _ hp => rw [hk] at hp; cases hp
      · cases hs with
        | acq hp hf =>
          rw [hk] at hp; injection hp with hp; injection hp with e1 e2; subst e1 e2
          exact absurd hm (hf i m)
        | _ hp => rw [hk] at hp; cases hp
    · rw [others_step hs e]; exact ⟨m, hm⟩
  · by_cases e : i = j
    · subst e
      rcases hsh with ⟨k, hk⟩ | ⟨n, k, hk⟩ | ⟨k, hk⟩
      · cases hs with
        | enter hp hf =>
          rw [hk] at hp; injection hp with hp hp2; injection hp with e1; subst e1 hp2
          right; left
          refine ⟨s.log.length, k, ?_⟩
          show ((s.go i _).th i).todo = _
          rw [show ∀ y, (s.go i y).th i = y from fun y => Function.update_self _ _ _]
        | _ hp => rw [hk] at hp; cases hp
      · cases hs with
        | tell hp hx' hc =>
          rw [hk] at hp; injection hp with hp hp2; injection hp with e1 e2 e3; subst e1 e2 e3 hp2
          rw [hx] at hx'; injection hx' with hx'; subst hx'
          obtain ⟨k', rfl⟩ := hcode _ hc
          right; right
          refine ⟨tkActs k' ++ .iter n t 1 :: k, ?_⟩
          show ((s.go i _).th i).todo = _
          rw [show ∀ y, (s.go i y).th i = y from fun y => Function.update_self _ _ _]
          rfl
        | leave hp hx' => rw [hk] at hp; injection hp with hp; injection hp with e1 e2 e3; subst e2 e3; rw [hx] at hx'; cases hx'
        | _ hp => rw [hk] at hp; cases hp
      · cases hs with
        | acq hp hf =>
          rw [hk] at hp; injection hp with hp; injection hp with e1 e2; subst e1 e2
          exact absurd hm (hf i m)
        | _ hp => rw [hk] at hp; cases hp
    · rw [others_step hs e]; exact hsh

/-- C85: a tracker that locks its own table for editing, as the documentation of `Tracker::handle` says it may, hangs every cascade
that reaches the table (`Function::run` reads the table while it calls the trackers): the thread never finishes, in
no schedule, whatever the others do. -/
theorem C85_cascade_hangs (trk : T → List X) (progs : ι → List (TkOp T X)) (t : T) (x : X) (rest : List X) (htrk : trk t = x :: rest)
    (hcode : ∀ ops, Code t x ops → ∃ k, ops = .lock t .wr :: k) (i : ι) (k : List (TkOp T X)) (hi : progs i = .run t :: k)
    (waits : TkSys T X ι → ι → Prop) (s : TkSys T X ι) (hr : Run Code waits (TkSys.start trk progs) s) : ¬ Done s i := by
  have inv : (∃ k, (s.th i).todo = .acq t .rd :: .enter t :: k ∧ (s.trackers t)[0]? = some x) ∨ OwnStuck t x i s := by
    induction hr with
    | start =>
      left
      exact ⟨.rel t .rd :: tkActs k, by simp [TkSys.start, hi, tkActs, TkOp.acts], by simp [TkSys.start, htrk]⟩
    | @step s1 s2 j _ hs _ ih =>
      rcases ih with ⟨k, hk, hx⟩ | ih
      · by_cases e : i = j
        · subst e
          right
          cases hs with
          | acq hp hf =>
            rw [hk] at hp; injection hp with hp hp2; injection hp with e1 e2; subst e1 e2 hp2
            refine ⟨⟨.rd, ?_⟩, hx, .inl ⟨k, ?_⟩⟩
            · show _ ∈ ((s1.go i _).th i).tb
              rw [show ∀ y, (s1.go i y).th i = y from fun y => Function.update_self _ _ _]; simp
            · show ((s1.go i _).th i).todo = _
              rw [show ∀ y, (s1.go i y).th i = y from fun y => Function.update_self _ _ _]
          | _ hp => rw [hk] at hp; cases hp
        · left
          rw [others_step hs e]
          exact ⟨k, hk, trackers_step hs t hx⟩
      · exact .inr (ownStuck_step hcode ih hs)
  intro hd
  replace hd : (s.th i).todo = [] := hd
  rcases inv with ⟨k, hk, _⟩ | ⟨_, _, ⟨k, hk⟩ | ⟨n, k, hk⟩ | ⟨k, hk⟩⟩ <;> (rw [hd] at hk; cases hk)

/-- C85: so does every `live_flush` of the table. -/
theorem C85_live_flush_hangs (trk : T → List X) (progs : ι → List (TkOp T X)) (t : T) (x : X) (rest : List X) (htrk : trk t = x :: rest)
    (hcode : ∀ ops, Code t x ops → ∃ k, ops = .lock t .wr :: k) (i : ι) (k : List (TkOp T X))
    (hi : progs i = .lock t .wr :: .liveFlush t :: k)
    (waits : TkSys T X ι → ι → Prop) (s : TkSys T X ι) (hr : Run Code waits (TkSys.start trk progs) s) : ¬ Done s i := by
  have inv : (∃ k, (s.th i).todo = .acq t .wr :: .enter t :: k ∧ (s.trackers t)[0]? = some x) ∨ OwnStuck t x i s := by
    induction hr with
    | start =>
      left
      exact ⟨tkActs k, by simp [TkSys.start, hi, tkActs, TkOp.acts], by simp [TkSys.start, htrk]⟩
    | @step s1 s2 j _ hs _ ih =>
      rcases ih with ⟨k, hk, hx⟩ | ih
      · by_cases e : i = j
        · subst e
          right
          cases hs with
          | acq hp hf =>
            rw [hk] at hp; injection hp with hp hp2; injection hp with e1 e2; subst e1 e2 hp2
            refine ⟨⟨.wr, ?_⟩, hx, .inl ⟨k, ?_⟩⟩
            · show _ ∈ ((s1.go i _).th i).tb
              rw [show ∀ y, (s1.go i y).th i = y from fun y => Function.update_self _ _ _]; simp
            · show ((s1.go i _).th i).todo = _
              rw [show ∀ y, (s1.go i y).th i = y from fun y => Function.update_self _ _ _]
          | _ hp => rw [hk] at hp; cases hp
        · left
          rw [others_step hs e]
          exact ⟨k, hk, trackers_step hs t hx⟩
      · exact .inr (ownStuck_step hcode ih hs)
  intro hd
  replace hd : (s.th i).todo = [] := hd
  rcases inv with ⟨k, hk, _⟩ | ⟨_, _, ⟨k, hk⟩ | ⟨n, k, hk⟩ | ⟨k, hk⟩⟩ <;> (rw [hd] at hk; cases hk)

/-- C85: a tracker that registers another on its own table hangs the flush that calls it, in every schedule. -/
theorem C85_registering_tracker_hangs (trk : T → List X) (progs : ι → List (TkOp T X)) (t : T) (x : X) (rest : List X)
    (htrk : trk t = x :: rest) (hcode : ∀ ops, Code t x ops → ∃ y k, ops = .register t y :: k) (i : ι) (k : List (TkOp T X)) (rm : Bool)
    (hi : progs i = .lock t .wr :: .flush t rm :: k)
    (waits : TkSys T X ι → ι → Prop) (s : TkSys T X ι) (hr : Run Code waits (TkSys.start trk progs) s) : ¬ Done s i := by
  have inv : (s.trackers t)[0]? = some x ∧
      ((∃ k, (s.th i).todo = .acq t .wr :: .rel t .wr :: .enter t :: k) ∨ (∃ k, (s.th i).todo = .rel t .wr :: .enter t :: k) ∨
        (∃ k, (s.th i).todo = .enter t :: k) ∨
        ((t, .rd) ∈ (s.th i).fl ∧ ((∃ n k, (s.th i).todo = .iter n t 0 :: k) ∨ (∃ k, (s.th i).todo = .acq t .wr :: .acqF t :: k) ∨
          ∃ k, (s.th i).todo = .acqF t :: k))) := by
    induction hr with
    | start =>
      refine ⟨by simp [TkSys.start, htrk], .inl ?_⟩
      cases rm with
      | false => exact ⟨tkActs k, by simp [TkSys.start, hi, tkActs, TkOp.acts]⟩
      | true => exact ⟨.acq t .wr :: .rel t .wr :: tkActs k, by simp [TkSys.start, hi, tkActs, TkOp.acts]⟩
    | @step s1 s2 j _ hs _ ih =>
      obtain ⟨hx, ih⟩ := ih
      refine ⟨trackers_step hs t hx, ?_⟩
      by_cases e : i = j
      · subst e
        have hself : ∀ y, (s1.go i y).th i = y := fun y => Function.update_self _ _ _
        rcases ih with ⟨k, hk⟩ | ⟨k, hk⟩ | ⟨k, hk⟩ | ⟨hf, ⟨n, k, hk⟩ | ⟨k, hk⟩ | ⟨k, hk⟩⟩
        · cases hs with
          | acq hp hf =>
            rw [hk] at hp; injection hp with hp hp2; injection hp with e1 e2; subst e1 e2 hp2
            right; left; exact ⟨k, by rw [hself]⟩
          | _ hp => rw [hk] at hp; cases hp
        · cases hs with
          | rel hp =>
            rw [hk] at hp; injection hp with hp hp2; injection hp with e1 e2; subst e1 e2 hp2
            right; right; left; exact ⟨k, by rw [hself]⟩
          | _ hp => rw [hk] at hp; cases hp
        · cases hs with
          | enter hp hf =>
            rw [hk] at hp; injection hp with hp hp2; injection hp with e1; subst e1 hp2
            right; right; right
            refine ⟨?_, .inl ⟨s1.log.length, k, ?_⟩⟩
            · show _ ∈ ((s1.go i _).th i).fl
              rw [hself]; simp
            · show ((s1.go i _).th i).todo = _
              rw [hself]
          | _ hp => rw [hk] at hp; cases hp
        · cases hs with
          | tell hp hx' hc =>
            rw [hk] at hp; injection hp with hp hp2; injection hp with e1 e2 e3; subst e1 e2 e3 hp2
            rw [hx] at hx'; injection hx' with hx'; subst hx'
            obtain ⟨y, k', rfl⟩ := hcode _ hc
            right; right; right
            refine ⟨?_, .inr (.inl ⟨.push t y :: .relF t :: .rel t .wr :: (tkActs k' ++ .iter n t 1 :: k), ?_⟩)⟩
            · show _ ∈ ((s1.go i _).th i).fl
              rw [hself]; exact hf
            · show ((s1.go i _).th i).todo = _
              rw [hself]; rfl
          | leave hp hx' => rw [hk] at hp; injection hp with hp; injection hp with e1 e2 e3; subst e2 e3; rw [hx] at hx'; cases hx'
          | _ hp => rw [hk] at hp; cases hp
        · cases hs with
          | acq hp hfr =>
            rw [hk] at hp; injection hp with hp hp2; injection hp with e1 e2; subst e1 e2 hp2
            right; right; right
            exact ⟨by rw [hself]; exact hf, .inr (.inr ⟨k, by rw [hself]⟩)⟩
          | _ hp => rw [hk] at hp; cases hp
        · cases hs with
          | acqF hp hfr =>
            rw [hk] at hp; injection hp with hp hp2; injection hp with e1; subst e1
            exact absurd hf (hfr i .rd)
          | _ hp => rw [hk] at hp; cases hp
      · rw [others_step hs e]; exact ih
  intro hd
  replace hd : (s.th i).todo = [] := hd
  obtain ⟨_, ⟨k, hk⟩ | ⟨k, hk⟩ | ⟨k, hk⟩ | ⟨_, ⟨n, k, hk⟩ | ⟨k, hk⟩ | ⟨k, hk⟩⟩⟩ := inv <;> (rw [hd] at hk; cases hk)

/-- C85: a plain flush of a table whose tracker locks that table, as documented, can deadlock with another thread that only
registers a tracker: whatever the programs go on with, there is a schedule to a state in which neither can ever go on. -/
theorem C85_registration_deadlocks (trk : T → List X) (t : T) (x : X) (rest : List X) (htrk : trk t = x :: rest) (m : Mode)
    (ops : List (TkOp T X)) (hcode : Code t x (.lock t m :: ops)) (rm : Bool) (y : X) (k1 k2 : List (TkOp T X))
    (waits : TkSys T X Bool → Bool → Prop) (hw : MayWait waits) :
    ∃ s, Run Code waits (TkSys.start trk (fun i => if i then .register t y :: k2 else .lock t .wr :: .flush t rm :: k1)) s ∧
      ∀ i s', ¬ Done s i ∧ ¬ Step Code s i s' := by
  obtain ⟨ka, hka⟩ : ∃ ka, tkActs (TkOp.lock t .wr :: .flush t rm :: k1) = .acq t .wr :: .rel t .wr :: .enter t :: ka := by
    cases rm
    · exact ⟨tkActs k1, rfl⟩
    · exact ⟨.acq t .wr :: .rel t .wr :: tkActs k1, rfl⟩
  have hkb : tkActs (TkOp.register t y :: k2) = .acq t .wr :: .acqF t :: .push t y :: .relF t :: .rel t .wr :: tkActs k2 := rfl
  generalize hs0 : TkSys.start trk (fun i : Bool => if i then TkOp.register t y :: k2 else .lock t .wr :: .flush t rm :: k1) = s0
  have hA0 : s0.th false = ⟨.acq t .wr :: .rel t .wr :: .enter t :: ka, [], []⟩ := by rw [← hs0]; simp [TkSys.start, hka]
  have hB0 : s0.th true = ⟨.acq t .wr :: .acqF t :: .push t y :: .relF t :: .rel t .wr :: tkActs k2, [], []⟩ := by
    rw [← hs0]; simp [TkSys.start, hkb]
  have ht0 : s0.trackers t = x :: rest := by rw [← hs0]; exact htrk
  have hnw : ∀ (s : TkSys T X Bool) (i : Bool), (∀ t' k, (s.th i).todo ≠ .acq t' .rd :: k) → (∀ t' k, (s.th i).todo ≠ .enter t' :: k) → ¬ waits s i := by
    intro s i h1 h2 hwi
    rcases hw s i hwi with ⟨t', k, e, _⟩ | ⟨t', k, e, _⟩
    · exact h1 t' k e
    · exact h2 t' k e
  -- the flushing thread locks the table
  have r1 : Run Code waits s0 (s0.go false ⟨.rel t .wr :: .enter t :: ka, [(t, .wr)], []⟩) := by
    have := Step.acq (Code := Code) (s := s0) (i := false) (t := t) (m := .wr) (k := .rel t .wr :: .enter t :: ka) (by rw [hA0]) (by
      intro j; cases j <;> simp [hA0, hB0])
    rw [hA0] at this
    exact .step .start this (hnw _ _ (by simp [hA0]) (by simp [hA0]))
  generalize hs1 : s0.go false ⟨.rel t .wr :: .enter t :: ka, [(t, .wr)], []⟩ = s1 at r1
  have hA1 : s1.th false = ⟨.rel t .wr :: .enter t :: ka, [(t, .wr)], []⟩ := by rw [← hs1]; exact TkSys.go_same _ _ _
  have hB1 : s1.th true = s0.th true := by rw [← hs1]; exact TkSys.go_ne _ (by simp) _
  have ht1 : s1.trackers t = x :: rest := by rw [← hs1]; exact ht0
  -- gives it back
  have r2 : Run Code waits s0 (s1.go false ⟨.enter t :: ka, [], []⟩) := by
    have := Step.rel (Code := Code) (s := s1) (i := false) (t := t) (m := .wr) (k := .enter t :: ka) (by rw [hA1])
    rw [hA1] at this
    simp only [List.erase_cons_head] at this
    exact .step r1 this (hnw _ _ (by simp [hA1]) (by simp [hA1]))
  generalize hs2 : s1.go false ⟨.enter t :: ka, [], []⟩ = s2 at r2
  have hA2 : s2.th false = ⟨.enter t :: ka, [], []⟩ := by rw [← hs2]; exact TkSys.go_same _ _ _
  have hB2 : s2.th true = s0.th true := by rw [← hs2, ← hB1]; exact TkSys.go_ne _ (by simp) _
  have ht2 : s2.trackers t = x :: rest := by rw [← hs2]; exact ht1
  -- begins to flush
  obtain ⟨s3, r3, n, hA3, hB3, ht3⟩ : ∃ s3, Run Code waits s0 s3 ∧ ∃ n, s3.th false = ⟨.iter n t 0 :: ka, [], [(t, .rd)]⟩ ∧
      s3.th true = s0.th true ∧ s3.trackers t = x :: rest := by
    have st := Step.enter (Code := Code) (s := s2) (i := false) (t := t) (k := ka) (by rw [hA2]) (by
      intro j; cases j <;> simp [hA2, hB2, hB0])
    rw [hA2] at st
    refine ⟨_, .step r2 st ?_, s2.log.length, TkSys.go_same s2 false _, ?_, ht2⟩
    · intro hwi
      rcases hw _ _ hwi with ⟨t', k, e, _⟩ | ⟨t', k, e, j, k', hj, ej⟩
      · rw [hA2] at e; simp at e
      · cases j
        · exact hj rfl
        · rw [hB2, hB0] at ej; simp at ej
    · rw [← hB2]; exact others_step st (by simp)
  -- calls the tracker
  obtain ⟨s4, r4, ⟨k4, hA4⟩, hB4, ht4⟩ : ∃ s4, Run Code waits s0 s4 ∧ (∃ k, s4.th false = ⟨.acq t m :: k, [], [(t, .rd)]⟩) ∧
      s4.th true = s0.th true ∧ s4.trackers t = x :: rest := by
    have st := Step.tell (Code := Code) (s := s3) (i := false) (n := n) (t := t) (j := 0) (k := ka) (x := x) (by rw [hA3]) (by simp [ht3]) hcode
    rw [hA3] at st
    refine ⟨_, .step r3 st (hnw _ _ (by simp [hA3]) (by simp [hA3])), ⟨tkActs ops ++ .iter n t 1 :: ka, TkSys.go_same s3 false _⟩, ?_, ht3⟩
    rw [← hB3]; exact others_step st (by simp)
  -- the other one locks the table
  obtain ⟨s5, r5, hA5, k5, hB5⟩ : ∃ s5, Run Code waits s0 s5 ∧ s5.th false = ⟨.acq t m :: k4, [], [(t, .rd)]⟩ ∧
      ∃ k, s5.th true = ⟨.acqF t :: k, [(t, .wr)], []⟩ := by
    have st := Step.acq (Code := Code) (s := s4) (i := true) (t := t) (m := .wr) (by rw [hB4, hB0]) (by
      intro j; cases j <;> simp [hA4, hB4, hB0])
    rw [hB4, hB0] at st
    refine ⟨_, .step r4 st (hnw _ _ (by simp [hB4, hB0]) (by simp [hB4, hB0])), ?_, _, TkSys.go_same _ _ _⟩
    rw [← hA4]; exact TkSys.go_ne _ (by simp) _
  refine ⟨s5, r5, ?_⟩
  intro i s'
  cases i with
  | false =>
    refine ⟨by simp [Done, hA5], ?_⟩
    intro hs
    cases hs with
    | acq hp hf =>
      rw [hA5] at hp; injection hp with hp; injection hp with e1 e2; subst e1 e2
      cases m with
      | rd => exact absurd (hf true) (by simp [hB5])
      | wr => exact absurd (hf true .wr) (by simp [hB5])
    | _ hp => rw [hA5] at hp; cases hp
  | true =>
    refine ⟨by simp [Done, hB5], ?_⟩
    intro hs
    cases hs with
    | acqF hp hf =>
      rw [hB5] at hp; injection hp with hp; injection hp with e1; subst e1
      exact absurd (hf false .rd) (by simp [hA5])
    | _ hp => rw [hB5] at hp; cases hp

/-! ## Examples -/

/-- What `Step` allows, computed, for trackers that always do the same. -/
def TkSys.next (code : T → X → List (TkOp T X)) [Fintype ι] (s : TkSys T X ι) (i : ι) : Option (TkSys T X ι) :=
  match (s.th i).todo with
  | [] => none
  | .acq t .rd :: k => if ∀ j, (t, Mode.wr) ∉ (s.th j).tb then some (s.go i ⟨k, (t, .rd) :: (s.th i).tb, (s.th i).fl⟩) else none
  | .acq t .wr :: k =>
    if ∀ j, (t, Mode.rd) ∉ (s.th j).tb ∧ (t, Mode.wr) ∉ (s.th j).tb then some (s.go i ⟨k, (t, .wr) :: (s.th i).tb, (s.th i).fl⟩) else none
  | .rel t m :: k => some (s.go i ⟨k, (s.th i).tb.erase (t, m), (s.th i).fl⟩)
  | .acqF t :: k =>
    if ∀ j, (t, Mode.rd) ∉ (s.th j).fl ∧ (t, Mode.wr) ∉ (s.th j).fl then some (s.go i ⟨k, (s.th i).tb, (t, .wr) :: (s.th i).fl⟩) else none
  | .push t x :: k => some { s.go i ⟨k, (s.th i).tb, (s.th i).fl⟩ with
        trackers := Function.update s.trackers t (s.trackers t ++ [x])
        log := s.log ++ [.reg i t x] }
  | .relF t :: k => some (s.go i ⟨k, (s.th i).tb, (s.th i).fl.erase (t, .wr)⟩)
  | .enter t :: k => if ∀ j, (t, Mode.wr) ∉ (s.th j).fl then
      some { s.go i ⟨.iter s.log.length t 0 :: k, (s.th i).tb, (t, .rd) :: (s.th i).fl⟩ with
        log := s.log ++ [.began s.log.length i t] } else none
  | .iter n t j :: k =>
    match (s.trackers t)[j]? with
    | some x => some { s.go i ⟨tkActs (code t x) ++ .iter n t (j + 1) :: k, (s.th i).tb, (s.th i).fl⟩ with
        log := s.log ++ [.told n x] }
    | none => some { s.go i ⟨k, (s.th i).tb, (s.th i).fl.erase (t, .rd)⟩ with
        log := s.log ++ [.ended n] }

theorem next_step [Fintype ι] {code : T → X → List (TkOp T X)} {s s' : TkSys T X ι} {i : ι} (h : s.next code i = some s') :
    Step (fun t x ops => ops = code t x) s i s' := by
  unfold TkSys.next at h
  split at h
  · cases h
  · rename_i t k hk
    split at h
    · injection h with h; subst h; rename_i hf; exact .acq hk hf
    · cases h
  · rename_i t k hk
    split at h
    · rename_i hf
      injection h with h; subst h
      exact .acq hk (fun j m => by cases m; exacts [(hf j).1, (hf j).2])
    · cases h
  · rename_i hk; injection h with h; subst h; exact .rel hk
  · rename_i t k hk
    split at h
    · rename_i hf
      injection h with h; subst h
      exact .acqF hk (fun j m => by cases m; exacts [(hf j).1, (hf j).2])
    · cases h
  · rename_i hk; injection h with h; subst h; exact .push hk
  · rename_i hk; injection h with h; subst h; exact .relF hk
  · rename_i t k hk
    split at h
    · rename_i hf; injection h with h; subst h; exact .enter hk hf
    · cases h
  · rename_i n t j k hk
    split at h
    · rename_i x hx; injection h with h; subst h; exact .tell hk hx rfl
    · rename_i hx; injection h with h; subst h; exact .leave hk hx

/-- Steps of these threads in this order. -/
def TkSys.follow (code : T → X → List (TkOp T X)) [Fintype ι] (s : TkSys T X ι) : List ι → Option (TkSys T X ι)
  | [] => some s
  | i :: is => (s.next code i).bind (fun s' => s'.follow code is)

theorem follow_run [Fintype ι] {code : T → X → List (TkOp T X)} : ∀ (is : List ι) {s s' : TkSys T X ι}, s.follow code is = some s' →
    Run (fun t x ops => ops = code t x) (fun _ _ => False) s s' := by
  intro is
  induction is with
  | nil => intro s s' h; injection h with h; subst h; exact .start
  | cons i is ih =>
    intro s s' h
    unfold TkSys.follow at h
    cases e : s.next code i with
    | none => rw [e] at h; cases h
    | some s1 =>
      rw [e] at h
      exact TkSys.Run.trans (.step .start (next_step e) (by simp)) (ih h)

/-- Three tables, 1 depends on 0 and 2 on 1. Tracker 0 is the derived one, 1 writes to table 2, 2 does nothing. -/
def tkCode : Fin 3 → Fin 3 → List (TkOp (Fin 3) (Fin 3))
  | 0, 0 => autoOps .delete 1 none
  | 1, 0 => autoOps .delete 2 none
  | 0, 1 => [.lock 2 .wr, .unlock 2 .wr]
  | _, _ => []

/-- Thread 0 flushes table 0 twice; thread 1 registers two trackers on table 0. -/
def tkProgs : Bool → List (TkOp (Fin 3) (Fin 3))
  | false => [.lock 0 .wr, .flush 0 true, .lock 0 .wr, .flush 0 true]
  | true => [.register 0 1, .register 0 2]

/-- At first, the derived trackers. -/
def tkTrk : Fin 3 → List (Fin 3)
  | 0 => [0]
  | 1 => [0]
  | 2 => []

/-- The table's rank. -/
def tkRank (t : Fin 3) : Nat := 2 - t.val

/-- The trackers and the threads keep the order. -/
example : CodeInOrder (byRank tkRank) (fun t x ops => ops = tkCode t x) ∧ (∀ i, TkOrder (byRank tkRank) [] (tkProgs i)) := by
  constructor
  · rintro t x ops rfl
    match t, x with
    | 0, 0 => constructor <;> simp [tkCode, autoOps, TkOrder, TkOp.asks, byRank, tkRank]
    | 1, 0 => constructor <;> simp [tkCode, autoOps, TkOrder, TkOp.asks, byRank, tkRank]
    | 0, 1 => constructor <;> simp [tkCode, autoOps, TkOrder, TkOp.asks, byRank, tkRank]
    | 0, 2 => constructor <;> simp [tkCode, TkOrder]
    | 1, 1 => constructor <;> simp [tkCode, TkOrder]
    | 1, 2 => constructor <;> simp [tkCode, TkOrder]
    | 2, 0 => constructor <;> simp [tkCode, TkOrder]
    | 2, 1 => constructor <;> simp [tkCode, TkOrder]
    | 2, 2 => constructor <;> simp [tkCode, TkOrder]
  · intro i
    cases i <;> simp [tkProgs, TkOrder, byRank, tkRank]

/-- A schedule in which the first flush begins before, the second after the first registration. -/
def tkSched : List Bool :=
  List.replicate 10 false ++ [true] ++ List.replicate 20 false ++ List.replicate 4 true ++ List.replicate 35 false ++ List.replicate 5 true ++
    [false, false]

/-- Both threads finish. The first flush (0) tells one tracker, the second (9) two; the last registration comes after both. -/
example : ∃ s, Run (fun t x ops => ops = tkCode t x) (fun _ _ => False) (TkSys.start tkTrk tkProgs) s ∧ (∀ i, Done s i) ∧
    s.log = [.began 0 false 0, .told 0 0, .began 2 false 1, .told 2 0, .began 4 false 2, .ended 4, .ended 2, .ended 0, .reg true 0 1,
      .began 9 false 0, .told 9 0, .began 11 false 1, .told 11 0, .began 13 false 2, .ended 13, .ended 11, .told 9 1, .ended 9,
      .reg true 0 2] := by
  have h : ((TkSys.start tkTrk tkProgs).follow tkCode tkSched).any (fun s => (s.th false).todo.isEmpty && (s.th true).todo.isEmpty &&
    decide (s.log = [.began 0 false 0, .told 0 0, .began 2 false 1, .told 2 0, .began 4 false 2, .ended 4, .ended 2, .ended 0, .reg true 0 1,
      .began 9 false 0, .told 9 0, .began 11 false 1, .told 11 0, .began 13 false 2, .ended 13, .ended 11, .told 9 1, .ended 9,
      .reg true 0 2])) = true := by decide +kernel
  rw [Option.any_eq_true_iff_get] at h
  obtain ⟨hs, h⟩ := h
  simp only [Bool.and_eq_true, decide_eq_true_eq, List.isEmpty_iff] at h
  refine ⟨_, follow_run tkSched (Option.some_get hs).symm, ?_, h.2⟩
  intro i
  cases i
  · exact h.1.1
  · exact h.1.2

/-- A tracker that edits its own table, as documented. -/
def tkOwnCode : Fin 3 → Fin 3 → List (TkOp (Fin 3) (Fin 3))
  | 1, 0 => [.lock 1 .wr, .unlock 1 .wr]
  | _, _ => []

/-- It hangs the cascade, and the `live_flush`, and its flush deadlocks with a registration. -/
example (waits : TkSys (Fin 3) (Fin 3) Bool → Bool → Prop) (s : TkSys (Fin 3) (Fin 3) Bool)
    (hr : Run (fun t x ops => ops = tkOwnCode t x) waits (TkSys.start tkTrk (fun i => if i then [] else [.run 1])) s) : ¬ Done s false :=
  C85_cascade_hangs tkTrk _ 1 0 [] rfl (by rintro _ rfl; exact ⟨_, rfl⟩) false [] rfl waits s hr

example (waits : TkSys (Fin 3) (Fin 3) Bool → Bool → Prop) (s : TkSys (Fin 3) (Fin 3) Bool)
    (hr : Run (fun t x ops => ops = tkOwnCode t x) waits
      (TkSys.start tkTrk (fun i => if i then [] else [.lock 1 .wr, .liveFlush 1, .unlock 1 .wr])) s) : ¬ Done s false :=
  C85_live_flush_hangs tkTrk _ 1 0 [] rfl (by rintro _ rfl; exact ⟨_, rfl⟩) false _ rfl waits s hr

example (waits : TkSys (Fin 3) (Fin 3) Bool → Bool → Prop) (hw : MayWait waits) :
    ∃ s, Run (fun t x ops => ops = tkOwnCode t x) waits
      (TkSys.start tkTrk (fun i => if i then [.register 1 2] else [.lock 1 .wr, .flush 1 true])) s ∧
      ∀ i s', ¬ Done s i ∧ ¬ Step (fun t x ops => ops = tkOwnCode t x) s i s' :=
  C85_registration_deadlocks tkTrk 1 0 [] rfl .wr [.unlock 1 .wr] rfl true 2 [] [] waits hw

/-- The same tracker alone, with nobody registering: in order. -/
example : CodeInOrder (byRankOwn (fun t => t == 1) tkRank) (fun t x ops => ops = tkOwnCode t x) ∧
    TkOrder (X := Fin 3) (byRankOwn (fun t => t == 1) tkRank) [] [.lock 0 .rd, .lock 1 .wr, .flush 1 true, .unlock 0 .rd] := by
  constructor
  · rintro t x ops rfl
    match t, x with
    | 1, 0 => constructor <;> simp [tkOwnCode, TkOrder, TkOp.asks, byRankOwn, tkRank]
    | 0, 0 | 0, 1 | 0, 2 | 1, 1 | 1, 2 | 2, 0 | 2, 1 | 2, 2 => constructor <;> simp [tkOwnCode, TkOrder]
  · simp [TkOrder, byRankOwn, tkRank]

/-- A tracker that registers another on its own table. -/
example (waits : TkSys (Fin 3) (Fin 3) Bool → Bool → Prop) (s : TkSys (Fin 3) (Fin 3) Bool)
    (hr : Run (fun t x ops => ops = [.register t 2]) waits
      (TkSys.start tkTrk (fun i => if i then [.lock 1 .rd, .unlock 1 .rd] else [.lock 1 .wr, .flush 1 false])) s) : ¬ Done s false :=
  C85_registering_tracker_hangs tkTrk _ 1 0 [] rfl (by rintro _ rfl; exact ⟨_, _, rfl⟩) false [] false rfl waits s hr

end V11
