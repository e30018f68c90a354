import Verif.Lemmas.RegThreadsEnd
import Verif.Lemmas.RegistryMore
import Verif.Props.RegistryDemo

/-!
# Calls of several threads on the registry, universes and properties (C87)

`ops0` is what one thread did before the threads were started, and `progs` what each does. `s` is where any schedule of their
steps can lead. The registry must not have been poisoned: then everything panics (C62).
-/

set_option linter.unusedSimpArgs false
set_option linter.unusedSectionVars false
set_option linter.unusedVariables false

namespace V11

variable {Ty : Type} [DecidableEq Ty] {V : Ty → Type} {P : Type} [DecidableEq P] {decl : P → PropDecl V} {ι : Type} [DecidableEq ι]
variable {ops0 : List (ROp decl)} {progs : ι → List (ROp decl)} {s : RtSys ι decl}

theorem after_winv (ops0 : List (ROp decl)) : WInv decl (World.after decl ops0 : World P V) := (ledger ops0).inv

/-- C87: every call that returned took effect once, between its beginning and its end, and its answer is the one a single thread would
have got that made the calls one after the other in the order they took effect; or it met another thread at work and panicked. -/
theorem C87_linearises (hr : RtRun (RtSys.start (World.after decl ops0) progs) s) (hp : s.w.poisoned = false)
    {pre post : List (RtEv ι decl)} {i : ι} {op : ROp decl} {out : R (Given V)} (he : s.log = pre ++ .returned i op out :: post) :
    Answered (World.after decl ops0) pre i op out ∨ Lapsed pre i op out :=
  (rt_inv (after_winv ops0) hr hp).past pre i op out post he

theorem returnsOf_append (i : ι) (a b : List (RtEv ι decl)) : returnsOf i (a ++ b) = returnsOf i a ++ returnsOf i b := by
  unfold returnsOf
  rw [List.filterMap_append]

theorem rt_program {w0 : World P V} (hr : RtRun (RtSys.start w0 progs) s) (i : ι) : returnsOf i s.log ++ (s.th i).todo = progs i := by
  induction hr with
  | refl => rfl
  | @step t t' j see h hb ha ih =>
    obtain ⟨op, rest, ht, ⟨hst, rfl⟩ | ⟨hst, ⟨hidle, rfl⟩ | ⟨out, hdone, rfl⟩ | ⟨hni, hnd, hc⟩⟩⟩ := act_cases ha
    · exact ih
    · rw [goto_todo]
      show returnsOf i (t.log ++ [.began j op]) ++ (t.th i).todo = _
      rw [returnsOf_append, ← ih]
      simp [returnsOf]
    · show returnsOf i (t.log ++ [.returned j op out]) ++ (Function.update t.th j { todo := rest, phase := .idle } i).todo = _
      rw [returnsOf_append, ← ih]
      by_cases hij : i = j
      · subst hij; simp [returnsOf, ht]
      · simp [returnsOf, hij, Ne.symm hij]
    · obtain ⟨ph', evs, sh⟩ := call_shape hnd hc
      have htodo : (t'.th i).todo = (t.th i).todo := by
        rw [sh.th]
        by_cases hij : i = j
        · subst hij; simp
        · simp [hij]
      rw [htodo, sh.log, returnsOf_append, ← ih]
      have : returnsOf i evs = [] := by
        rcases sh.what with hw | hw | hw | ⟨k, p, -, -, hw⟩ <;> rw [hw] <;> rfl
      rw [this, List.append_nil]

/-- C87: a thread's calls return in the order of its program, none left out. -/
theorem C87_program (hr : RtRun (RtSys.start (World.after decl ops0) progs) s) (i : ι) : returnsOf i s.log ++ (s.th i).todo = progs i := rt_program hr i

theorem lock_none {L : String → Bool} (h : ∀ n, L n = false) (g : Globals V) : lockOn L g = g := by
  have : L = fun _ => false := funext h
  rw [this]
  exact lockOn_false g

/-- C87: when all threads are between calls, memory is as that single thread would have left it: all that is registered, the places of
all properties, and in every universe the same domains with the same contents. -/
theorem C87_state (hr : RtRun (RtSys.start (World.after decl ops0) progs) s) (hp : s.w.poisoned = false) (hi : ∀ i, (s.th i).phase = .idle) :
    let one := World.after decl (ops0 ++ effectsOf s.log)
    s.w.g = one.g ∧ s.w.idx = one.idx ∧ one.poisoned = false ∧ s.w.unis.length = one.unis.length ∧
    ∀ (k : Nat) u u', s.w.unis[k]? = some u → one.unis[k]? = some u' → SameDomains u u' := by
  obtain ⟨L, hb, hl⟩ := (rt_inv (after_winv ops0) hr hp).lag
  have hL : ∀ n, L n = false := by
    intro n
    cases e : L n with
    | false => rfl
    | true =>
      obtain ⟨i, op, u, t, h1, h2, h3⟩ := hl n e
      rw [hi i] at h2
      cases h2
  simp only [World.after, run_append]
  refine ⟨by rw [hb.g, lock_none hL], hb.idx, hb.wp, hb.len, ?_⟩
  intro k u u' hu hu' j d
  obtain ⟨u2, h1, h2⟩ := hb.at hu
  have h1 : ((World.after decl ops0).run decl (effectsOf s.log)).unis[k]? = some u2 := h1
  have hu' : ((World.after decl ops0).run decl (effectsOf s.log)).unis[k]? = some u' := hu'
  rw [h1] at hu'
  injection hu' with hu'
  subst hu'
  have := congrFun h2 j
  unfold domAt at this
  constructor
  · intro h
    rw [h] at this
    simp only [] at this
    cases e : u2[j]? with
    | none => rw [e] at this; cases this
    | some m =>
      cases m with
      | unset n => rw [e] at this; cases this
      | domain d' => rw [e] at this; simp only [] at this; injection this with this; rw [this]
  · intro h
    rw [h] at this
    simp only [] at this
    cases e : u[j]? with
    | none => rw [e] at this; cases this
    | some m =>
      cases m with
      | unset n => rw [e] at this; cases this
      | domain d' => rw [e] at this; simp only [] at this; injection this with this; rw [this]

/-- C87: only the use of a property and `add_domain` can meet another thread at work. -/
theorem C87_lapse_kinds (hr : RtRun (RtSys.start (World.after decl ops0) progs) s) (hp : s.w.poisoned = false)
    {i : ι} {op : ROp decl} (he : .lapse i op ∈ s.log) : (∃ p, op.uses = some p) ∨ ∃ k n, op = .addDomain k n := by
  obtain ⟨pre, post, he⟩ := List.append_of_mem he
  rcases (rt_more (after_winv ops0) hr hp).laps pre i op post he with ⟨p, j, h1, -⟩ | ⟨k, n, j, a, b, h1, -⟩
  · exact Or.inl ⟨p, h1⟩
  · exact Or.inr ⟨k, n, h1⟩

/-- C87: the use of a property panics so only if another thread is in the middle of setting the property's static `Prop`, which happens
once, and not if the property was registered before the threads were started. -/
theorem C87_lapse_property (hr : RtRun (RtSys.start (World.after decl ops0) progs) s) (hp : s.w.poisoned = false)
    {pre post : List (RtEv ι decl)} {i : ι} {op : ROp decl} {p : P} (hu : op.uses = some p) (he : s.log = pre ++ .lapse i op :: post) :
    (∃ j, j ≠ i ∧ BeingSet pre j p) ∧ ((.registerProp p : ROp decl), true) ∉ World.history decl ops0 := by
  rcases (rt_more (after_winv ops0) hr hp).laps pre i op post he with ⟨p', j, h1, h2, h3, h4⟩ | ⟨k, n, j, a, b, h1, -⟩
  · rw [hu] at h1
    injection h1 with h1
    subst h1
    refine ⟨⟨j, h2, h4⟩, ?_⟩
    intro hm
    obtain ⟨x, hx⟩ := registered_idx hm
    have h3 : (World.after decl ops0).idx p = none := h3
    rw [h3] at hx
    cases hx
  · subst h1
    cases hu

/-- C87: `add_domain` panics so only if the domain was not registered when it began, and another thread has registered it since; a single
thread that had called it when it began would have got a panic too. -/
theorem C87_lapse_domain (hr : RtRun (RtSys.start (World.after decl ops0) progs) s) (hp : s.w.poisoned = false)
    {pre post : List (RtEv ι decl)} {i : ι} {k : Nat} {n : String} (he : s.log = pre ++ .lapse i (.addDomain k n) :: post) :
    ∃ a b, pre = a ++ .began i (.addDomain k n) :: b ∧ (∀ e ∈ b, ¬ e.isBy i) ∧ n ∉ domainsOf (World.history decl (ops0 ++ effectsOf a)) ∧
      (∃ j, j ≠ i ∧ .effect j (.registerDomain n) ∈ b) ∧
      ((World.after decl (ops0 ++ effectsOf a)).given decl (.addDomain k n)).toOption = none := by
  rcases (rt_more (after_winv ops0) hr hp).laps pre i _ post he with ⟨p', j, h1, -⟩ | ⟨k', n', j, a, b, h1, h2, h3, h4, h5, h6⟩
  · cases h1
  · injection h1 with h7 h8
    subst h7; subst h8
    have h6' : n ∉ (World.after decl (ops0 ++ effectsOf a)).g.did2name := by
      simp only [World.after, run_append]
      exact h6
    have L := ledger (decl := decl) (P := P) (V := V) (ops0 ++ effectsOf a)
    refine ⟨a, b, h3, h4, by rw [← L.doms]; exact h6', ⟨j, h2, h5⟩, ?_⟩
    have hg : ∀ w : World P V, w.g = (World.after decl (ops0 ++ effectsOf a)).g → ∃ e, w.getId n = .error e := by
      intro w hw
      unfold World.getId
      by_cases hpp : w.poisoned = true
      · exact ⟨_, by rw [if_pos hpp]⟩
      · rw [if_neg hpp, hw]
        cases e : (World.after decl (ops0 ++ effectsOf a)).g.domains.lookup n with
        | none => exact ⟨_, rfl⟩
        | some info => exact absurd (List.mem_of_getElem? (L.inv.g.ids _ _ e)) h6'
    have : ((World.after decl (ops0 ++ effectsOf a)).addDomain k n).1.toOption = none := by
      unfold World.addDomain
      split
      · rfl
      · split
        · rfl
        · obtain ⟨e, he⟩ := hg _ rfl
          simp only []
          split
          · rfl
          · rename_i hx
            exact nomatch he.symm.trans (show (World.after decl (ops0 ++ effectsOf a)).getId n = .ok _ from hx)
    show (((World.after decl (ops0 ++ effectsOf a)).addDomain k n).1.map (fun _ => Given.unit)).toOption = none
    cases e : ((World.after decl (ops0 ++ effectsOf a)).addDomain k n).1 with
    | error _ => rfl
    | ok _ => rw [e] at this; cases this

/-- C87: so if all properties that threads use were registered before, and no thread adds a domain that another registers, no call
meets another thread at work. -/
theorem C87_no_lapse (hr : RtRun (RtSys.start (World.after decl ops0) progs) s) (hp : s.w.poisoned = false)
    (hprop : ∀ i, ∀ op ∈ progs i, ∀ p, op.uses = some p → ((.registerProp p : ROp decl), true) ∈ World.history decl ops0)
    (hdom : ∀ i j, j ≠ i → ∀ k n, .addDomain k n ∈ progs i → .registerDomain n ∈ progs j → n ∈ domainsOf (World.history decl ops0)) :
    (∀ i op, .lapse i op ∉ s.log) ∧
    ∀ pre i op out post, s.log = pre ++ .returned i op out :: post → Answered (World.after decl ops0) pre i op out := by
  have hm := rt_more (after_winv ops0) hr hp
  have h0 : ∀ i op, .lapse i op ∉ s.log := by
    intro i op he
    have hop := hm.ops _ he i op rfl
    obtain ⟨pre, post, he'⟩ := List.append_of_mem he
    rcases C87_lapse_kinds hr hp he with ⟨p, hu⟩ | ⟨k, n, rfl⟩
    · exact (C87_lapse_property hr hp hu he').2 (hprop i op hop p hu)
    · obtain ⟨a, b, h1, -, h2, ⟨j, h3, h4⟩, -⟩ := C87_lapse_domain hr hp he'
      have hj := hm.ops (.effect j (.registerDomain n)) (by rw [he', h1]; simp [h4]) j _ rfl
      have := hdom i j h3 k n hop hj
      rw [← (ledger ops0).doms] at this
      rw [← (ledger (ops0 ++ effectsOf a)).doms, run_append] at h2
      exact h2 ((run_inv (ledger ops0).inv (effectsOf a)).2.ext.names.subset this)
  refine ⟨h0, ?_⟩
  intro pre i op out post he
  rcases C87_linearises hr hp he with h | ⟨a, b, c, h, -⟩
  · exact h
  · exact absurd (by rw [he, h]; simp) (h0 i op)

/-- C87: a call only ever waits for another thread to set one static `Prop`, and that thread does not wait. -/
theorem C87_waits (hr : RtRun (RtSys.start (World.after decl ops0) progs) s) (hp : s.w.poisoned = false) {i : ι} {op : ROp decl} (hi : s.inCall i op) :
    (∀ see, (s.act i see).isSome = true) ∨
    ∃ j p, j ≠ i ∧ BeingSet s.log j p ∧ ∀ see, ∃ s', s.act j see = some s' ∧ ∀ see, (s'.act i see).isSome = true := by
  have hv := rt_inv (after_winv ops0) hr hp
  have hm := rt_more (after_winv ops0) hr hp
  have ht : (s.th i).todo ≠ [] := hm.most i hi.1
  cases e : s.storing with
  | none => exact Or.inl (act_some e ht (fun op k h1 h2 => hv.on i op k h1 h2) (fun op h1 => hm.fit i op h1))
  | some x =>
    obtain ⟨j, p⟩ := x
    obtain ⟨-, -, h3, h4⟩ := hm.store j p e
    by_cases hij : j = i
    · subst hij
      exact Or.inl (fun see => by rw [act_storing e h3]; rfl)
    · refine Or.inr ⟨j, p, hij, h4, fun see => ⟨_, act_storing e h3 see, ?_⟩⟩
      exact act_some rfl ht (fun op k h1 h2 => hv.on i op k h1 h2) (fun op h1 => hm.fit i op h1)

/-- C87: no deadlock. Where no thread can take a step that the borrow rules allow, all are between calls, and those that have calls left to
make would make them on a universe that does not exist. -/
theorem C87_no_deadlock (hr : RtRun (RtSys.start (World.after decl ops0) progs) s) (hp : s.w.poisoned = false)
    (hs : ∀ i see, s.mayGo i → s.act i see = none) (i : ι) :
    (s.th i).phase = .idle ∧ ((s.th i).todo = [] ∨ ∃ op k, (s.th i).todo.head? = some op ∧ op.on = some k ∧ s.w.unis.length ≤ k) := by
  have hm := rt_more (after_winv ops0) hr hp
  have hno : s.storing = none := by
    cases e : s.storing with
    | none => rfl
    | some x =>
      obtain ⟨j, p⟩ := x
      obtain ⟨-, h2, h3, -⟩ := hm.store j p e
      have := hs j .whole (fun h => absurd h h2)
      rw [act_storing e h3] at this
      cases this
  have hidle : ∀ j, (s.th j).phase = .idle := by
    intro j
    by_contra hj
    have h6 := act_some hno (hm.most j hj) (fun op k a b => (rt_inv (after_winv ops0) hr hp).on j op k a b) (fun op a => hm.fit j op a) Seen.whole
    rw [hs j .whole (fun h => absurd h hj)] at h6
    cases h6
  refine ⟨hidle i, ?_⟩
  cases e : (s.th i).todo with
  | nil => exact Or.inl rfl
  | cons op rest =>
    right
    by_contra hc
    have hgo : s.mayGo i := by
      intro _ op' k h1 h2
      refine ⟨?_, fun j op'' _ h3 => absurd (hidle j) h3.1⟩
      by_contra hk
      exact hc ⟨op', k, by rw [← e]; exact h1, h2, by omega⟩
    have := act_some hno (by rw [e]; simp) (fun op k h1 => absurd (hidle i) h1.1) (fun op h1 => absurd (hidle i) h1.1) Seen.whole
    rw [hs i .whole hgo] at this
    cases this

/-- C87: no thread can go on for ever: each makes finitely many steps, whatever the others do. -/
theorem C87_ends (f : Nat → RtSys ι decl) (who : Nat → ι) (see : Nat → Seen) (hf : ∀ n, (f n).act (who n) (see n) = some (f (n + 1))) (i : ι) :
    ∃ N, ∀ n, N ≤ n → who n ≠ i := rt_ends f who see hf i

end V11

/-! ## Schedules -/

namespace V11.RegDemo

/-- What the borrow rules ask, for two threads. -/
def goes (s : RtSys Bool decl) (i : Bool) : Bool :=
  match (s.th i).phase, (s.th i).todo with
  | .idle, op :: _ =>
    match op.on with
    | none => true
    | some k =>
      decide (k < s.w.unis.length) &&
        match (s.th (!i)).phase, (s.th (!i)).todo with
        | .idle, _ => true
        | _, op' :: _ => decide (op'.on ≠ some k) || (!op.alone && !op'.alone)
        | _, [] => true
  | _, _ => true

theorem goes_mayGo {s : RtSys Bool decl} {i : Bool} (h : goes s i = true) : s.mayGo i := by
  intro hi op k h1 h2
  unfold goes at h
  rw [hi] at h
  cases e : (s.th i).todo with
  | nil => rw [e] at h1; cases h1
  | cons x rest =>
    rw [e] at h h1
    injection h1 with h1
    subst h1
    simp only [h2, Bool.and_eq_true, decide_eq_true_eq] at h
    refine ⟨h.1, ?_⟩
    intro j op' hj h3 h4
    have hj' : j = !i := by cases i <;> cases j <;> simp_all
    subst hj'
    have h := h.2
    obtain ⟨a1, a2⟩ := h3
    cases e2 : (s.th (!i)).todo with
    | nil => rw [e2] at a2; cases a2
    | cons y rest' =>
      rw [e2] at a2 h
      injection a2 with a2
      subst a2
      have : (decide (y.on ≠ some k) || (!x.alone && !y.alone)) = true := by
        revert h a1
        cases (s.th (!i)).phase <;> intro a1 h <;> first | exact absurd rfl a1 | exact h
      simpa [h4] using this

/-- The schedule in which these threads take the next steps, if it is one. -/
def sched (s : RtSys Bool decl) : List (Bool × Seen) → Option (RtSys Bool decl)
  | [] => some s
  | (i, see) :: r => if goes s i then (s.act i see).bind (fun s => sched s r) else none

theorem sched_run {s0 s s' : RtSys Bool decl} {l : List (Bool × Seen)} (hr : RtRun s0 s) (h : sched s l = some s') : RtRun s0 s' := by
  induction l generalizing s with
  | nil => injection h with h; subst h; exact hr
  | cons x r ih =>
    obtain ⟨i, see⟩ := x
    unfold sched at h
    split at h
    · rename_i hg
      cases e : s.act i see with
      | none => rw [e] at h; cases h
      | some t => rw [e] at h; exact ih (.step i see hr (goes_mayGo hg) e) h
    · cases h

/-- What a call gave. -/
inductive Got where
  | panic
  | fine
  | num (n : Nat)
  | bit (b : Bool)
deriving DecidableEq

/-- What a call gave. -/
def gotOf : R (Given Val) → Got
  | .error _ => .panic
  | .ok (.value ⟨false, v⟩) => .num v
  | .ok (.value ⟨true, v⟩) => .bit v
  | .ok _ => .fine

/-- What a thread got from its calls. -/
def gotten (i : Bool) (log : List (RtEv Bool decl)) : List Got :=
  log.filterMap (fun e => match e with
    | .returned j _ out => if j = i then some (gotOf out) else none
    | _ => none)

/-- Which calls lapsed. -/
def lapses (log : List (RtEv Bool decl)) : List Bool := log.filterMap (fun e => match e with | .lapse i _ => some i | _ => none)

/-- A process with a universe; property `1` is not registered here, but its twin `0` is. -/
def before : List (ROp decl) := [.registerDomain "game", .registerProp 0, .newUniverse ["game"]]

/-- Two threads use the property for the first time. -/
def readers : Bool → List (ROp decl) := fun _ => [.get 0 1]

/-- One adds a domain that the other registers. -/
def adders : Bool → List (ROp decl)
  | false => [.addDomain 0 "ui"]
  | true => [.registerDomain "ui"]

/-- C87: a read of a property that has a value panics, because the other thread is just setting the static `Prop`. -/
example : ∃ s, RtRun (RtSys.start (World.after decl before) readers) s ∧ s.w.poisoned = false ∧ gotten false s.log = [.num 7] ∧
    gotten true s.log = [.panic] ∧ lapses s.log = [true] := by
  obtain ⟨s, hs⟩ : ∃ s, sched (RtSys.start (World.after decl before) readers)
      [(false, .whole), (false, .whole), (false, .whole), (true, .whole), (true, .torn), (true, .whole), (false, .whole), (false, .whole), (false, .whole)] = some s :=
    Option.isSome_iff_exists.1 (by decide +kernel)
  refine ⟨s, sched_run .refl hs, ?_⟩
  have h : (sched (RtSys.start (World.after decl before) readers)
      [(false, .whole), (false, .whole), (false, .whole), (true, .whole), (true, .torn), (true, .whole), (false, .whole), (false, .whole), (false, .whole)]).map
      (fun s => (s.w.poisoned, gotten false s.log, gotten true s.log, lapses s.log)) = some (false, [.num 7], [.panic], [true]) := by decide +kernel
  rw [hs] at h
  simpa using h

/-- C87: in another schedule both get the value. -/
example : (sched (RtSys.start (World.after decl before) readers)
      [(false, .whole), (true, .whole), (true, .whole), (false, .whole), (false, .whole), (false, .whole), (true, .whole), (false, .whole), (true, .whole), (false, .whole), (true, .whole)]).map
      (fun s => (s.w.poisoned, gotten false s.log, gotten true s.log, lapses s.log)) = some (false, [.num 7], [.num 7], []) := by decide +kernel

/-- C87: `add_domain` finds a domain registered that its list does not have yet. -/
example : (sched (RtSys.start (World.after decl before) adders)
      [(false, .whole), (false, .whole), (true, .whole), (true, .whole), (false, .whole), (false, .whole), (true, .whole)]).map
      (fun s => (s.w.poisoned, gotten false s.log, gotten true s.log, lapses s.log)) = some (false, [.panic], [.fine], [false]) := by decide +kernel

/-- C87: and in another schedule it does not. -/
example : (sched (RtSys.start (World.after decl before) adders)
      [(false, .whole), (true, .whole), (true, .whole), (false, .whole), (false, .whole), (false, .whole), (false, .whole), (false, .whole), (false, .whole), (true, .whole)]).map
      (fun s => (s.w.poisoned, gotten false s.log, gotten true s.log, lapses s.log)) = some (false, [.fine], [.fine], []) := by decide +kernel

/-- C87_no_lapse: what it asks, of two threads that write a registered property and make and extend universes. -/
example : let progs : Bool → List (ROp decl) := fun i => if i then [.set 0 0 (5 : Nat), .newUniverse ["game"]] else [.get 0 0, .addDomain 0 "ui", .registerDomain "x"]
    (∀ i, ∀ op ∈ progs i, ∀ p, op.uses = some p → ((.registerProp p : ROp decl), true) ∈ World.history decl before) ∧
    (∀ i j, j ≠ i → ∀ k n, .addDomain k n ∈ progs i → .registerDomain n ∈ progs j → n ∈ domainsOf (World.history decl before)) := by
  refine ⟨?_, ?_⟩
  · intro i op h p hu
    cases i <;> simp at h <;> rcases h with rfl | rfl | rfl <;> simp [ROp.uses] at hu <;> subst hu <;> exact List.mem_of_getElem? (i := 1) rfl
  · intro i j hij k n h1 h2
    cases i <;> cases j <;> simp at h1 h2 hij

end V11.RegDemo
