import Verif.Spec.SyncThreads

/-! Invariants of `SyRun`. -/

set_option linter.unusedSimpArgs false
set_option linter.unusedVariables false
set_option linter.unusedSectionVars false

namespace V11
namespace SyncT
variable {Ty : Type} {V : Ty → Type} {P : Type} {ι : Type}

theorem regOf_snoc (lib : Nat) (es : List (SyEv ι V)) (e : SyEv ι V) :
    regOf lib (es ++ [e]) = match e with | .synced _ l h => if l = lib then h else regOf lib es | _ => regOf lib es := by
  unfold regOf; rw [List.foldl_append]; rfl

theorem shelfOf_snoc (r : Nat) (es : List (SyEv ι V)) (e : SyEv ι V) :
    shelfOf r (es ++ [e]) = match e with
      | .made _ _ r' true f => if r' = r then { g := (f (shelfOf r es).g).1, poisoned := (f (shelfOf r es).g).2 } else shelfOf r es
      | _ => shelfOf r es := by
  unfold shelfOf; rw [List.foldl_append]; rfl

/-- The library whose global the thread has locked. -/
def libLock : SyPhase V → Option Nat
  | .syncing lib _ => some lib
  | .comparing lib _ _ => some lib
  | _ => none

/-- The registry it has for writing. -/
def writes : SyPhase V → Option Nat
  | .inside _ true _ r => some r
  | _ => none

/-- The registry it has for reading. -/
def reads : SyPhase V → Option Nat
  | .inside _ false _ r => some r
  | .comparing _ _ r => some r
  | _ => none

/-- What the history says about a thread. -/
def PhOk (es : List (SyEv ι V)) (i : ι) : SyPhase V → Prop
  | .idle => True
  | .begun op => BeganAt es i op
  | .cloned lib w f r => ClonedAt es i lib w f r
  | .queued lib w f r => ClonedAt es i lib w f r
  | .inside lib w f r => ClonedAt es i lib w f r ∧ (shelfOf r es).poisoned = false
  | .syncing lib h => BeganAt es i (.sync lib h) ∧ ¬ ShutOut lib es
  | .comparing lib h r => BeganAt es i (.sync lib h) ∧ ¬ ShutOut lib es ∧ r = regOf lib es ∧ (shelfOf r es).poisoned = false

/-- The invariant. -/
structure SyInv (s : SySys ι P V) : Prop where
  reg : ∀ lib, (s.host.libs lib).reg = regOf lib s.log
  shelf : ∀ r, s.host.regs r = shelfOf r s.log
  dead : ∀ lib, (s.host.libs lib).dead = true ↔ ShutOut lib s.log
  ph : ∀ i, PhOk s.log i (s.th i)
  excl : ∀ i j r, i ≠ j → writes (s.th i) = some r → writes (s.th j) ≠ some r ∧ reads (s.th j) ≠ some r
  mutex : ∀ i j lib, libLock (s.th i) = some lib → libLock (s.th j) = some lib → i = j

theorem began_snoc {es : List (SyEv ι V)} {i : ι} {op : SyOp V} {e : SyEv ι V} (h : BeganAt es i op) (he : e.who ≠ i) : BeganAt (es ++ [e]) i op := by
  obtain ⟨a, b, rfl, hb⟩ := h
  refine ⟨a, b ++ [e], by simp, ?_⟩
  intro x hx
  rcases List.mem_append.1 hx with hx | hx
  · exact hb x hx
  · rw [List.mem_singleton.1 hx]; exact he

theorem cloned_snoc {es : List (SyEv ι V)} {i : ι} {lib : Nat} {w : Bool} {f : LockedWork V} {r : Nat} {e : SyEv ι V} (h : ClonedAt es i lib w f r)
    (he : e.who ≠ i) : ClonedAt (es ++ [e]) i lib w f r := by
  obtain ⟨a, b, rfl, hb, h⟩ := h
  refine ⟨a, b ++ [e], by simp, ?_, h⟩
  intro x hx
  rcases List.mem_append.1 hx with hx | hx
  · exact hb x hx
  · rw [List.mem_singleton.1 hx]; exact he

theorem shut_snoc {es : List (SyEv ι V)} {lib : Nat} {e : SyEv ι V} : ShutOut lib (es ++ [e]) ↔ ShutOut lib es ∨ ∃ i h, e = .refused i lib h := by
  unfold ShutOut
  constructor
  · rintro ⟨i, h, hm⟩
    rcases List.mem_append.1 hm with hm | hm
    · exact .inl ⟨i, h, hm⟩
    · exact .inr ⟨i, h, (List.mem_singleton.1 hm).symm⟩
  · rintro (⟨i, h, hm⟩ | ⟨i, h, rfl⟩)
    · exact ⟨i, h, List.mem_append_left _ hm⟩
    · exact ⟨i, h, by simp⟩

/-- An event of another thread that does not touch what this one has locked. -/
theorem ph_snoc {es : List (SyEv ι V)} {i : ι} {ph : SyPhase V} {e : SyEv ι V} (h : PhOk es i ph) (he : e.who ≠ i)
    (hl : ∀ lib, libLock ph = some lib → (∀ j h, e ≠ .refused j lib h) ∧ ∀ j h, e ≠ .synced j lib h)
    (hr : ∀ r, writes ph = some r ∨ reads ph = some r → ∀ j lib f, e ≠ .made j lib r true f) : PhOk (es ++ [e]) i ph := by
  have key : ∀ r, (writes ph = some r ∨ reads ph = some r) → shelfOf r (es ++ [e]) = shelfOf r es := by
    intro r h2
    have := hr r h2
    rw [shelfOf_snoc]
    cases e with
    | made j lib r' w f =>
      cases w with
      | false => rfl
      | true =>
        simp only []
        rw [if_neg]
        rintro rfl; exact this _ _ _ rfl
    | _ => rfl
  have key2 : ∀ lib, libLock ph = some lib → regOf lib (es ++ [e]) = regOf lib es ∧ (¬ ShutOut lib es → ¬ ShutOut lib (es ++ [e])) := by
    intro lib h2
    have h3 := hl lib h2
    constructor
    · rw [regOf_snoc]
      cases e with
      | synced j l h =>
        simp only []
        rw [if_neg]
        rintro rfl; exact h3.2 _ _ rfl
      | _ => rfl
    · intro hn hs
      rcases shut_snoc.1 hs with hs | ⟨j, h, rfl⟩
      · exact hn hs
      · exact h3.1 _ _ rfl
  cases ph with
  | idle => trivial
  | begun op => exact began_snoc h he
  | cloned lib w f r => exact cloned_snoc h he
  | queued lib w f r => exact cloned_snoc h he
  | inside lib w f r =>
    refine ⟨cloned_snoc h.1 he, ?_⟩
    rw [key r (by cases w <;> simp [writes, reads])]; exact h.2
  | syncing lib h' => exact ⟨began_snoc h.1 he, (key2 lib rfl).2 h.2⟩
  | comparing lib h' r =>
    refine ⟨began_snoc h.1 he, (key2 lib rfl).2 h.2.1, ?_, ?_⟩
    · rw [(key2 lib rfl).1]; exact h.2.2.1
    · rw [key r (.inr rfl)]; exact h.2.2.2

/-- What the history before says about an event. -/
def EvOk (pre : List (SyEv ι V)) : SyEv ι V → Prop
  | .began _ _ => True
  | .cloned i lib r => r = regOf lib pre ∧ ¬ ShutOut lib pre ∧ ∃ w f, BeganAt pre i (.use lib w f)
  | .made i lib r w f => ClonedAt pre i lib w f r ∧ (shelfOf r pre).poisoned = false
  | .synced i lib h => BeganAt pre i (.sync lib h) ∧ ¬ ShutOut lib pre ∧ (shelfOf (regOf lib pre) pre).poisoned = false ∧
      (shelfOf h pre).poisoned = false ∧ (regOf lib pre = h ∨ (shelfOf (regOf lib pre) pre).g.isEmpty = true)
  | .refused i lib h => BeganAt pre i (.sync lib h) ∧ ¬ ShutOut lib pre ∧ ((shelfOf (regOf lib pre) pre).poisoned = true ∨
      (shelfOf h pre).poisoned = true ∨ (regOf lib pre ≠ h ∧ (shelfOf (regOf lib pre) pre).g.isEmpty = false))
  | .failed i (.use lib w f) => (BeganAt pre i (.use lib w f) ∧ ShutOut lib pre) ∨ ∃ r, ClonedAt pre i lib w f r ∧ (shelfOf r pre).poisoned = true
  | .failed i (.sync lib h) => BeganAt pre i (.sync lib h) ∧ ShutOut lib pre

variable [DecidableEq ι]

/-- A step of thread `i` into phase `ph` without an event. -/
theorem inv_silent {s : SySys ι P V} (hi : SyInv s) {i : ι} {ph : SyPhase V} (hp : PhOk s.log i ph)
    (hw : ∀ r, writes ph = some r → ∀ j, i ≠ j → writes (s.th j) ≠ some r ∧ reads (s.th j) ≠ some r)
    (hr : ∀ r, reads ph = some r → ∀ j, i ≠ j → writes (s.th j) ≠ some r)
    (hl : ∀ lib, libLock ph = some lib → ∀ j, i ≠ j → libLock (s.th j) ≠ some lib) : SyInv (s.goOn i ph s.host []) := by
  refine ⟨?_, ?_, ?_, ?_, ?_, ?_⟩
  · intro lib; simpa [SySys.goOn] using hi.reg lib
  · intro r; simpa [SySys.goOn] using hi.shelf r
  · intro lib; simpa [SySys.goOn] using hi.dead lib
  · intro j
    by_cases hj : j = i
    · subst hj; simpa [SySys.goOn] using hp
    · simpa [SySys.goOn, Function.update_of_ne hj] using hi.ph j
  · intro a b r hab ha
    by_cases h1 : a = i
    · subst h1
      have hb : b ≠ a := fun h => hab h.symm
      simp only [SySys.goOn, Function.update_self, Function.update_of_ne hb] at ha ⊢
      exact hw r ha b hab
    · by_cases h2 : b = i
      · subst h2
        simp only [SySys.goOn, Function.update_self, Function.update_of_ne h1] at ha ⊢
        refine ⟨fun h => (hw r h a (fun h => h1 h.symm)).1 ha, fun h => hr r h a (fun h => h1 h.symm) ha⟩
      · simp only [SySys.goOn, Function.update_of_ne h1, Function.update_of_ne h2] at ha ⊢
        exact hi.excl a b r hab ha
  · intro a b lib ha hb
    by_cases h1 : a = i
    · by_cases h2 : b = i
      · rw [h1, h2]
      · subst h1
        simp only [SySys.goOn, Function.update_self, Function.update_of_ne h2] at ha hb
        exact absurd hb (hl lib ha b (fun h => h2 h.symm))
    · by_cases h2 : b = i
      · subst h2
        simp only [SySys.goOn, Function.update_self, Function.update_of_ne h1] at ha hb
        exact absurd ha (hl lib hb a (fun h => h1 h.symm))
      · simp only [SySys.goOn, Function.update_of_ne h1, Function.update_of_ne h2] at ha hb
        exact hi.mutex a b lib ha hb

/-- A step of thread `i` into a phase with nothing locked, with an event. -/
theorem inv_event {s : SySys ι P V} (hi : SyInv s) {i : ι} {ph : SyPhase V} {host : Host P V} {e : SyEv ι V}
    (he : e.who = i) (hp : PhOk (s.log ++ [e]) i ph) (hw : writes ph = none) (hr : reads ph = none) (hl : libLock ph = none)
    (hreg : ∀ lib, (host.libs lib).reg = regOf lib (s.log ++ [e])) (hshelf : ∀ r, host.regs r = shelfOf r (s.log ++ [e]))
    (hdead : ∀ lib, (host.libs lib).dead = true ↔ ShutOut lib (s.log ++ [e]))
    (h1 : ∀ j lib h, e = .refused j lib h ∨ e = .synced j lib h → libLock (s.th i) = some lib)
    (h2 : ∀ j lib r f, e = .made j lib r true f → writes (s.th i) = some r) : SyInv (s.goOn i ph host [e]) := by
  refine ⟨hreg, hshelf, hdead, ?_, ?_, ?_⟩
  · intro j
    by_cases hj : j = i
    · subst hj; simpa [SySys.goOn] using hp
    · have : PhOk (s.log ++ [e]) j (s.th j) := by
        refine ph_snoc (hi.ph j) (fun h => hj (by rw [← h, he])) ?_ ?_
        · intro lib hlib
          refine ⟨fun k h hk => hj (hi.mutex j i lib hlib (h1 k lib h (.inl hk))), fun k h hk => hj (hi.mutex j i lib hlib (h1 k lib h (.inr hk)))⟩
        · intro r hlib k lib f hk
          have := hi.excl i j r (fun h => hj h.symm) (h2 _ _ _ _ hk)
          rcases hlib with h | h
          · exact this.1 h
          · exact this.2 h
      simpa [SySys.goOn, Function.update_of_ne hj] using this
  · intro a b r hab ha
    by_cases h1 : a = i
    · subst h1
      simp only [SySys.goOn, Function.update_self, hw] at ha
      cases ha
    · by_cases h2 : b = i
      · subst h2
        simp only [SySys.goOn, Function.update_self, hw, hr]
        exact ⟨nofun, nofun⟩
      · simp only [SySys.goOn, Function.update_of_ne h1, Function.update_of_ne h2] at ha ⊢
        exact hi.excl a b r hab ha
  · intro a b lib ha hb
    by_cases h1 : a = i
    · subst h1
      simp only [SySys.goOn, Function.update_self, hl] at ha
      cases ha
    · by_cases h2 : b = i
      · subst h2
        simp only [SySys.goOn, Function.update_self, hl] at hb
        cases hb
      · simp only [SySys.goOn, Function.update_of_ne h1, Function.update_of_ne h2] at ha hb
        exact hi.mutex a b lib ha hb

/-- What a locked global means. -/
theorem not_locked {s : SySys ι P V} {lib : Nat} (h : ¬ s.locked lib) (j : ι) : libLock (s.th j) ≠ some lib := by
  intro hj
  cases hp : s.th j with
  | syncing l h' => rw [hp] at hj; injection hj with hj; subst hj; exact h ⟨j, h', .inl hp⟩
  | comparing l h' r => rw [hp] at hj; injection hj with hj; subst hj; exact h ⟨j, h', .inr ⟨r, hp⟩⟩
  | _ => rw [hp] at hj; cases hj

theorem not_writes {s : SySys ι P V} {r : Nat} (h : ∀ j lib f, s.th j ≠ .inside lib true f r) (j : ι) : writes (s.th j) ≠ some r := by
  intro hj
  cases hp : s.th j with
  | inside l w f r' =>
    rw [hp] at hj
    cases w with
    | true => injection hj with hj; subst hj; exact h _ _ _ hp
    | false => cases hj
  | _ => rw [hp] at hj; cases hj

theorem not_reads {s : SySys ι P V} {r : Nat} (h : s.writable r) (j : ι) : writes (s.th j) ≠ some r ∧ reads (s.th j) ≠ some r := by
  refine ⟨not_writes (fun j lib f => h.1 j lib true f) j, ?_⟩
  intro hj
  cases hp : s.th j with
  | inside l w f r' =>
    rw [hp] at hj
    cases w with
    | true => cases hj
    | false => injection hj with hj; subst hj; exact h.1 _ _ _ _ hp
  | comparing l h' r' => rw [hp] at hj; injection hj with hj; subst hj; exact h.2 _ _ _ hp
  | _ => rw [hp] at hj; cases hj

/-- An event that changes nothing for libraries and registries. -/
theorem plain_event {s : SySys ι P V} (hi : SyInv s) {e : SyEv ι V} (h1 : ∀ j lib h, e ≠ .refused j lib h) (h2 : ∀ j lib h, e ≠ .synced j lib h)
    (h3 : ∀ j lib r f, e ≠ .made j lib r true f) :
    (∀ lib, (s.host.libs lib).reg = regOf lib (s.log ++ [e])) ∧ (∀ r, s.host.regs r = shelfOf r (s.log ++ [e])) ∧
    ∀ lib, (s.host.libs lib).dead = true ↔ ShutOut lib (s.log ++ [e]) := by
  refine ⟨?_, ?_, ?_⟩
  · intro lib
    rw [regOf_snoc, hi.reg lib]
    cases e with
    | synced j l h => exact absurd rfl (h2 j l h)
    | _ => rfl
  · intro r
    rw [shelfOf_snoc, hi.shelf r]
    cases e with
    | made j l r' w f =>
      cases w with
      | true => exact absurd rfl (h3 j l r' f)
      | false => rfl
    | _ => rfl
  · intro lib
    rw [shut_snoc, hi.dead lib]
    refine ⟨.inl, ?_⟩
    rintro (h | ⟨j, h, he⟩)
    · exact h
    · exact absurd he (h1 _ _ _)

/-- The global is poisoned. -/
theorem killed_event {s : SySys ι P V} (hi : SyInv s) (i : ι) (lib h : Nat) :
    (∀ l, ((s.host.killed lib).libs l).reg = regOf l (s.log ++ [(.refused i lib h : SyEv ι V)])) ∧
    (∀ r, (s.host.killed lib).regs r = shelfOf r (s.log ++ [(.refused i lib h : SyEv ι V)])) ∧
    ∀ l, ((s.host.killed lib).libs l).dead = true ↔ ShutOut l (s.log ++ [(.refused i lib h : SyEv ι V)]) := by
  refine ⟨?_, ?_, ?_⟩
  · intro l
    rw [regOf_snoc]
    by_cases hl : l = lib
    · subst hl; simpa [Host.killed] using hi.reg l
    · simpa [Host.killed, Function.update_of_ne hl] using hi.reg l
  · intro r
    rw [shelfOf_snoc]
    exact hi.shelf r
  · intro l
    rw [shut_snoc]
    by_cases hl : l = lib
    · subst hl
      simp only [Host.killed, Function.update_self, true_iff]
      exact .inr ⟨i, h, rfl⟩
    · simp only [Host.killed, Function.update_of_ne hl, hi.dead l]
      refine ⟨.inl, ?_⟩
      rintro (h | ⟨j, h, he⟩)
      · exact h
      · injection he with _ he _; exact absurd he.symm hl

theorem sync_cases (p : Host P V) (lib h : Nat) (hd : (p.libs lib).dead = false) :
    ((p.sync lib h = (.ok (), { p with libs := Function.update p.libs lib { p.libs lib with reg := h } })) ∧ (p.regs (p.libs lib).reg).poisoned = false ∧
      (p.regs h).poisoned = false ∧ ((p.libs lib).reg = h ∨ (p.regs (p.libs lib).reg).g.isEmpty = true)) ∨
    (∃ e, p.sync lib h = (.error e, p.killed lib)) ∧ ((p.regs (p.libs lib).reg).poisoned = true ∨ (p.regs h).poisoned = true ∨
      ((p.libs lib).reg ≠ h ∧ (p.regs (p.libs lib).reg).g.isEmpty = false)) := by
  unfold Host.sync
  rw [if_neg (by simp [hd])]
  by_cases h1 : (p.regs (p.libs lib).reg).poisoned = true
  · rw [if_pos h1]; exact .inr ⟨⟨_, rfl⟩, .inl h1⟩
  rw [if_neg h1]
  by_cases h2 : (p.regs h).poisoned = true
  · rw [if_pos h2]; exact .inr ⟨⟨_, rfl⟩, .inr (.inl h2)⟩
  rw [if_neg h2]
  by_cases h3 : (p.libs lib).reg = h
  · rw [if_pos h3]
    refine .inl ⟨?_, by simpa using h1, by simpa using h2, .inl h3⟩
    have : ({ p.libs lib with reg := h } : Copy) = p.libs lib := by rw [← h3]
    rw [this, Function.update_eq_self]
  rw [if_neg h3]
  by_cases h4 : (p.regs (p.libs lib).reg).g.isEmpty = true
  · rw [if_neg (by simp [h4])]
    exact .inl ⟨rfl, by simpa using h1, by simpa using h2, .inr h4⟩
  · rw [if_pos (by simpa using h4)]
    exact .inr ⟨⟨_, rfl⟩, .inr (.inr ⟨h3, by simpa using h4⟩)⟩

theorem synced_event {s : SySys ι P V} (hi : SyInv s) (i : ι) (lib h : Nat) :
    (∀ l, ((Function.update s.host.libs lib { s.host.libs lib with reg := h }) l).reg = regOf l (s.log ++ [(.synced i lib h : SyEv ι V)])) ∧
    (∀ r, s.host.regs r = shelfOf r (s.log ++ [(.synced i lib h : SyEv ι V)])) ∧
    ∀ l, ((Function.update s.host.libs lib { s.host.libs lib with reg := h }) l).dead = true ↔ ShutOut l (s.log ++ [(.synced i lib h : SyEv ι V)]) := by
  refine ⟨?_, ?_, ?_⟩
  · intro l
    rw [regOf_snoc]
    by_cases hl : l = lib
    · subst hl; simp
    · have : lib ≠ l := fun h => hl h.symm
      simpa [Function.update_of_ne hl, this] using hi.reg l
  · intro r
    rw [shelfOf_snoc]
    exact hi.shelf r
  · intro l
    rw [shut_snoc]
    have : ((Function.update s.host.libs lib { s.host.libs lib with reg := h }) l).dead = (s.host.libs l).dead := by
      by_cases hl : l = lib
      · subst hl; simp
      · simp [Function.update_of_ne hl]
    rw [this, hi.dead l]
    refine ⟨.inl, ?_⟩
    rintro (h | ⟨j, h, he⟩)
    · exact h
    · cases he

theorem began_self (es : List (SyEv ι V)) (i : ι) (op : SyOp V) : BeganAt (es ++ [.began i op]) i op := ⟨es, [], rfl, by simp⟩

theorem not_shut {s : SySys ι P V} (hi : SyInv s) {lib : Nat} (h : (s.host.libs lib).dead = false) : ¬ ShutOut lib s.log := by
  intro hs; rw [(hi.dead lib).2 hs] at h; cases h

theorem not_dead {s : SySys ι P V} (hi : SyInv s) {lib : Nat} (h : ¬ ShutOut lib s.log) : (s.host.libs lib).dead = false := by
  cases hd : (s.host.libs lib).dead with
  | false => rfl
  | true => exact absurd ((hi.dead lib).1 hd) h

/-- Every step keeps the invariant, and writes at most one event, which fits the history. -/
theorem sy_step {waits : Bool} {s s' : SySys ι P V} {i : ι} (hi : SyInv s) (hs : SyStep waits s i s') :
    SyInv s' ∧ (s'.log = s.log ∨ ∃ e, s'.log = s.log ++ [e] ∧ EvOk s.log e) := by
  have hph := hi.ph i
  cases hs with
  | begin op h =>
    refine ⟨?_, .inr ⟨_, rfl, trivial⟩⟩
    obtain ⟨a, b, c⟩ := plain_event hi (e := (.began i op : SyEv ι V)) (fun _ _ _ => nofun) (fun _ _ _ => nofun) (fun _ _ _ _ => nofun)
    exact inv_event hi rfl (began_self _ _ _) rfl rfl rfl a b c (by rintro _ _ _ (h | h) <;> cases h) nofun
  | @clone lib w f r h hl hc =>
    rw [h] at hph
    have hc' : (s.host.libs lib).dead = false ∧ (s.host.libs lib).reg = r := by
      unfold Host.cloneGlobals at hc
      by_cases hd : (s.host.libs lib).dead = true
      · rw [if_pos hd] at hc; cases hc
      · rw [if_neg hd] at hc; injection hc with hc; exact ⟨by simpa using hd, hc⟩
    have hr : r = regOf lib s.log := by rw [← hc'.2, hi.reg lib]
    refine ⟨?_, .inr ⟨_, rfl, hr, not_shut hi hc'.1, w, f, hph⟩⟩
    obtain ⟨a, b, c⟩ := plain_event hi (e := (.cloned i lib r : SyEv ι V)) (fun _ _ _ => nofun) (fun _ _ _ => nofun) (fun _ _ _ _ => nofun)
    exact inv_event hi rfl ⟨s.log, [], rfl, by simp, hph, hr⟩ rfl rfl rfl a b c (by rintro _ _ _ (h | h) <;> cases h) nofun
  | @cloneFails lib w f e h hl hc =>
    rw [h] at hph
    have hd : ShutOut lib s.log := by
      unfold Host.cloneGlobals at hc
      by_cases hd : (s.host.libs lib).dead = true
      · exact (hi.dead lib).1 hd
      · rw [if_neg hd] at hc; cases hc
    refine ⟨?_, .inr ⟨_, rfl, .inl ⟨hph, hd⟩⟩⟩
    obtain ⟨a, b, c⟩ := plain_event hi (e := (.failed i (.use lib w f) : SyEv ι V)) (fun _ _ _ => nofun) (fun _ _ _ => nofun) (fun _ _ _ _ => nofun)
    exact inv_event hi rfl trivial rfl rfl rfl a b c (by rintro _ _ _ (h | h) <;> cases h) nofun
  | ask h =>
    rw [h] at hph
    refine ⟨inv_silent hi hph nofun nofun nofun, .inl (by simp [SySys.goOn])⟩
  | @enter lib w f r h hg hp =>
    rw [h] at hph
    refine ⟨inv_silent hi ⟨hph, by rw [← hi.shelf r]; exact hp⟩ ?_ ?_ nofun, .inl (by simp [SySys.goOn])⟩
    · intro r' hr j hj
      cases w with
      | false => cases hr
      | true => injection hr with hr; subst hr; exact not_reads hg j
    · intro r' hr j hj
      cases w with
      | true => cases hr
      | false => injection hr with hr; subst hr; exact not_writes hg.1 j
  | @enterFails lib w f r h hg hp =>
    rw [h] at hph
    refine ⟨?_, .inr ⟨_, rfl, .inr ⟨r, hph, by rw [← hi.shelf r]; exact hp⟩⟩⟩
    obtain ⟨a, b, c⟩ := plain_event hi (e := (.failed i (.use lib w f) : SyEv ι V)) (fun _ _ _ => nofun) (fun _ _ _ => nofun) (fun _ _ _ _ => nofun)
    exact inv_event hi rfl trivial rfl rfl rfl a b c (by rintro _ _ _ (h | h) <;> cases h) nofun
  | @leave lib w f r h =>
    rw [h] at hph
    refine ⟨?_, .inr ⟨_, rfl, hph⟩⟩
    refine inv_event hi rfl trivial rfl rfl rfl ?_ ?_ ?_ (by rintro _ _ _ (h | h) <;> cases h) ?_
    · intro l; rw [regOf_snoc]; exact hi.reg l
    · intro r'
      rw [shelfOf_snoc]
      cases w with
      | false =>
        simp only [Host.made, Shelf.after]
        by_cases hr : r' = r
        · subst hr; simpa using hi.shelf r'
        · simpa [Function.update_of_ne hr] using hi.shelf r'
      | true =>
        simp only [Host.made, Shelf.after]
        by_cases hr : r' = r
        · subst hr; simp [hi.shelf r']
        · rw [Function.update_of_ne hr, if_neg (fun h => hr h.symm)]; exact hi.shelf r'
    · intro l
      rw [shut_snoc]
      have := hi.dead l
      simp only [Host.made]
      rw [this]
      refine ⟨.inl, ?_⟩
      rintro (h | ⟨j, h, he⟩)
      · exact h
      · cases he
    · intro j l r' f' he
      injection he with _ _ hr hw hf
      subst hr; subst hw
      rw [h]; rfl
  | @lock lib h' h hl hd =>
    rw [h] at hph
    refine ⟨inv_silent hi ⟨hph, not_shut hi hd⟩ nofun nofun ?_, .inl (by simp [SySys.goOn])⟩
    intro l hl' j _
    injection hl' with hl'; subst hl'
    exact not_locked hl j
  | @lockFails lib h' h hl hd =>
    rw [h] at hph
    refine ⟨?_, .inr ⟨_, rfl, hph, (hi.dead lib).1 hd⟩⟩
    obtain ⟨a, b, c⟩ := plain_event hi (e := (.failed i (.sync lib h') : SyEv ι V)) (fun _ _ _ => nofun) (fun _ _ _ => nofun) (fun _ _ _ _ => nofun)
    exact inv_event hi rfl trivial rfl rfl rfl a b c (by rintro _ _ _ (h | h) <;> cases h) nofun
  | @first lib h' h hr hp =>
    rw [h] at hph
    refine ⟨inv_silent hi ⟨hph.1, hph.2, hi.reg lib, by rw [← hi.shelf]; exact hp⟩ nofun ?_ ?_, .inl (by simp [SySys.goOn])⟩
    · intro r' hr' j _
      injection hr' with hr'; subst hr'
      exact not_writes hr.1 j
    · intro l hl' j hj hlj
      injection hl' with hl'; subst hl'
      exact hj (hi.mutex i j lib (by rw [h]; rfl) hlj)
  | @firstFails lib h' h hr hp =>
    rw [h] at hph
    refine ⟨?_, .inr ⟨_, rfl, hph.1, hph.2, .inl (by rw [← hi.reg lib, ← hi.shelf]; exact hp)⟩⟩
    obtain ⟨a, b, c⟩ := killed_event hi i lib h'
    refine inv_event hi rfl trivial rfl rfl rfl a b c ?_ nofun
    rintro j l h2 (he | he)
    · injection he with _ hl _; subst hl; rw [h]; rfl
    · cases he
  | @second lib h' r host h hr hs =>
    rw [h] at hph
    have hd := not_dead hi hph.2.1
    rcases sync_cases s.host lib h' hd with ⟨h1, h2, h3, h4⟩ | ⟨⟨e, h1⟩, _⟩
    · rw [h1] at hs
      injection hs with _ hs
      subst hs
      rw [hi.reg lib, hi.shelf] at h2 h4
      rw [hi.shelf] at h3
      refine ⟨?_, .inr ⟨_, rfl, hph.1, hph.2.1, h2, h3, h4⟩⟩
      obtain ⟨a, b, c⟩ := synced_event hi i lib h'
      refine inv_event hi rfl trivial rfl rfl rfl a b c ?_ nofun
      rintro j l h2 (he | he)
      · cases he
      · injection he with _ hl _; subst hl; rw [h]; rfl
    · rw [h1] at hs; injection hs with hs; cases hs
  | @secondFails lib h' r host e h hr hs =>
    rw [h] at hph
    have hd := not_dead hi hph.2.1
    rcases sync_cases s.host lib h' hd with ⟨h1, h2, h3, h4⟩ | ⟨⟨e', h1⟩, h2⟩
    · rw [h1] at hs; injection hs with hs; cases hs
    · rw [h1] at hs
      injection hs with _ hs
      subst hs
      rw [hi.reg lib, hi.shelf, hi.shelf] at h2
      refine ⟨?_, .inr ⟨_, rfl, hph.1, hph.2.1, h2⟩⟩
      obtain ⟨a, b, c⟩ := killed_event hi i lib h'
      refine inv_event hi rfl trivial rfl rfl rfl a b c ?_ nofun
      rintro j l h2 (he | he)
      · injection he with _ hl _; subst hl; rw [h]; rfl
      · cases he

theorem start_inv : SyInv (SySys.start : SySys ι P V) := by
  refine ⟨fun _ => rfl, fun _ => rfl, ?_, fun _ => trivial, nofun, nofun⟩
  intro lib
  simp [SySys.start, Host.start, ShutOut]

theorem sy_inv {waits : Bool} {s : SySys ι P V} (hr : SyRun waits SySys.start s) :
    SyInv s ∧ ∀ pre e post, s.log = pre ++ e :: post → EvOk pre e := by
  induction hr with
  | refl => exact ⟨start_inv, fun pre e post h => by simp [SySys.start] at h⟩
  | @step t t' i h hs ih =>
    obtain ⟨h1, h2⟩ := sy_step ih.1 hs
    refine ⟨h1, ?_⟩
    intro pre e post he
    rcases h2 with h2 | ⟨e', h2, h3⟩
    · rw [h2] at he; exact ih.2 pre e post he
    · rw [h2] at he
      rcases List.eq_nil_or_concat post with hp | ⟨post', x, hp⟩
      · subst hp
        obtain ⟨ha, hb⟩ := List.append_inj' he rfl
        injection hb with hb _
        subst ha; subst hb; exact h3
      · subst hp
        rw [List.concat_eq_append] at he
        have he' : t.log ++ [e'] = (pre ++ e :: post') ++ [x] := by simpa using he
        obtain ⟨ha, _⟩ := List.append_inj' he' rfl
        exact ih.2 pre e post' ha

end SyncT
end V11
