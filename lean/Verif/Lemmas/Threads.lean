import Verif.Model.Threads
import Verif.Spec.Cascade
import Verif.Spec.Threads
import Verif.Lemmas.Grow

/-!
# Programs that keep the lock order

`Tidy` is a weakest-precondition: locks are taken in descending order, rows are touched only under the right guard, every
guard is dropped, and what is written satisfies the invariants `I` (rows) and `J` (flush state).
-/

set_option linter.unusedSectionVars false
set_option linter.unusedVariables false

namespace V11
variable {T : Type} [DecidableEq T] {S : T → Schema}

section
variable (ord : Lk T → Nat) (I : (t : T) → Tbl (S t) → Prop) (J : T → FlushLock → Prop)

def Tidy {α : Type} : List (Lk T × Mode) → Prog S α → (List (Lk T × Mode) → α → Prop) → Prop
  | h, .ret a, Q => Q h a
  | _, .fail _, _ => True
  | h, .acq l m k, Q => (∀ x ∈ h, ord l < ord x.1) ∧ Tidy ((l, m) :: h) k Q
  | h, .att t m yes no, Q => (((.tbl t, .wr) ∉ h ∧ (m = .wr → (.tbl t, .rd) ∉ h)) → Tidy ((.tbl t, m) :: h) yes Q) ∧ ∀ e, Tidy h (no e) Q
  | h, .rel l m k, Q => (l, m) ∈ h ∧ Tidy (h.erase (l, m)) k Q
  | h, .get t k, Q => (∃ m, (.tbl t, m) ∈ h) ∧ ∀ x, I t x → Tidy h (k x) Q
  | h, .put t x k, Q => (.tbl t, .wr) ∈ h ∧ I t x ∧ Tidy h k Q
  | h, .getF t k, Q => (∃ m, (.fl t, m) ∈ h) ∧ ∀ f, J t f → Tidy h (k f) Q
  | h, .putF t f k, Q => (.fl t, .wr) ∈ h ∧ J t f ∧ Tidy h k Q
  | _, .forget _ _, _ => False
  | h, .see _ _ _ _ k, Q => Tidy h k Q

variable {ord I J}

theorem Tidy.mono {α : Type} {p : Prog S α} {h : List (Lk T × Mode)} {Q Q' : List (Lk T × Mode) → α → Prop}
    (hp : Tidy ord I J h p Q) (hq : ∀ h a, Q h a → Q' h a) : Tidy ord I J h p Q' := by
  induction p generalizing h with
  | ret a => exact hq _ _ hp
  | fail p => trivial
  | acq l m k ih => exact ⟨hp.1, ih hp.2⟩
  | att t m yes no ih1 ih2 => exact ⟨fun h => ih1 (hp.1 h), fun e => ih2 e (hp.2 e)⟩
  | rel l m k ih => exact ⟨hp.1, ih hp.2⟩
  | get t k ih => exact ⟨hp.1, fun x hx => ih x (hp.2 x hx)⟩
  | put t x k ih => exact ⟨hp.1, hp.2.1, ih hp.2.2⟩
  | getF t k ih => exact ⟨hp.1, fun x hx => ih x (hp.2 x hx)⟩
  | putF t x k ih => exact ⟨hp.1, hp.2.1, ih hp.2.2⟩
  | forget t k ih => exact hp.elim
  | see p o ev rows k ih => exact ih hp

theorem Tidy.bind {α β : Type} {p : Prog S α} {f : α → Prog S β} {h : List (Lk T × Mode)}
    {Q : List (Lk T × Mode) → α → Prop} {Q' : List (Lk T × Mode) → β → Prop}
    (hp : Tidy ord I J h p Q) (hq : ∀ h a, Q h a → Tidy ord I J h (f a) Q') : Tidy ord I J h (p >>= f) Q' := by
  change Tidy ord I J h (p.bind f) Q'
  induction p generalizing h with
  | ret a => exact hq _ _ hp
  | fail p => trivial
  | acq l m k ih => exact ⟨hp.1, ih hp.2⟩
  | att t m yes no ih1 ih2 => exact ⟨fun h => ih1 (hp.1 h), fun e => ih2 e (hp.2 e)⟩
  | rel l m k ih => exact ⟨hp.1, ih hp.2⟩
  | get t k ih => exact ⟨hp.1, fun x hx => ih x (hp.2 x hx)⟩
  | put t x k ih => exact ⟨hp.1, hp.2.1, ih hp.2.2⟩
  | getF t k ih => exact ⟨hp.1, fun x hx => ih x (hp.2 x hx)⟩
  | putF t x k ih => exact ⟨hp.1, hp.2.1, ih hp.2.2⟩
  | forget t k ih => exact hp.elim
  | see p o ev rows k ih => exact ih hp

theorem Tidy.ofR {α : Type} {r : R α} {h : List (Lk T × Mode)} {Q : List (Lk T × Mode) → α → Prop}
    (hq : ∀ a, r = .ok a → Q h a) : Tidy ord I J h (Prog.ofR r) Q := by
  cases r with
  | error p => trivial
  | ok a => exact hq a rfl

theorem Tidy.ite {α : Type} {c : Prop} [Decidable c] {p q : Prog S α} {h : List (Lk T × Mode)}
    {Q : List (Lk T × Mode) → α → Prop} (hp : c → Tidy ord I J h p Q) (hq : ¬ c → Tidy ord I J h q Q) :
    Tidy ord I J h (if c then p else q) Q := by
  split
  · exact hp ‹_›
  · exact hq ‹_›

end

/-- Tables are ordered by rank, a table's lock comes before the lock of its `Flush`. -/
def lockOrd (rank : T → Nat) : Lk T → Nat
  | .tbl t => 2 * rank t + 1
  | .fl t => 2 * rank t

/-- What the invariant on rows must survive. -/
structure Closed {K : Type} [LinearOrder K] (key : (t : T) → Row (S t) → K) (I : (t : T) → Tbl (S t) → Prop) : Prop where
  run : ∀ (t : T) (x y : Tbl (S t)) (op : TOp (S t)), I t x → op.Allowed (S t).kind → op.run (key t) x = .ok y → I t y

section
variable {K : Type} [LinearOrder K] {key : (t : T) → Row (S t) → K} {cfg : Cfg S} {rank : T → Nat}
  {I : (t : T) → Tbl (S t) → Prop} {J : T → FlushLock → Prop}

local notation "OK" => Tidy (lockOrd rank) I J

theorem tidy_lockP {h : List (Lk T × Mode)} {t : T} (hh : ∀ x ∈ h, 2 * rank t + 1 < lockOrd rank x.1) :
    OK h (lockP t) (fun h' w => h' = (.tbl t, .wr) :: h ∧ I t w.tbl ∧ w.changes = .these []) :=
  ⟨hh, ⟨.wr, List.mem_cons_self⟩, fun x hx => ⟨rfl, hx, rfl⟩⟩

theorem tidy_unlockP {h : List (Lk T × Mode)} {t : T} {x : Tbl (S t)} (hx : I t x) :
    OK ((.tbl t, .wr) :: h) (unlockP t x) (fun h' _ => h' = h) := by
  refine ⟨List.mem_cons_self, hx, List.mem_cons_self, ?_⟩
  show List.erase _ _ = _
  rw [List.erase_cons_head]

theorem tidy_unlockP' {h : List (Lk T × Mode)} {t : T} {x : Tbl (S t)} (hm : (.tbl t, .wr) ∈ h) (hx : I t x) :
    OK h (unlockP t x) (fun h' _ => h' = h.erase (.tbl t, .wr)) :=
  ⟨hm, hx, hm, rfl⟩

theorem tidy_peekP {h : List (Lk T × Mode)} {t : T} (hh : ∀ x ∈ h, 2 * rank t + 1 < lockOrd rank x.1) :
    OK h (peekP t) (fun h' x => h' = h ∧ I t x) := by
  refine ⟨hh, ⟨.rd, List.mem_cons_self⟩, fun x hx => ⟨List.mem_cons_self, ?_, hx⟩⟩
  rw [List.erase_cons_head]

theorem tidy_lock {h : List (Lk T × Mode)} {l : Lk T} {m : Mode} (hh : ∀ x ∈ h, lockOrd rank l < lockOrd rank x.1) :
    OK h (Prog.lock l m) (fun h' _ => h' = (l, m) :: h) := ⟨hh, rfl⟩

theorem tidy_unlock {h : List (Lk T × Mode)} {l : Lk T} {m : Mode} :
    OK ((l, m) :: h) (Prog.unlock l m) (fun h' _ => h' = h) := by
  refine ⟨List.mem_cons_self, ?_⟩
  show List.erase _ _ = _
  rw [List.erase_cons_head]

/-- `f` keeps the order whenever only locks at or above the table's `Flush` are held, and returns all guards. -/
def TidyFlush (rank : T → Nat) (I : (t : T) → Tbl (S t) → Prop) (J : T → FlushLock → Prop) (f : FlushProg S) (t : T) : Prop :=
  ∀ (ev : Event) (pu de : Bool) (sel : Select (List Nat)) (h : List (Lk T × Mode)), (∀ x ∈ h, 2 * rank t ≤ lockOrd rank x.1) →
    Tidy (lockOrd rank) I J h (f t ev pu de sel) (fun h' _ => h' = h)

theorem tidy_flushWithP (hI : Closed key I) {f : FlushProg S} {t : T} (hf : TidyFlush rank I J f t) {w : W (S t)} {ev : Event}
    {h : List (Lk T × Mode)} (hm : (.tbl t, .wr) ∈ h) (hh : ∀ x ∈ h.erase (.tbl t, .wr), 2 * rank t + 1 < lockOrd rank x.1) (hw : I t w.tbl) :
    OK h (flushWithP f t w ev) (fun h' _ => h' = h.erase (.tbl t, .wr)) := by
  unfold flushWithP
  refine Tidy.ite (fun _ => tidy_unlockP' hm hw) (fun _ => ?_)
  refine Tidy.bind (tidy_unlockP' hm hw) ?_
  rintro h1 - rfl
  refine Tidy.bind (tidy_lock (l := .fl t) (m := .rd) (fun x hx => by have := hh x hx; simp only [lockOrd] at this ⊢; omega)) ?_
  rintro h1 - rfl
  refine Tidy.bind (hf ev _ _ _ _ ?_) ?_
  · intro x hx
    rcases List.mem_cons.1 hx with rfl | hx
    · exact le_refl _
    · have := hh x hx; omega
  rintro h1 ch rfl
  refine Tidy.bind tidy_unlock ?_
  rintro h1 - rfl
  refine Tidy.ite (fun _ => ?_) (fun _ => rfl)
  refine Tidy.bind (tidy_lockP hh) ?_
  rintro h1 w1 ⟨rfl, hw1, -⟩
  refine Tidy.bind (Q := fun h' x => h' = (.tbl t, .wr) :: h.erase (.tbl t, .wr) ∧ I t x) (Tidy.ofR ?_) ?_
  · intro x hx
    exact ⟨rfl, hI.run t w1.tbl x (.remove ch) hw1 trivial hx⟩
  rintro h1 x ⟨rfl, hx⟩
  exact tidy_unlockP hx

theorem clear_tbl_removable {t : T} {w w' : W (S t)} (hk : (S t).kind = .consistent ∨ (S t).kind = .sorted) (h : w.clear = .ok w') :
    w'.tbl = w.tbl := by
  unfold W.clear at h
  rcases hk with hk | hk <;> rw [hk] at h <;> injection h with h <;> subst h <;> rfl

theorem tidy_tableRemoveRowsP (hI : Closed key I) {f : FlushProg S} {t : T} (hf : TidyFlush rank I J f t) {ev : Event}
    {rows : Select (List Nat)} {h : List (Lk T × Mode)} (hh : ∀ x ∈ h, 2 * rank t + 1 < lockOrd rank x.1) :
    OK h (tableRemoveRowsP f t ev rows) (fun h' _ => h' = h) := by
  have fin : ∀ w : W (S t), I t w.tbl → OK ((.tbl t, .wr) :: h) (flushWithP f t w ev) (fun h' _ => h' = h) := by
    intro w hw
    have := tidy_flushWithP (ev := ev) hI hf (h := (.tbl t, .wr) :: h) List.mem_cons_self (by rw [List.erase_cons_head]; exact hh) hw
    rwa [List.erase_cons_head] at this
  unfold tableRemoveRowsP
  cases hk : (S t).kind <;> simp only []
  case consistent =>
    refine Tidy.bind (tidy_lockP hh) ?_
    rintro h1 w ⟨rfl, hw, -⟩
    cases rows with
    | these rows =>
      refine Tidy.bind (Q := fun h' x => h' = (.tbl t, .wr) :: h ∧ I t x) (Tidy.ofR ?_) ?_
      · intro x hx
        exact ⟨rfl, hI.run t w.tbl x (.remove (.these rows)) hw trivial hx⟩
      rintro h1 x ⟨rfl, hx⟩
      exact fin _ hx
    | all =>
      refine Tidy.bind (Q := fun h' x => h' = (.tbl t, .wr) :: h ∧ I t x) (Tidy.ofR ?_) ?_
      · intro x hx
        exact ⟨rfl, hI.run t w.tbl x .clearRaw hw trivial hx⟩
      rintro h1 x ⟨rfl, hx⟩
      refine Tidy.bind (Q := fun h' x => h' = (.tbl t, .wr) :: h ∧ I t x.tbl) (Tidy.ofR ?_) ?_
      · intro w' hw'
        refine ⟨rfl, ?_⟩
        rw [clear_tbl_removable (Or.inl hk) hw']; exact hx
      rintro h1 w' ⟨rfl, hx⟩
      exact fin _ hx
  case sorted =>
    refine Tidy.bind (tidy_lockP hh) ?_
    rintro h1 w ⟨rfl, hw, -⟩
    cases rows with
    | these rows =>
      refine Tidy.bind (Q := fun h' x => h' = (.tbl t, .wr) :: h ∧ I t x) (Tidy.ofR ?_) ?_
      · intro x hx
        exact ⟨rfl, hI.run t w.tbl x (.removeRows rows) hw hk hx⟩
      rintro h1 x ⟨rfl, hx⟩
      exact fin _ hx
    | all =>
      refine Tidy.bind (Q := fun h' x => h' = (.tbl t, .wr) :: h ∧ I t x) (Tidy.ofR ?_) ?_
      · intro x hx
        exact ⟨rfl, hI.run t w.tbl x .clearRaw hw trivial hx⟩
      rintro h1 x ⟨rfl, hx⟩
      refine Tidy.bind (Q := fun h' x => h' = (.tbl t, .wr) :: h ∧ I t x.tbl) (Tidy.ofR ?_) ?_
      · intro w' hw'
        refine ⟨rfl, ?_⟩
        rw [clear_tbl_removable (Or.inr hk) hw']; exact hx
      rintro h1 w' ⟨rfl, hx⟩
      exact fin _ hx
  all_goals trivial

theorem tidy_handlerRunP (hI : Closed key I) {f : FlushProg S} {t : T} (hf : TidyFlush rank I J f t) {hd : Handler} {ev : Event}
    {rows : Select (List Nat)} {h : List (Lk T × Mode)} (hh : ∀ x ∈ h, 2 * rank t + 1 < lockOrd rank x.1) :
    OK h (handlerRunP f hd t ev rows) (fun h' _ => h' = h) := by
  unfold handlerRunP
  refine Tidy.bind (Q := fun h' _ => h' = h) ?_ ?_
  · unfold handlerNeedsSortP
    cases hd with
    | null => rfl
    | panicking => rfl
    | delete =>
      refine Tidy.bind (tidy_peekP hh) ?_
      rintro h1 x ⟨rfl, -⟩
      rfl
  rintro h1 s rfl
  simp only []
  refine Tidy.bind (Q := fun h' _ => h' = h1) ?_ ?_
  · unfold handlerHandleP
    cases hd with
    | null => rfl
    | panicking => trivial
    | delete =>
      refine Tidy.bind (tidy_peekP hh) ?_
      rintro h2 x ⟨rfl, -⟩
      exact tidy_tableRemoveRowsP hI hf hh
  rintro h2 - rfl
  refine Tidy.bind (tidy_lock (l := .tbl t) (m := .rd) hh) ?_
  rintro h3 - rfl
  refine Tidy.bind (tidy_lock (l := .fl t) (m := .rd) ?_) ?_
  · intro x hx
    rcases List.mem_cons.1 hx with rfl | hx
    · exact Nat.lt_succ_self _
    · have := hh x hx; simp only [lockOrd] at this ⊢; omega
  rintro h3 - rfl
  refine Tidy.bind (hf ev _ _ _ _ ?_) ?_
  · intro x hx
    rcases List.mem_cons.1 hx with rfl | hx
    · exact le_refl _
    rcases List.mem_cons.1 hx with rfl | hx
    · exact Nat.le_succ _
    · have := hh x hx; omega
  rintro h3 - rfl
  refine Tidy.bind tidy_unlock ?_
  rintro h3 - rfl
  exact tidy_unlock

theorem Tidy.foldlM {α β : Type} {f : β → α → Prog S β} {h : List (Lk T × Mode)} (l : List α) (b : β)
    (hf : ∀ a ∈ l, ∀ b, OK h (f b a) (fun h' _ => h' = h)) : OK h (l.foldlM f b) (fun h' _ => h' = h) := by
  induction l generalizing b with
  | nil => exact rfl
  | cons a l ih =>
    rw [List.foldlM_cons]
    refine Tidy.bind (hf a List.mem_cons_self b) ?_
    rintro h1 b1 rfl
    exact ih b1 (fun a ha => hf a (List.mem_cons_of_mem _ ha))

theorem tidy_doFlushP (hI : Closed key I) (hac : Acyclic cfg rank) (n : Nat) (t : T) : TidyFlush rank I J (doFlushP cfg n) t := by
  induction n generalizing t with
  | zero => unfold TidyFlush; intro ev pu de sel h hh; trivial
  | succ n ih =>
    unfold TidyFlush; intro ev pu de sel h hh
    unfold doFlushP
    refine Tidy.ite (fun _ => trivial) (fun _ => ?_)
    refine Tidy.bind (Q := fun h' _ => h' = h) (Tidy.ofR (fun _ _ => rfl)) ?_
    rintro h1 hd rfl
    refine Tidy.bind (Q := fun h' _ => h' = h1) (Tidy.foldlM _ _ ?_) ?_
    · intro tr htr st
      unfold flushStepP
      refine Tidy.ite (fun _ => rfl) (fun _ => ?_)
      simp only []
      refine Tidy.bind (Q := fun h' _ => h' = h1) ?_ (by rintro h2 - rfl; exact rfl)
      unfold trackerHandleP
      cases tr with
      | observer o => exact rfl
      | auto fk =>
        have hr : rank fk.child < rank t := hac t fk htr
        have hh' : ∀ x ∈ h1, 2 * rank fk.child + 1 < lockOrd rank x.1 := fun x hx => by have := hh x hx; omega
        refine Tidy.bind (tidy_peekP hh') ?_
        rintro h2 x ⟨rfl, -⟩
        refine Tidy.bind (Q := fun h' _ => h' = h2) (Tidy.ofR (fun _ _ => rfl)) ?_
        rintro h3 sel rfl
        exact tidy_handlerRunP hI (ih fk.child) hh'
    · rintro h2 st rfl; exact rfl

/-- The state of a table's `Flush` in the executions considered: no guard was forgotten; no remapping where `live_flush` is used. -/
def FlushOk (live : T → Bool) (t : T) (f : FlushLock) : Prop := f.leaked = 0 ∧ (live t = true → f.remapped = [])

/-- The guards of a script, as locks. -/
def guards (h : List (T × Mode)) : List (Lk T × Mode) := h.map fun x => (.tbl x.1, x.2)

theorem mem_guards {h : List (T × Mode)} {t : T} {m : Mode} : (Lk.tbl t, m) ∈ guards h ↔ (t, m) ∈ h := by
  unfold guards
  constructor
  · intro hm
    obtain ⟨⟨t', m'⟩, hx, he⟩ := List.mem_map.1 hm
    injection he with h1 h2
    injection h1 with h1
    subst h1 h2
    exact hx
  · intro hm
    exact List.mem_map.2 ⟨(t, m), hm, rfl⟩

theorem guards_erase (h : List (T × Mode)) (t : T) (m : Mode) : (guards h).erase (.tbl t, m) = guards (h.erase (t, m)) := by
  unfold guards
  have hinj : Function.Injective (fun x : T × Mode => (Lk.tbl x.1, x.2)) := by
    rintro ⟨a, b⟩ ⟨c, d⟩ he
    injection he with h1 h2
    injection h1 with h1
    subst h1 h2; rfl
  exact (List.map_erase (f := fun x : T × Mode => (Lk.tbl x.1, x.2)) hinj (a := (t, m)) h).symm

theorem guards_above {h : List (T × Mode)} {r : Nat} (hh : ∀ x ∈ h, r < rank x.1) : ∀ x ∈ guards h, 2 * r + 1 < lockOrd rank x.1 := by
  intro x hx
  obtain ⟨y, hy, rfl⟩ := List.mem_map.1 hx
  have := hh y hy
  simp only [lockOrd]; omega

theorem guards_cons (h : List (T × Mode)) (t : T) (m : Mode) : guards ((t, m) :: h) = (.tbl t, m) :: guards h := rfl

/-- The write guards a thread has are those it is recorded to have; what they show satisfies the invariant. -/
structure OpenOk (I : (t : T) → Tbl (S t) → Prop) (o : Open S) (h : List (T × Mode)) : Prop where
  isSome : ∀ t, (t, .wr) ∈ h → ∃ w, o t = some w
  inv : ∀ t w, o t = some w → I t w.tbl
  isNone : ∀ t, (t, .wr) ∉ h → o t = none
  once : ∀ t, h.count (t, .wr) ≤ 1

theorem OpenOk.set {o : Open S} {h : List (T × Mode)} (ho : OpenOk I o h) {t : T} (hm : (t, Mode.wr) ∈ h) {w : W (S t)} (hw : I t w.tbl) :
    OpenOk I (Function.update o t (some w)) h where
  isSome t' hm' := by
    by_cases e : t' = t
    · subst e; exact ⟨w, Function.update_self ..⟩
    · rw [Function.update_of_ne e]; exact ho.isSome t' hm'
  inv t' w' he := by
    by_cases e : t' = t
    · subst e; rw [Function.update_self] at he; injection he with he; subst he; exact hw
    · rw [Function.update_of_ne e] at he; exact ho.inv t' w' he
  isNone t' hn := by
    by_cases e : t' = t
    · subst e; exact absurd hm hn
    · rw [Function.update_of_ne e]; exact ho.isNone t' hn
  once := ho.once

theorem OpenOk.write {o : Open S} {h : List (T × Mode)} (ho : OpenOk I o h) {t : T} (hh : (t, Mode.wr) ∉ h) {w : W (S t)} (hw : I t w.tbl) :
    OpenOk I (Function.update o t (some w)) ((t, .wr) :: h) where
  isSome t' hm' := by
    by_cases e : t' = t
    · subst e; exact ⟨w, Function.update_self ..⟩
    · rw [Function.update_of_ne e]
      rcases List.mem_cons.1 hm' with he | hm'
      · injection he with he _; exact absurd he e
      · exact ho.isSome t' hm'
  inv t' w' he := by
    by_cases e : t' = t
    · subst e; rw [Function.update_self] at he; injection he with he; subst he; exact hw
    · rw [Function.update_of_ne e] at he; exact ho.inv t' w' he
  isNone t' hn := by
    by_cases e : t' = t
    · subst e; exact absurd List.mem_cons_self hn
    · rw [Function.update_of_ne e]; exact ho.isNone t' (fun hm => hn (List.mem_cons_of_mem _ hm))
  once t' := by
    rw [List.count_cons]
    by_cases e : t' = t
    · subst e; rw [List.count_eq_zero_of_not_mem hh]; split <;> omega
    · rw [if_neg (by simpa using fun h => e h.symm)]; exact ho.once t'

theorem OpenOk.erase {o : Open S} {h : List (T × Mode)} (ho : OpenOk I o h) (t : T) :
    OpenOk I (Function.update o t none) (h.erase (t, .wr)) where
  isSome t' hm' := by
    by_cases e : t' = t
    · subst e
      have h1 := ho.once t'
      have h2 := List.count_pos_iff.2 hm'
      rw [List.count_erase_self] at h2
      omega
    · rw [Function.update_of_ne e]
      exact ho.isSome t' (List.mem_of_mem_erase hm')
  inv t' w' he := by
    by_cases e : t' = t
    · subst e; rw [Function.update_self] at he; cases he
    · rw [Function.update_of_ne e] at he; exact ho.inv t' w' he
  isNone t' hn := by
    by_cases e : t' = t
    · subst e; rw [Function.update_self]
    · rw [Function.update_of_ne e]
      refine ho.isNone t' (fun hm => hn ((List.mem_erase_of_ne ?_).2 hm))
      intro he; injection he with he _; exact e he
  once t' := (List.erase_sublist.count_le _).trans (ho.once t')

theorem OpenOk.eraseRd {o : Open S} {h : List (T × Mode)} (ho : OpenOk I o h) (t : T) : OpenOk I o (h.erase (t, .rd)) where
  isSome t' hm' := ho.isSome t' (List.mem_of_mem_erase hm')
  inv := ho.inv
  isNone t' hn := by
    refine ho.isNone t' (fun hm => hn ((List.mem_erase_of_ne ?_).2 hm))
    intro he; injection he with _ he; cases he
  once t' := (List.erase_sublist.count_le _).trans (ho.once t')

theorem OpenOk.read {o : Open S} {h : List (T × Mode)} (ho : OpenOk I o h) {t : T} :
    OpenOk I o ((t, .rd) :: h) where
  isSome t' hm' := by
    rcases List.mem_cons.1 hm' with he | hm'
    · injection he with _ he; cases he
    · exact ho.isSome t' hm'
  inv := ho.inv
  isNone t' hn := ho.isNone t' (fun hm => hn (List.mem_cons_of_mem _ hm))
  once t' := by
    rw [List.count_cons, if_neg (by simp)]; exact ho.once t'

section
variable [LS : ∀ t, LawfulSchema (S t)]

theorem closed_step (hI : Closed key I) {t : T} {w w' : W (S t)} {op : LOp (S t)} (ha : op.Allowed (S t).kind)
    (h : w.step (key t) op = .ok w') (hw : I t w.tbl) : I t w'.tbl := by
  have hs := step_tbl h
  cases e : op.toOp (S t).kind with
  | none => rw [e] at hs; simp only [] at hs; rw [hs]; exact hw
  | some o =>
    rw [e] at hs
    refine hI.run t w.tbl w'.tbl o hw ?_ hs
    cases op <;> simp only [LOp.toOp] at e
    all_goals first
      | (injection e with e; subst e; exact ha)
      | (split at e
         · rename_i hk
           injection e with e; subst e
           first
             | exact hk
             | trivial
         · cases e)
      | cases e

end

/-- The part of `mergeExtract` that matters to the invariant. -/
theorem closed_mergeExtract [LS : ∀ t, LawfulSchema (S t)] (hI : Closed key I) {t : T} {fl : T → FlushLock} {own : List (Own S t)}
    {x : Extraction (S t)} {b : Bool} {w w' : W (S t)} {rm : List (Nat × Nat)} (h : mergeExtract (key t) fl own x b w = .ok (w', rm))
    (hw : I t w.tbl) : I t w'.tbl := by
  have merge1 : ∀ (tb tb' : Tbl (S t)) (row : Row (S t)) (i : Nat), (S t).kind = .sorted → tb.mergeSingle (key t) row = .ok (tb', i) →
      I t tb → I t tb' := by
    intro tb tb' row i hk he hi
    unfold Tbl.mergeSingle at he
    cases e : tb.mergeLogged (key t) [row] with
    | error p => rw [e] at he; cases he
    | ok y =>
      obtain ⟨t1, log⟩ := y
      rw [e, okBind] at he
      refine hI.run t tb tb' (.merge [row]) hi hk ?_
      show (do let (t, _) ← tb.mergeLogged (key t) [row]; .ok t) = _
      rw [e, okBind]
      match log, he with
      | [j], he => injection he with he; injection he with he1 _; subst he1; rfl
  unfold mergeExtract at h
  by_cases hk : (S t).kind = .sorted
  · rw [if_pos hk] at h
    cases b with
    | true =>
      simp only [if_true] at h
      cases e : (List.range x.selection.length).mapM x.rowNo with
      | error p => rw [e] at h; cases h
      | ok rows =>
        rw [e, okBind] at h
        cases e1 : w.tbl.mergeVec (key t) rows with
        | error p => rw [e1] at h; cases h
        | ok tb =>
          rw [e1, okBind] at h
          injection h with h; injection h with h _; subst h
          exact hI.run t w.tbl tb (.merge (sortRows (key t) rows)) hw hk e1
    | false =>
      simp only [Bool.false_eq_true, if_false] at h
      generalize x.selection.zipIdx = l at h
      generalize ([] : List (Nat × Nat)) = r at h
      induction l generalizing w r with
      | nil => unfold restoreMergeEach at h; injection h with h; injection h with h _; subst h; exact hw
      | cons a l ih =>
        obtain ⟨old, k⟩ := a
        unfold restoreMergeEach at h
        cases e : x.rowNo k with
        | error p => rw [e] at h; cases h
        | ok row =>
          rw [e, okBind] at h
          cases e1 : updateRow fl own row with
          | error p => rw [e1] at h; cases h
          | ok row' =>
            rw [e1, okBind] at h
            cases e2 : w.tbl.mergeSingle (key t) row' with
            | error p => rw [e2] at h; cases h
            | ok y =>
              obtain ⟨tb, i⟩ := y
              rw [e2, okBind] at h
              exact ih (w := { w with tbl := tb }) (merge1 _ _ _ _ hk e2 hw) _ h
  · rw [if_neg hk] at h
    generalize x.selection.zipIdx = l at h
    generalize ([] : List (Nat × Nat)) = r at h
    induction l generalizing w r with
    | nil => unfold restorePush at h; injection h with h; injection h with h _; subst h; exact hw
    | cons a l ih =>
      obtain ⟨old, k⟩ := a
      unfold restorePush at h
      cases e : x.rowNo k with
      | error p => rw [e] at h; cases h
      | ok row =>
        rw [e, okBind] at h
        cases e1 : updateRow fl own row with
        | error p => rw [e1] at h; cases h
        | ok row' =>
          rw [e1, okBind] at h
          cases e2 : w.push row' with
          | error p => rw [e2] at h; cases h
          | ok y =>
            obtain ⟨w1, i⟩ := y
            rw [e2, okBind] at h
            refine ih (w := w1) ?_ _ h
            refine closed_step hI (op := .push row') hk (w := w) ?_ hw
            show (do let (w, _) ← w.push row'; .ok w) = _
            rw [e2, okBind]

section
variable [LS : ∀ t, LawfulSchema (S t)] {live : T → Bool}

local notation "OKF" => Tidy (lockOrd rank) I (FlushOk live)

theorem tidy_flushP (hI : Closed key I) (hac : Acyclic cfg rank) {n : Nat} {t : T} {w : W (S t)} {ev : Event} {h : List (T × Mode)}
    (hm : (t, .wr) ∈ h) (hh : ∀ x ∈ h.erase (t, .wr), rank t < rank x.1) (hw : I t w.tbl) :
    OK (guards h) (flushP cfg n t w ev) (fun h' _ => h' = guards (h.erase (t, .wr))) := by
  have := tidy_flushWithP (J := J) (ev := ev) hI (tidy_doFlushP hI hac n t) (mem_guards.2 hm) (by rw [guards_erase]; exact guards_above hh) hw
  rwa [guards_erase] at this

theorem mem_above {h : List (T × Mode)} {t : T} {m : Mode} (hh : ∀ x ∈ h.erase (t, m), rank t < rank x.1) :
    ∀ x ∈ guards h, 2 * rank t < lockOrd rank x.1 := by
  intro x hx
  obtain ⟨y, hy, rfl⟩ := List.mem_map.1 hx
  simp only [lockOrd]
  by_cases e : y = (t, m)
  · subst e; exact Nat.lt_succ_self _
  · have := hh y ((List.mem_erase_of_ne e).2 hy); omega

theorem tidy_liveFlushP (hI : Closed key I) (hac : Acyclic cfg rank) {n : Nat} {t : T} {w : W (S t)} {ev : Event} {h : List (T × Mode)}
    (hm : (t, .wr) ∈ h) (hl : live t = true) (hh : ∀ x ∈ h.erase (t, .wr), rank t < rank x.1) (hw : I t w.tbl) :
    OKF (guards h) (liveFlushP cfg n t w ev) (fun h' w' => h' = guards h ∧ I t w'.tbl) := by
  unfold liveFlushP
  refine Tidy.ite (fun _ => ⟨rfl, hw⟩) (fun _ => ?_)
  refine ⟨mem_guards.2 hm, hw, ?_⟩
  refine Tidy.bind (tidy_lock (l := .fl t) (m := .rd) (fun x hx => mem_above hh x hx)) ?_
  rintro h1 - rfl
  refine Tidy.bind (tidy_doFlushP hI hac n t ev _ _ _ _ ?_) ?_
  · intro x hx
    rcases List.mem_cons.1 hx with rfl | hx
    · exact le_refl _
    · exact (mem_above hh x hx).le
  rintro h1 ch rfl
  refine Tidy.bind (Q := fun h' x => h' = (.fl t, .rd) :: guards h ∧ I t x) (Tidy.ofR ?_) ?_
  · intro x hx
    refine ⟨rfl, ?_⟩
    split at hx
    · exact hI.run t w.tbl x (.remove ch) hw trivial hx
    · injection hx with hx; subst hx; exact hw
  rintro h1 x ⟨rfl, hx⟩
  refine ⟨List.mem_cons_of_mem _ (mem_guards.2 hm), hx, ⟨.rd, List.mem_cons_self⟩, fun f hf => ?_⟩
  have : f.hasRemapping = false := by unfold FlushLock.hasRemapping; rw [hf.2 hl]; rfl
  show OKF _ (if f.hasRemapping = true then _ else _) _
  rw [this]
  refine ⟨List.mem_cons_self, ?_, hx⟩
  rw [List.erase_cons_head]

theorem tidy_readSelectP (hI : Closed key I) (hac : Acyclic cfg rank) {n : Nat} {t : T} {ev : Event} {sel : Select (List Nat)}
    {h : List (T × Mode)} (hm : (t, .rd) ∈ h) (hh : ∀ x ∈ h.erase (t, .rd), rank t < rank x.1) :
    OK (guards h) (readSelectP cfg n t ev sel) (fun h' _ => h' = guards (h.erase (t, .rd))) := by
  have hg := guards_above hh
  unfold readSelectP
  refine Tidy.bind (Q := fun h' _ => h' = guards (h.erase (t, .rd))) ⟨mem_guards.2 hm, guards_erase h t .rd⟩ ?_
  rintro h1 - rfl
  refine Tidy.bind (tidy_lock (l := .fl t) (m := .rd) (fun x hx => by have := hg x hx; simp only [lockOrd] at this ⊢; omega)) ?_
  rintro h1 - rfl
  refine Tidy.bind (tidy_doFlushP hI hac n t ev _ _ _ _ ?_) ?_
  · intro x hx
    rcases List.mem_cons.1 hx with rfl | hx
    · exact le_refl _
    · have := hg x hx; omega
  rintro h1 - rfl
  exact tidy_unlock

theorem drop_tbl {t : T} {w : W (S t)} {x : Tbl (S t)} (h : w.drop = .ok x) : x = w.tbl := by
  unfold W.drop at h
  split at h
  · cases h
  · injection h with h; exact h.symm

theorem tidy_close {t : T} {w : W (S t)} {h : List (T × Mode)} (hm : (t, .wr) ∈ h) (hw : I t w.tbl) {α : Type} {k : Prog S α}
    {Q : List (Lk T × Mode) → α → Prop} (hk : OK (guards (h.erase (t, .wr))) k Q) :
    OK (guards h) (do let tb ← Prog.ofR w.drop; unlockP t tb; k) Q := by
  refine Tidy.bind (Q := fun h' x => h' = guards h ∧ x = w.tbl) (Tidy.ofR (fun x hx => ⟨rfl, drop_tbl hx⟩)) ?_
  rintro h1 x ⟨rfl, rfl⟩
  refine Tidy.bind (tidy_unlockP' (mem_guards.2 hm) hw) ?_
  rintro h1 - rfl
  rw [guards_erase]; exact hk

theorem tidy_restoreP (hI : Closed key I) (hac : Acyclic cfg rank) {n : Nat} {t : T} {sig : Sig} {x : Extraction (S t)} {w : W (S t)}
    {ev : Event} {h : List (T × Mode)} (hm : (t, .wr) ∈ h) (hl : live t = false) (hh : ∀ x ∈ h.erase (t, .wr), rank t < rank x.1)
    (hw : I t w.tbl) :
    OKF (guards h) (restoreP key cfg n t sig [] x ev w) (fun h' _ => h' = guards (h.erase (t, .wr))) := by
  unfold restoreP
  refine Tidy.bind (Q := fun h' _ => h' = guards h) (Tidy.ofR (fun _ _ => rfl)) ?_
  rintro h1 v rfl
  cases v with
  | some e => exact tidy_close hm hw rfl
  | none =>
    simp only []
    refine Tidy.bind (Q := fun h' _ => h' = guards h) rfl ?_
    rintro h1 fl rfl
    refine Tidy.bind (tidy_lock (l := .fl t) (m := .rd) (fun x hx => mem_above hh x hx)) ?_
    rintro h1 - rfl
    refine Tidy.bind tidy_unlock ?_
    rintro h1 - rfl
    refine Tidy.bind (Q := fun h' y => h' = guards h ∧ I t y.1.tbl) (Tidy.ofR (fun y hy => ⟨rfl, closed_mergeExtract hI hy hw⟩)) ?_
    rintro h1 ⟨w1, rm⟩ ⟨rfl, hw1⟩
    simp only []
    refine Tidy.bind (Q := fun h' _ => h' = guards h) rfl ?_
    rintro h1 - rfl
    refine Tidy.ite (fun _ => tidy_close hm hw1 rfl) (fun _ => ?_)
    refine Tidy.bind (tidy_lock (l := .fl t) (m := .wr) (fun x hx => mem_above hh x hx)) ?_
    rintro h1 - rfl
    refine ⟨⟨.wr, List.mem_cons_self⟩, fun f hf => ?_⟩
    refine Tidy.bind (Q := fun h' y => h' = (.fl t, .wr) :: guards h ∧ FlushOk live t y) (Tidy.ofR (fun y hy => ⟨rfl, ?_⟩)) ?_
    · unfold FlushLock.setRemapping at hy
      rw [if_neg (by rw [hf.1]; simp)] at hy
      split at hy <;> injection hy with hy <;> subst hy
      · exact hf
      · exact ⟨hf.1, fun h => by rw [hl] at h; cases h⟩
    rintro h1 y ⟨rfl, hy⟩
    refine ⟨List.mem_cons_self, hy, ?_⟩
    refine Tidy.bind tidy_unlock ?_
    rintro h1 - rfl
    refine Tidy.bind (tidy_flushP hI hac hm hh hw1) ?_
    rintro h1 - rfl
    exact rfl

theorem tidy_script (hI : Closed key I) (hac : Acyclic cfg rank) (n : Nat) (sc : Script S) (o : Open S) (h : List (T × Mode))
    (ho : OpenOk I o h) (hs : Orderly rank live h sc) :
    OKF (guards h) (sc.prog key cfg n o) (fun h' _ => h' = []) := by
  induction sc generalizing o h with
  | done => rw [show h = [] from hs]; exact rfl
  | write t k ih =>
    refine Tidy.bind (tidy_lockP (guards_above hs.1)) ?_
    rintro h1 w ⟨rfl, hw, -⟩
    exact ih _ _ (ho.write (fun hm => Nat.lt_irrefl _ (hs.1 _ hm)) hw) hs.2
  | call t op k ih =>
    obtain ⟨w, hw⟩ := ho.isSome t hs.1
    show OKF _ (match o t with | none => _ | some w => _) _
    rw [hw]
    refine Tidy.bind (Q := fun h' w' => h' = guards h ∧ I t w'.tbl)
      (Tidy.ofR (fun w' hw' => ⟨rfl, closed_step hI hs.2.1 hw' (ho.inv t w hw)⟩)) ?_
    rintro h1 w' ⟨rfl, hw'⟩
    exact ih _ _ (ho.set hs.1 hw') hs.2.2
  | look t k ih =>
    simp only [Script.prog]
    cases e : o t with
    | some w => exact ih _ _ _ ho (hs.2 _)
    | none =>
      obtain ⟨m, hm⟩ := hs.1
      exact ⟨⟨m, mem_guards.2 hm⟩, fun x _ => ih x _ _ ho (hs.2 x)⟩
  | flush t ev k ih =>
    obtain ⟨w, hw⟩ := ho.isSome t hs.1
    show OKF _ (match o t with | none => _ | some w => _) _
    rw [hw]
    refine Tidy.bind (tidy_flushP hI hac hs.1 hs.2.1 (ho.inv t w hw)) ?_
    rintro h1 - rfl
    exact ih _ _ (ho.erase t) hs.2.2
  | liveFlush t ev k ih =>
    obtain ⟨w, hw⟩ := ho.isSome t hs.1
    show OKF _ (match o t with | none => _ | some w => _) _
    rw [hw]
    refine Tidy.bind (tidy_liveFlushP hI hac hs.1 hs.2.1 hs.2.2.1 (ho.inv t w hw)) ?_
    rintro h1 w' ⟨rfl, hw'⟩
    exact ih _ _ (ho.set hs.1 hw') hs.2.2.2
  | restore t sig own x ev k ih =>
    obtain ⟨hm, rfl, hl, hh, hk⟩ := hs
    obtain ⟨w, hw⟩ := ho.isSome t hm
    show OKF _ (match o t with | none => _ | some w => _) _
    rw [hw]
    refine Tidy.bind (tidy_restoreP hI hac hm hl hh (ho.inv t w hw)) ?_
    rintro h1 - rfl
    exact ih _ _ (ho.erase t) hk
  | close t k ih =>
    obtain ⟨w, hw⟩ := ho.isSome t hs.1
    show OKF _ (match o t with | none => _ | some w => _) _
    rw [hw]
    exact tidy_close hs.1 (ho.inv t w hw) (ih _ _ (ho.erase t) hs.2)
  | read t k ih =>
    refine Tidy.bind (tidy_lock (l := .tbl t) (m := .rd) (guards_above hs.1)) ?_
    rintro h1 - rfl
    exact ih _ ((t, .rd) :: h) ho.read hs.2
  | unread t k ih =>
    refine Tidy.bind (Q := fun h' _ => h' = guards (h.erase (t, .rd))) ⟨mem_guards.2 hs.1, guards_erase h t .rd⟩ ?_
    rintro h1 - rfl
    exact ih _ _ (ho.eraseRd t) hs.2
  | select t ev sel k ih =>
    refine Tidy.bind (tidy_readSelectP hI hac hs.1 hs.2.1) ?_
    rintro h1 - rfl
    exact ih _ _ (ho.eraseRd t) hs.2.2
  | tryWrite t yes no ih1 ih2 =>
    refine ⟨fun hn => ⟨⟨.wr, List.mem_cons_self⟩, fun x hx => ?_⟩, fun e => ih2 e _ _ ho (hs.2 e)⟩
    exact ih1 _ ((t, .wr) :: h) (ho.write (fun hm => hn.1 (mem_guards.2 hm)) hx) hs.1
  | tryRead t yes no ih1 ih2 =>
    refine ⟨fun hn => ?_, fun e => ih2 e _ _ ho (hs.2 e)⟩
    exact ih1 _ ((t, .rd) :: h) ho.read hs.1

end

end
end V11
