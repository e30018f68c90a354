import Verif.Model.CtxHistory
import Verif.Props.CtxPanic

/-!
# C102: histories of contexts
-/

set_option linter.unusedSimpArgs false
set_option linter.unusedSectionVars false
set_option linter.unusedVariables false

namespace V11
namespace CtxHistory
open Context CtxPanic

/-- This thread has had something like that. -/
def Had (s : PLocks) (p : LockTy → Prop) : Prop := ∃ g, LEv.acquired g ∈ s.locks.log ∧ p g.ty

/-- `gs` and `others` are what this thread has; `b0` was poisoned at first. -/
structure Inv (b0 : Nat → Bool) (gs others : List Guard) (s : PLocks) : Prop where
  held : s.locks.held.Perm (gs ++ others)
  compat : Compatible (gs ++ others)
  nos : ((gs ++ others).map Guard.no).Nodup
  lt : ∀ g ∈ gs ++ others, g.no < s.locks.next
  safe : ∀ g ∈ gs ++ others, s.bad g.ty.res = false
  logged : ∀ g ∈ gs ++ others, Had s (fun ty => ty = g.ty)
  cause : ∀ r, s.bad r = true → b0 r = true ∨ Had s (fun ty => ty.write = true ∧ ty.res = r)

/-- Nothing is forgotten. -/
structure Later (s s' : PLocks) : Prop where
  next : s.locks.next ≤ s'.locks.next
  log : ∀ e ∈ s.locks.log, e ∈ s'.locks.log

theorem Had.later {s s' : PLocks} {p : LockTy → Prop} (h : Had s p) (hl : Later s s') : Had s' p := by
  obtain ⟨g, h1, h2⟩ := h
  exact ⟨g, hl.log _ h1, h2⟩

variable {b0 : Nat → Bool}

theorem compatible_perm {a b : List Guard} (h : a.Perm b) (hc : Compatible a) : Compatible b :=
  (h.pairwise_iff (fun {x y} hxy => by rw [conflicts_comm]; exact hxy)).1 hc

theorem Inv.perm {gs gs' o o' : List Guard} {s : PLocks} (h : Inv b0 gs o s) (hp : (gs ++ o).Perm (gs' ++ o')) : Inv b0 gs' o' s :=
  ⟨h.held.trans hp, compatible_perm hp h.compat, (hp.map Guard.no).nodup_iff.1 h.nos, fun g hg => h.lt g (hp.mem_iff.2 hg),
    fun g hg => h.safe g (hp.mem_iff.2 hg), fun g hg => h.logged g (hp.mem_iff.2 hg), h.cause⟩

theorem Inv.sub {gs extra o : List Guard} {s : PLocks} {l' : Locks} (h : Inv b0 (gs ++ extra) o s) (h1 : l'.held = s.locks.held.diff extra)
    (h2 : l'.next = s.locks.next) (h3 : ∀ e ∈ s.locks.log, e ∈ l'.log) : Inv b0 gs o { s with locks := l' } := by
  have hp : ((gs ++ extra) ++ o).Perm (extra ++ (gs ++ o)) := by
    rw [List.append_assoc]; exact List.perm_append_comm_assoc _ _ _
  have h := h.perm (gs' := extra) (o' := gs ++ o) hp
  have hl : Later s { s with locks := l' } := ⟨Nat.le_of_eq h2.symm, h3⟩
  refine ⟨?_, ?_, ?_, ?_, ?_, fun g hg => (h.logged g (List.mem_append_right _ hg)).later hl, fun r hr => (h.cause r hr).imp_right (·.later hl)⟩
  · show l'.held.Perm _
    rw [h1]; exact diff_perm h.held
  · exact h.compat.sublist (List.sublist_append_right _ _)
  · exact h.nos.sublist ((List.sublist_append_right _ _).map _)
  · intro g hg; show g.no < l'.next; rw [h2]; exact h.lt g (List.mem_append_right _ hg)
  · intro g hg; exact h.safe g (List.mem_append_right _ hg)

theorem Inv.lost {gs o : List Guard} {s s' : PLocks} (h : Inv b0 gs o s) (hl : Lost gs s s') (hn : Later s s') : Inv b0 [] o s' := by
  refine ⟨hl.held o h.held, h.compat.sublist (List.sublist_append_right _ _), h.nos.sublist ((List.sublist_append_right _ _).map _),
    fun g hg => Nat.lt_of_lt_of_le (h.lt g (List.mem_append_right _ hg)) hn.next, fun g hg => ?_,
    fun g hg => (h.logged g (List.mem_append_right _ hg)).later hn, fun r hr => ?_⟩
  rotate_left
  · rcases hl.only r hr with hx | ⟨k, hk, hw, hr⟩
    · exact (h.cause r hx).imp_right (·.later hn)
    · obtain ⟨g, h1, h2⟩ := (h.logged k (List.mem_append_left _ hk)).later hn
      exact Or.inr ⟨g, h1, by rw [h2]; exact ⟨hw, hr⟩⟩
  cases hb : s'.bad g.ty.res with
  | false => rfl
  | true =>
    exfalso
    rcases hl.only _ hb with hx | ⟨k, hk, hw, hr⟩
    · rw [h.safe g (List.mem_append_right _ hg)] at hx; cases hx
    · have := (List.pairwise_append.1 h.compat).2.2 k hk g hg
      unfold conflicts at this
      simp [hw, hr] at this

theorem unwind_later {gs : List Guard} {s s' : PLocks} (h : s.unwind gs = some s') : Later s s' := by
  induction gs generalizing s with
  | nil => unfold PLocks.unwind at h; injection h with h; subst h; exact ⟨Nat.le_refl _, fun _ h => h⟩
  | cons g gs ih =>
    unfold PLocks.unwind at h
    by_cases hd : g.dirty = true
    · rw [if_pos hd] at h; cases h
    · rw [if_neg hd] at h
      have := ih (s := s.lose g) h
      exact ⟨this.next, fun e he => this.log e (List.mem_append_left _ he)⟩

theorem pRelease_later {gs : List Guard} {slots : List Slot} {s s' : PLocks} {p : Panic} (h : pReleaseList slots s gs = some (s', .error p)) :
    Later s s' := by
  induction gs generalizing slots s with
  | nil => injection h with h; injection h with _ h; cases h
  | cons g gs ih =>
    rw [pReleaseList] at h
    cases hf : releaseField slots s.locks g with
    | ok x =>
      obtain ⟨s1, l1⟩ := x
      rw [hf] at h
      have hr : releaseList slots s.locks [g] = .ok (s1, l1) := by unfold releaseList; rw [hf, okB]; rfl
      obtain ⟨-, -, -, -, extra, -, -, -, a8, a9, -⟩ := releaseList_ok hr
      have := ih h
      exact ⟨by rw [← a9]; exact this.next, fun e he => this.log e (by rw [a8]; exact List.mem_append_left _ he)⟩
    | error e =>
      rw [hf] at h
      rcases releaseField_err hf with ⟨rfl, -⟩ | rfl
      · simp only [Option.map_eq_some_iff] at h
        obtain ⟨s1, h1, h2⟩ := h
        injection h2 with h2 h3; subst h2
        have := unwind_later h1
        exact ⟨this.next, fun e he => this.log e (List.mem_append_left _ he)⟩
      · injection h with h; injection h with h _; subst h; exact ⟨Nat.le_refl _, fun _ h => h⟩

/-- Whatever comes of it. -/
def After (b0 : Nat → Bool) (o : List Guard) (s s' : PLocks) : R (List Guard) → Prop
  | .ok ctx => Inv b0 ctx o s' ∧ s'.bad = s.bad
  | .error p => p ≠ .deadlock → p ≠ .ub → Inv b0 [] o s' ∧ ∀ r, s.bad r = true → s'.bad r = true

theorem pLock_after {slots : List Slot} {done o : List Guard} {s s' : PLocks} {r : R (List Guard)} (h : pLockMissing done s slots = some (s', r))
    (hi : Inv b0 (done ++ slots.filterMap (·.2)) o s) : After b0 o s s' r := by
  induction slots generalizing done s with
  | nil =>
    injection h with h; injection h with h1 h2; subst h1; subst h2
    exact ⟨by simpa using hi, rfl⟩
  | cons x slots ih =>
    obtain ⟨ty, m⟩ := x
    cases m with
    | some g =>
      rw [pLockMissing] at h
      exact ih h (by simpa using hi)
    | none =>
      rw [pLockMissing] at h
      have hi : Inv b0 (done ++ slots.filterMap (·.2)) o s := by simpa using hi
      cases ha : s.locks.acquire ty with
      | error p =>
        rw [ha] at h
        injection h with h; injection h with h1 h2; subst h1; subst h2
        unfold Locks.acquire at ha
        by_cases hc : (s.locks.held.any (fun g => conflicts g.ty ty)) = true
        · rw [if_pos hc] at ha; injection ha with ha; exact fun hx => absurd ha.symm hx
        · rw [if_neg hc] at ha; cases ha
      | ok y =>
        obtain ⟨g, l⟩ := y
        rw [ha] at h
        simp only [] at h
        unfold Locks.acquire at ha
        by_cases hc : (s.locks.held.any (fun g => conflicts g.ty ty)) = true
        · rw [if_pos hc] at ha; cases ha
        rw [if_neg hc] at ha
        injection ha with ha; injection ha with ha1 ha2
        by_cases hb : s.bad ty.res = true
        · rw [if_pos hb] at h
          simp only [Option.map_eq_some_iff] at h
          obtain ⟨s1, h1, h2⟩ := h
          injection h2 with h2 h3; subst h2; subst h3
          intro _ _
          have hl := (unwind_lost h1).perm (List.reverse_perm _)
          exact ⟨hi.lost hl (unwind_later h1), hl.worse⟩
        · rw [if_neg hb] at h
          have key := ih h (by
            have hp : (g :: ((done ++ slots.filterMap (·.2)) ++ o)).Perm ((done ++ [g] ++ slots.filterMap (·.2)) ++ o) := by
              simp only [List.append_assoc, List.singleton_append]
              exact List.perm_middle.symm
            have hlat : Later s { s with locks := l } := by
              rw [← ha2]; exact ⟨Nat.le_succ _, fun e he => List.mem_append_left _ he⟩
            subst ha2
            refine ⟨?_, ?_, ?_, ?_, ?_, ?_, fun r hr => (hi.cause r hr).imp_right (·.later hlat)⟩
            · show (_ :: s.locks.held).Perm _
              rw [ha1]
              exact (hi.held.cons g).trans hp
            · refine compatible_perm hp (List.pairwise_cons.2 ⟨fun b hb' => ?_, hi.compat⟩)
              rw [conflicts_comm, Bool.eq_false_iff]
              intro hcc
              refine hc (List.any_eq_true.2 ⟨b, hi.held.mem_iff.2 hb', ?_⟩)
              rw [← ha1] at hcc; exact hcc
            · refine (hp.map Guard.no).nodup_iff.1 ?_
              rw [List.map_cons, List.nodup_cons]
              refine ⟨fun hx => ?_, hi.nos⟩
              obtain ⟨k, hk, hkn⟩ := List.mem_map.1 hx
              have := hi.lt k hk
              rw [hkn, ← ha1] at this
              exact absurd this (Nat.lt_irrefl _)
            · intro k hk
              show k.no < s.locks.next + 1
              rcases List.mem_cons.1 (hp.mem_iff.2 hk) with rfl | hk
              · rw [← ha1]; exact Nat.lt_succ_self _
              · exact Nat.lt_succ_of_lt (hi.lt k hk)
            · intro k hk
              rcases List.mem_cons.1 (hp.mem_iff.2 hk) with rfl | hk
              · rw [← ha1]; simpa using hb
              · exact hi.safe k hk
            · intro k hk
              rcases List.mem_cons.1 (hp.mem_iff.2 hk) with rfl | hk
              · exact ⟨_, List.mem_append_right _ (List.mem_singleton.2 rfl), by rw [← ha1]⟩
              · exact (hi.logged k hk).later hlat)
          exact key

theorem pFrom_after {fields : List LockTy} {old : Old} {o : List Guard} {s s' : PLocks} {r : R (List Guard)} (h : pCtxFrom fields old s = some (s', r))
    (hi : Inv b0 old.guards o s) : After b0 o s s' r := by
  unfold pCtxFrom at h
  rcases hr : pReleaseList (fields.map fun ty => (ty, none)) s old.guards with _ | ⟨s1, q⟩
  · rw [hr] at h; cases h
  · rw [hr] at h
    cases q with
    | error p =>
      injection h with h; injection h with h1 h2; subst h1; subst h2
      intro _ hp
      obtain ⟨-, hl⟩ := pRelease_err hr hp
      rw [fields_none, List.nil_append] at hl
      exact ⟨hi.lost hl (pRelease_later hr), hl.worse⟩
    | ok slots =>
      obtain ⟨c1, c2⟩ := pRelease_conv hr
      obtain ⟨-, -, -, -, extra, a5, -, -, a8, a9, a10⟩ := releaseList_ok c1
      rw [fields_none, List.nil_append] at a5
      have h1 : Inv b0 (slots.filterMap (·.2)) o { s with locks := s1.locks } :=
        (hi.perm (gs' := slots.filterMap (·.2) ++ extra) (o' := o) (a5.symm.append_right o)).sub a10 a9 (fun e he => by rw [a8]; exact List.mem_append_left _ he)
      have h2 : s1 = { s with locks := s1.locks } := by rw [← c2]
      rw [← h2] at h1
      have := pLock_after (done := []) h (by simpa using h1)
      cases r with
      | ok ctx => exact ⟨this.1, this.2.trans c2⟩
      | error p => intro hp hp'; have := this hp hp'; rwa [c2] at this

theorem pNew_no_ub {fields : List LockTy} {done : List Guard} {s s' : PLocks} : pCtxNew done s fields ≠ some (s', .error .ub) := by
  induction fields generalizing done s with
  | nil => intro h; injection h with h; injection h with _ h; cases h
  | cons ty fields ih =>
    intro h
    rw [pCtxNew] at h
    cases ha : s.locks.acquire ty with
    | error p =>
      rw [ha] at h
      injection h with h; injection h with h1 h2; injection h2 with h2; subst h2
      unfold Locks.acquire at ha
      split at ha
      · injection ha with ha; cases ha
      · cases ha
    | ok y =>
      rw [ha] at h
      simp only [] at h
      by_cases hb : s.bad ty.res = true
      · rw [if_pos hb] at h
        simp only [Option.map_eq_some_iff] at h
        obtain ⟨s1, h1, h2⟩ := h
        injection h2 with _ h2; injection h2 with h2; cases h2
      · rw [if_neg hb] at h; exact ih h

theorem setDirty_ty (no : Nat) (d : Bool) (g : Guard) : (g.setDirty no d).ty = g.ty := by unfold Guard.setDirty; split <;> rfl
theorem setDirty_no (no : Nat) (d : Bool) (g : Guard) : (g.setDirty no d).no = g.no := by unfold Guard.setDirty; split <;> rfl

/-- One step. -/
theorem step_inv {st st' : CtxState} {b : Bool} (h : CtxStep st b st') (hi : Inv b0 [] st.live.flatten st.s) :
    Inv b0 [] st'.live.flatten st'.s ∧ (∀ r, st.s.bad r = true → st'.s.bad r = true) ∧ (b = true → st'.s.bad = st.s.bad) := by
  cases h with
  | @new s s' live fields ctx h =>
    rw [C101_new] at h
    have := pFrom_after h (o := live.flatten) hi
    refine ⟨this.1.perm ?_, fun r hr => by rw [this.2]; exact hr, fun _ => this.2⟩
    simp
  | @newPanics s s' live fields p hp h =>
    have hu : p ≠ .ub := by rintro rfl; exact pNew_no_ub h
    rw [C101_new] at h
    have := pFrom_after h (o := live.flatten) hi hp hu
    exact ⟨this.1, this.2, fun h => by cases h⟩
  | @recycle s s' live olds rest old fields ctx hl ho h =>
    have := pFrom_after h (o := rest.flatten) (hi.perm (by rw [ho]; simpa using hl.flatten))
    refine ⟨this.1.perm (by simp), fun r hr => by rw [this.2]; exact hr, fun _ => this.2⟩
  | @recyclePanics s s' live olds rest old fields p hl ho hp hu h =>
    have := pFrom_after h (o := rest.flatten) (hi.perm (by rw [ho]; simpa using hl.flatten)) hp hu
    exact ⟨this.1, this.2, fun h => by cases h⟩
  | @mark s live no d =>
    refine ⟨⟨?_, ?_, ?_, ?_, ?_, ?_, hi.cause⟩, fun r h => h, fun _ => rfl⟩
    · have := hi.held.map (Guard.setDirty no d)
      simpa [List.map_flatten] using this
    · have := hi.compat
      simp only [List.nil_append, ← List.map_flatten] at this ⊢
      unfold Compatible at this ⊢
      rw [List.pairwise_map]
      simpa only [setDirty_ty] using this
    · have := hi.nos
      simp only [List.nil_append, ← List.map_flatten, List.map_map] at this ⊢
      rwa [show Guard.no ∘ Guard.setDirty no d = Guard.no from funext (setDirty_no no d)]
    · intro g hg
      simp only [List.nil_append, ← List.map_flatten] at hg
      obtain ⟨k, hk, rfl⟩ := List.mem_map.1 hg
      rw [setDirty_no]; exact hi.lt k (by simpa using hk)
    · intro g hg
      simp only [List.nil_append, ← List.map_flatten] at hg
      obtain ⟨k, hk, rfl⟩ := List.mem_map.1 hg
      rw [setDirty_ty]; exact hi.safe k (by simpa using hk)
    · intro g hg
      simp only [List.nil_append, ← List.map_flatten] at hg
      obtain ⟨k, hk, rfl⟩ := List.mem_map.1 hg
      rw [setDirty_ty]; exact hi.logged k (by simpa using hk)
  | @panics s s' live olds rest hl h =>
    have hl' := unwind_lost h
    have hi' : Inv b0 olds.flatten rest.flatten s := hi.perm (by simpa using hl.flatten)
    exact ⟨hi'.lost hl' (unwind_later h), hl'.worse, fun h => by cases h⟩

theorem run_inv {st st' : CtxState} (h : CtxRun st st') (hi : Inv b0 [] st.live.flatten st.s) :
    Inv b0 [] st'.live.flatten st'.s ∧ ∀ r, st.s.bad r = true → st'.s.bad r = true := by
  induction h with
  | refl => exact ⟨hi, fun _ h => h⟩
  | step h1 h2 ih =>
    obtain ⟨a, b, -⟩ := step_inv h2 ih.1
    exact ⟨a, fun r hr => b r (ih.2 r hr)⟩

theorem inv_start {bad : Nat → Bool} : Inv bad [] [] ⟨noLocks, bad⟩ :=
  ⟨List.Perm.refl _, List.Pairwise.nil, List.nodup_nil, (fun g hg => by cases hg), (fun g hg => by cases hg), (fun g hg => by cases hg), fun r h => Or.inl h⟩

end CtxHistory

open Context CtxPanic CtxHistory

/-- C102: whatever a thread does with contexts, and whichever panics it catches: the locks it holds are those in its contexts, each in one place; no
two of them exclude each other; none of them is poisoned. -/
theorem C102_held {bad : Nat → Bool} {st : CtxState} (h : CtxRun ⟨⟨noLocks, bad⟩, []⟩ st) :
    st.s.locks.held.Perm st.live.flatten ∧ (st.live.flatten.map Guard.no).Nodup ∧ Compatible st.live.flatten ∧
    ∀ c ∈ st.live, ∀ g ∈ c, st.s.bad g.ty.res = false := by
  have hi := (run_inv h inv_start).1
  exact ⟨hi.held, hi.nos, hi.compat, fun c hc g hg => hi.safe g (List.mem_flatten.2 ⟨c, hc, hg⟩)⟩

/-- C102: a poisoned lock stays poisoned, and no context ever has it again, for reading or writing. -/
theorem C102_forever {bad : Nat → Bool} {st st' : CtxState} (h : CtxRun ⟨⟨noLocks, bad⟩, []⟩ st) (h' : CtxRun st st') {r : Nat} (hb : st.s.bad r = true) :
    st'.s.bad r = true ∧ ∀ c ∈ st'.live, ∀ g ∈ c, g.ty.res ≠ r := by
  obtain ⟨hi, hm⟩ := run_inv h' (run_inv h inv_start).1
  refine ⟨hm r hb, fun c hc g hg hr => ?_⟩
  have := hi.safe g (List.mem_flatten.2 ⟨c, hc, hg⟩)
  rw [hr, hm r hb] at this
  cases this

/-- C102: only what this thread has had for writing becomes poisoned. -/
theorem C102_cause {bad : Nat → Bool} {st : CtxState} (h : CtxRun ⟨⟨noLocks, bad⟩, []⟩ st) {r : Nat} (h0 : bad r = false) (hb : st.s.bad r = true) :
    ∃ g, LEv.acquired g ∈ st.s.locks.log ∧ g.ty.write = true ∧ g.ty.res = r := by
  rcases (run_inv h inv_start).1.cause r hb with hx | ⟨g, h1, h2⟩
  · rw [h0] at hx; cases hx
  · exact ⟨g, h1, h2⟩

/-- C102: what returns poisons nothing. -/
theorem C102_returns {bad : Nat → Bool} {st st' : CtxState} (h : CtxRun ⟨⟨noLocks, bad⟩, []⟩ st) (h' : CtxStep st true st') : st'.s.bad = st.s.bad :=
  (step_inv h' (run_inv h inv_start).1).2.2 rfl

/-- C102: no panic before stands in the way: a context can be made at any time if its locks exclude neither each other nor those the thread has in
its contexts, and none of them is poisoned. -/
theorem C102_again {bad : Nat → Bool} {st : CtxState} (h : CtxRun ⟨⟨noLocks, bad⟩, []⟩ st) {fields : List LockTy} (hty : TypeIds fields)
    (hf : fields.Pairwise (fun a b => conflicts a b = false)) (ho : ∀ ty ∈ fields, ∀ c ∈ st.live, ∀ g ∈ c, conflicts g.ty ty = false)
    (hb : ∀ ty ∈ fields, st.s.bad ty.res = false) :
    ∃ s' ctx, pCtxNew [] st.s fields = some (s', .ok ctx) ∧ ctx.map Guard.ty = fields ∧ CtxStep st true ⟨s', ctx :: st.live⟩ := by
  have hi := (run_inv h inv_start).1
  have hty' : TypeIds (fields ++ Old.unit.guards.map Guard.ty) := by simpa [Old.guards] using hty
  obtain ⟨ctx, l', h1⟩ := C47_returns (fields := fields) (old := .unit) (l := st.s.locks) (others := st.s.locks.held) (by simp [Old.guards]) hty'
    (by simp [Old.guards]) (by simp [Old.guards]) hf (fun ty ht g hg => by
      obtain ⟨c, hc, hgc⟩ := List.mem_flatten.1 (show g ∈ st.live.flatten from hi.held.mem_iff.1 hg)
      exact ho ty ht c hc g hgc)
  have hm := (C47_from h1 hty' (by
    intro g hg
    exact hi.lt g (hi.held.mem_iff.1 (by simpa [Old.guards] using hg)))).1
  have hr : pCtxNew [] st.s fields = some (⟨l', st.s.bad⟩, .ok ctx) := by
    rw [C101_new]
    refine (C101_returns (others := st.s.locks.held) (by simp [Old.guards]) (by simp [Old.guards])).2 ⟨h1, rfl, fun g hg _ => hb _ ?_⟩
    rw [← hm]; exact List.mem_map_of_mem hg
  exact ⟨_, ctx, hr, hm, CtxStep.new hr⟩

/-- C102: a context with nothing to flush can be dropped at any time, which poisons nothing and leaves the thread with the locks of its other contexts. -/
theorem C102_drop {bad : Nat → Bool} {st : CtxState} (h : CtxRun ⟨⟨noLocks, bad⟩, []⟩ st) {c : List Guard} {rest : List (List Guard)}
    (hl : st.live.Perm (c :: rest)) (hd : ∀ g ∈ c, g.dirty = false) :
    ∃ s', pCtxFrom [] (.ctx c) st.s = some (s', .ok []) ∧ s'.bad = st.s.bad ∧ s'.locks.held.Perm rest.flatten := by
  have hi := (run_inv h inv_start).1
  have hh : st.s.locks.held.Perm ((Old.ctx c).guards ++ rest.flatten) := hi.held.trans (by simpa [Old.guards] using hl.flatten)
  obtain ⟨⟨slots, l'⟩, h1⟩ := releaseList_total (slots := []) (l := st.s.locks) (gs := c) hd (by simp)
  have hs : slots = [] := by simpa using (releaseList_ok h1).1
  subst hs
  have h2 : pCtxFrom [] (.ctx c) st.s = some (⟨l', st.s.bad⟩, .ok []) := by
    unfold pCtxFrom
    have h3 : pReleaseList (([] : List LockTy).map fun ty => (ty, none)) st.s (Old.ctx c).guards = _ := pRelease_ok _ _ _ _ _ h1
    rw [h3]
    rfl
  have hi' : Inv bad (Old.ctx c).guards rest.flatten st.s := hi.perm (by simpa [Old.guards] using hl.flatten)
  exact ⟨_, h2, rfl, (pFrom_after h2 hi').1.held⟩

/-- C102: changing or flushing a table through a write lock is about this lock alone. -/
theorem C102_mark {bad : Nat → Bool} {st : CtxState} (h : CtxRun ⟨⟨noLocks, bad⟩, []⟩ st) {g : Guard} (hg : g ∈ st.live.flatten) (hw : g.ty.write = true) (d : Bool) :
    ∃ st', CtxStep st true st' ∧ ∀ k, k ∈ st'.live.flatten ↔ k = { g with dirty := d } ∨ (k ∈ st.live.flatten ∧ k ≠ g) := by
  have hn : (st.live.flatten.map Guard.no).Nodup := (run_inv h inv_start).1.nos
  refine ⟨_, CtxStep.mark g.no d, fun k => ?_⟩
  show k ∈ (st.live.map (List.map (Guard.setDirty g.no d))).flatten ↔ _
  rw [← List.map_flatten, List.mem_map]
  have hself : g.setDirty g.no d = { g with dirty := d } := by unfold Guard.setDirty; rw [if_pos ⟨rfl, hw⟩]
  have hother : ∀ k ∈ st.live.flatten, k ≠ g → k.setDirty g.no d = k := by
    intro k hk hne
    unfold Guard.setDirty
    rw [if_neg]
    rintro ⟨hx, -⟩
    exact hne (List.inj_on_of_nodup_map hn hk hg hx)
  constructor
  · rintro ⟨k0, hk, rfl⟩
    by_cases hx : k0 = g
    · subst hx; exact Or.inl hself
    · rw [hother k0 hk hx]; exact Or.inr ⟨hk, hx⟩
  · rintro (rfl | ⟨hk, hne⟩)
    · exact ⟨g, hg, hself⟩
    · exact ⟨k, hk, hother k hk hne⟩

/-- Nothing is poisoned. A context with `t0` for writing and the property is made; `t0` is changed, and the context dropped without a flush, which panics;
then a context with `t1` and `t0` is wanted, which panics as well. -/
def spoiled : List CtxState :=
  [⟨⟨noLocks, fun _ => false⟩, []⟩,
   ⟨⟨⟨[⟨lockProp, 1, false⟩, ⟨lockW0, 0, false⟩], 2, [.acquired ⟨lockW0, 0, false⟩, .acquired ⟨lockProp, 1, false⟩]⟩, fun _ => false⟩,
     [[⟨lockW0, 0, false⟩, ⟨lockProp, 1, false⟩]]⟩,
   ⟨⟨⟨[⟨lockProp, 1, false⟩, ⟨lockW0, 0, true⟩], 2, [.acquired ⟨lockW0, 0, false⟩, .acquired ⟨lockProp, 1, false⟩]⟩, fun _ => false⟩,
     [[⟨lockW0, 0, true⟩, ⟨lockProp, 1, false⟩]]⟩]

/-- C102: a run in which one forgotten flush costs two tables: nothing is held in the end, `t0` and `t1` are lost, the property is not. -/
theorem C102_spreads : ∃ st, CtxRun ⟨⟨noLocks, fun _ => false⟩, []⟩ st ∧ st.live = [] ∧ st.s.locks.held = [] ∧
    st.s.bad lockW0.res = true ∧ st.s.bad lockW1.res = true ∧ st.s.bad lockProp.res = false := by
  have h1 : CtxStep ⟨⟨noLocks, fun _ => false⟩, []⟩ true (spoiled[1]) := CtxStep.new (fields := [lockW0, lockProp]) rfl
  have h2 : CtxStep (spoiled[1]) true (spoiled[2]) := CtxStep.mark 0 true
  have h3 : CtxStep (spoiled[2]) false _ := CtxStep.recyclePanics (olds := [[⟨lockW0, 0, true⟩, ⟨lockProp, 1, false⟩]]) (rest := [])
    (old := .ctx [⟨lockW0, 0, true⟩, ⟨lockProp, 1, false⟩]) (fields := []) (List.Perm.refl _) rfl (by decide) (by decide) rfl
  have h := (((CtxRun.refl _).step h1).step h2).step h3
  exact ⟨_, h.step (CtxStep.newPanics (p := .poisoned) (fields := [lockW1, lockW0]) (by decide) rfl), rfl, rfl, rfl, rfl, rfl⟩

/-- After that run the property can still be locked, and the context with it dropped: the hypotheses of `C102_again` and `C102_drop`. -/
example : ∃ st, CtxRun ⟨⟨noLocks, fun _ => false⟩, []⟩ st ∧ st.s.bad lockW0.res = true ∧ st.live.flatten.map Guard.ty = [lockProp] ∧
    ∃ s', pCtxFrom [] (.ctx st.live.flatten) st.s = some (s', .ok []) ∧ s'.locks.held = [] := by
  obtain ⟨st, h, h1, h2, h3, h4, h5⟩ := C102_spreads
  obtain ⟨s', ctx, a, b, c⟩ := C102_again h (fields := [lockProp]) (by unfold TypeIds; decide) (by decide) (by rw [h1]; simp) (by simpa using h5)
  have hr := h.step c
  rw [h1] at hr
  have hd : ∀ g ∈ ctx, g.dirty = false := by
    rw [C101_new] at a
    have h6 := ((C101_returns (others := st.s.locks.held) (by simp [Old.guards]) (by simp [Old.guards])).1 a).1
    obtain ⟨slots, l1, e1, e2⟩ := from_inv h6
    injection e1 with e1; injection e1 with e1 e3
    obtain ⟨-, -, -, new, e4, -, -, e5, -⟩ := lockMissing_ok e2
    rw [← e1, fields_none, List.nil_append] at e4
    exact fun g hg => (e5 g (e4.mem_iff.2 hg)).2
  obtain ⟨s2, d1, -, d3⟩ := C102_drop hr (c := ctx) (rest := []) (List.Perm.refl _) hd
  refine ⟨_, hr, ?_, by simpa using b, s2, by simpa using d1, by simpa using d3⟩
  have := (C102_forever h ((CtxRun.refl _).step c) h3).1
  exact this

end V11
