import Verif.Lemmas.CtxThreads
import Verif.Props.Context

/-!
# `context!` among threads (C81)
-/

set_option linter.unusedSimpArgs false
set_option linter.unusedVariables false
set_option linter.unusedSectionVars false

namespace V11
open CSys

/-- A lock event of `Model/Context`, as an action. -/
def LEv.act : LEv → CAct
  | .acquired g => .acq g.ty
  | .released g => .rel g.ty

/-- Which slots are filled. -/
def Slot.isFilled (s : Slot) : LockTy × Bool := (s.1, s.2.isSome)

theorem releaseList_acts (gs : List Guard) : ∀ (slots : List Slot) (l : Locks) {slots' : List Slot} {l' : Locks},
    releaseList slots l gs = .ok (slots', l') →
    place (slots.map Slot.isFilled) (gs.map Guard.ty) = (slots'.map Slot.isFilled, (place (slots.map Slot.isFilled) (gs.map Guard.ty)).2) ∧
    ∃ evs, l'.log = l.log ++ evs ∧ evs.map LEv.act = (place (slots.map Slot.isFilled) (gs.map Guard.ty)).2.map .rel := by
  induction gs with
  | nil =>
    intro slots l slots' l' h
    injection h with h; injection h with h1 h2; subst h1 h2
    exact ⟨rfl, [], by simp, rfl⟩
  | cons g gs ih =>
    intro slots l slots' l' h
    have hidx : (slots.map Slot.isFilled).findIdx? (fun s => s.1.name = g.ty.name) = slotFor slots g.ty.name := by
      unfold slotFor
      rw [List.findIdx?_map]
      rfl
    unfold releaseList at h
    have hdrop : ∀ {l1 : Locks}, l.release g = .ok l1 → releaseList slots l1 gs = .ok (slots', l') →
        place (slots.map Slot.isFilled) ((g :: gs).map Guard.ty) =
          ((place (slots.map Slot.isFilled) (gs.map Guard.ty)).1, g.ty :: (place (slots.map Slot.isFilled) (gs.map Guard.ty)).2) →
        place (slots.map Slot.isFilled) ((g :: gs).map Guard.ty) =
          (slots'.map Slot.isFilled, (place (slots.map Slot.isFilled) ((g :: gs).map Guard.ty)).2) ∧
        ∃ evs, l'.log = l.log ++ evs ∧ evs.map LEv.act = (place (slots.map Slot.isFilled) ((g :: gs).map Guard.ty)).2.map .rel := by
      intro l1 hr h2 e
      obtain ⟨a1, evs, a2, a3⟩ := ih _ _ h2
      rw [e]
      refine ⟨by rw [a1], .released g :: evs, ?_, by simp [LEv.act, a3]⟩
      unfold Locks.release at hr
      split at hr
      · cases hr
      · injection hr with hr; subst hr; rw [a2]; simp
    cases hs : slotFor slots g.ty.name with
    | none =>
      rw [releaseField, hs] at h
      simp only [] at h
      cases hr : l.release g with
      | error p => rw [hr] at h; cases h
      | ok l1 =>
        rw [hr] at h
        refine hdrop hr h ?_
        rw [List.map_cons, place, hidx, hs]
    | some i =>
      rw [releaseField, hs] at h
      simp only [] at h
      cases hg : slots[i]? with
      | none => rw [hg] at h; cases h
      | some q =>
        obtain ⟨ty, o⟩ := q
        have hget : (slots.map Slot.isFilled)[i]? = some (ty, o.isSome) := by rw [List.getElem?_map, hg]; rfl
        rw [hg] at h
        cases o with
        | some g' =>
          simp only [] at h
          cases hr : l.release g with
          | error p => rw [hr] at h; cases h
          | ok l1 =>
            rw [hr] at h
            refine hdrop hr h ?_
            rw [List.map_cons, place, hidx, hs]
            simp only [hget, Option.isSome]
        | none =>
          simp only [] at h
          split at h
          · cases h
          · replace h : releaseList (slots.set i (ty, some g)) l gs = .ok (slots', l') := h
            have e : place (slots.map Slot.isFilled) ((g :: gs).map Guard.ty) =
                place ((slots.set i (ty, some g)).map Slot.isFilled) (gs.map Guard.ty) := by
              rw [List.map_cons, place, hidx, hs]
              simp only [hget, Option.isSome]
              rw [List.map_set]; rfl
            rw [e]
            exact ih _ _ h

theorem lockMissing_acts (slots : List Slot) : ∀ (l : Locks) {gs : List Guard} {l' : Locks}, lockMissing l slots = .ok (gs, l') →
    ∃ evs, l'.log = l.log ++ evs ∧ evs.map LEv.act = ((slots.map Slot.isFilled).filter (!·.2)).map (.acq ·.1) := by
  induction slots with
  | nil =>
    intro l gs l' h
    injection h with h; injection h with h1 h2; subst h2
    exact ⟨[], by simp, rfl⟩
  | cons q slots ih =>
    intro l gs l' h
    obtain ⟨ty, o⟩ := q
    cases o with
    | some g =>
      unfold lockMissing at h
      cases e : lockMissing l slots with
      | error p => rw [e] at h; cases h
      | ok z =>
        rw [e] at h
        injection h with h; injection h with h1 h2; subst h2
        obtain ⟨evs, a1, a2⟩ := ih l e
        exact ⟨evs, a1, by simpa [Slot.isFilled] using a2⟩
    | none =>
      unfold lockMissing at h
      cases ea : l.acquire ty with
      | error p => rw [ea] at h; cases h
      | ok y =>
        obtain ⟨g, l1⟩ := y
        rw [ea] at h
        replace h : (do let (gs, l) ← lockMissing l1 slots; .ok (g :: gs, l)) = Except.ok (gs, l') := h
        cases e : lockMissing l1 slots with
        | error p => rw [e] at h; cases h
        | ok z =>
          rw [e] at h
          injection h with h; injection h with h1 h2; subst h2
          obtain ⟨evs, a1, a2⟩ := ih l1 e
          unfold Locks.acquire at ea
          split at ea
          · cases ea
          · injection ea with ea; injection ea with e1 e2; subst e1 e2
            refine ⟨.acquired ⟨ty, l.next, false⟩ :: evs, by rw [a1]; simp, ?_⟩
            simp [Slot.isFilled, LEv.act, a2]

/-- C81: the actions attributed to `from` (and to `new`, which is `from` nothing) are the lock events of `Model/Context`. -/
theorem C81_agrees {fields : List LockTy} {old : Old} {l l' : Locks} {ctx : List Guard} (h : ctxFrom fields old l = .ok (ctx, l')) :
    (∃ evs, l'.log = l.log ++ evs ∧ evs.map LEv.act = fromActs fields (old.guards.map Guard.ty)) ∧
    fromActs fields [] = fields.map .acq := by
  have hm : (fields.map (fun ty => ((ty, none) : Slot))).map Slot.isFilled = fields.map (·, false) := by
    rw [List.map_map]; rfl
  constructor
  · unfold ctxFrom at h
    rw [Context.release_guards] at h
    cases e : releaseList (fields.map (fun ty => ((ty, none) : Slot))) l old.guards with
    | error p => rw [e] at h; cases h
    | ok z =>
      obtain ⟨slots, l1⟩ := z
      rw [e] at h
      obtain ⟨a1, evs, a2, a3⟩ := releaseList_acts _ _ _ e
      obtain ⟨evs', b1, b2⟩ := lockMissing_acts slots l1 h
      refine ⟨evs ++ evs', by rw [b1, a2, List.append_assoc], ?_⟩
      rw [List.map_append, a3, b2]
      unfold fromActs
      rw [hm] at a1 ⊢
      rw [a1]
  · unfold fromActs
    simp [place, List.filter_map, Function.comp_def]

variable {ι : Type} [DecidableEq ι]

theorem start_keeps {rank : Nat → Nat} {progs : ι → List CtxOp} (hn : ∀ i, OneName ((progs i).flatMap CtxOp.types))
    (hp : ∀ i, Courteous rank (progs i) []) : CSys.Keeps rank (CSys.start progs) :=
  fun i => courteous_inOrder (progs i) (by simpa using hn i) (hp i) (List.Perm.refl _)

/-- C81: any number of threads, each using contexts politely. However they are scheduled, and whether or not waiting writers go
before readers, somebody can always go on until all have finished and hold nothing. -/
theorem C81_no_deadlock (rank : Nat → Nat) (progs : ι → List CtxOp) (hn : ∀ i, OneName ((progs i).flatMap CtxOp.types))
    (hp : ∀ i, Courteous rank (progs i) []) (waits : CSys ι → ι → Prop) (hw : CSys.MayWait waits) (s : CSys ι)
    (hr : CSys.Run waits (CSys.start progs) s) : ¬ Halted waits s := by
  rintro ⟨⟨i, hi⟩, hs⟩
  rcases ((start_keeps hn hp).run hr).progress hw with hd | ⟨j, s', h1, h2⟩
  · exact hi (hd i)
  · exact h2 (hs j s' h1)

/-- C81: and all can be finished, with no lock left. -/
theorem C81_completes [Fintype ι] (rank : Nat → Nat) (progs : ι → List CtxOp) (hn : ∀ i, OneName ((progs i).flatMap CtxOp.types))
    (hp : ∀ i, Courteous rank (progs i) []) (waits : CSys ι → ι → Prop) (hw : CSys.MayWait waits) (s : CSys ι)
    (hr : CSys.Run waits (CSys.start progs) s) :
    ∃ s', CSys.Run waits s s' ∧ ∀ i, (s' i).todo = [] ∧ (s' i).held = [] :=
  ((start_keeps hn hp).run hr).completes hw _ (Nat.le_refl _)

/-- C81: no schedule goes on for ever. -/
theorem C81_no_infinite_schedule [Fintype ι] (f : Nat → CSys ι) (hf : ∀ k, ∃ i, CSys.Step (f k) i (f (k + 1))) : False := by
  have : ∀ k, (f k).left + k ≤ (f 0).left := by
    intro k
    induction k with
    | zero => simp
    | succ k ih =>
      obtain ⟨i, hi⟩ := hf k
      have := step_left hi
      omega
  have := this ((f 0).left + 1)
  omega

theorem oneByOne_courteous {rank : Nat → Nat} (ctxs : List (List LockTy)) (h : ∀ c ∈ ctxs, Listed rank c) : Courteous rank (oneByOne ctxs) [] := by
  induction ctxs with
  | nil => exact trivial
  | cons c ctxs ih =>
    refine ⟨h c (by simp), ?_, ih (fun c hc => h c (by simp [hc]))⟩
    intro f _ g hg
    cases hg

/-- C81: in particular, threads that have one context at a time, if all contexts list their fields in one order. -/
theorem C81_one_order (rank : Nat → Nat) (ctxs : ι → List (List LockTy)) (hl : ∀ i, ∀ c ∈ ctxs i, Listed rank c)
    (hn : ∀ i, OneName ((ctxs i).flatten)) (waits : CSys ι → ι → Prop) (hw : CSys.MayWait waits) (s : CSys ι)
    (hr : CSys.Run waits (CSys.start fun i => oneByOne (ctxs i)) s) : ¬ Halted waits s := by
  refine C81_no_deadlock rank _ (fun i => ?_) (fun i => oneByOne_courteous _ (hl i)) waits hw s hr
  refine (hn i).mono ?_
  intro x hx
  unfold oneByOne at hx
  simp only [List.mem_flatMap, List.mem_cons, List.not_mem_nil, or_false] at hx
  obtain ⟨op, ⟨c, hc, hop⟩, hx⟩ := hx
  rcases hop with rfl | rfl
  · exact List.mem_flatten.2 ⟨c, hc, hx⟩
  · cases hx

/-- C81: going over to a context all of whose fields one has takes no lock, so it never waits. -/
theorem C81_shrink (fields old : List LockTy) (hn : OneName (fields ++ old)) (hd : fields.Nodup) (hs : ∀ f ∈ fields, f ∈ old) (ty : LockTy) :
    .acq ty ∉ fromActs fields old := by
  obtain ⟨kept, dropped, missing, e, p1, p2, p3, p4, p5⟩ := from_split hn hd
  rw [e]
  intro h
  rcases List.mem_append.1 h with h | h
  · obtain ⟨_, _, h⟩ := List.mem_map.1 h; cases h
  · obtain ⟨f, hf, h⟩ := List.mem_map.1 h
    exact p4 f hf (hs f (p3.subset hf))

/-! ## Two threads with one context each -/

/-- A thread that makes one context and has got `i` of its locks. -/
def takenTo (c : List LockTy) (i : Nat) : CThread := ⟨(c.drop i).map .acq ++ c.map .rel, (c.take i).reverse⟩

/-- A thread that is dropping its context. -/
def IsLeaving (c : List LockTy) (t : CThread) : Prop := ∃ rest, t.todo = rest.map .rel ∧ t.held.Perm rest

theorem start_takenTo (c : List LockTy) : (⟨ctxActs [.new c] [], []⟩ : CThread) = takenTo c 0 := by
  simp [ctxActs, takenTo]

/-- Either is the case for each of the two threads, and their locks are compatible. -/
structure TwoInv (c : Bool → List LockTy) (s : CSys Bool) : Prop where
  phase : ∀ x, (∃ i ≤ (c x).length, s x = takenTo (c x) i) ∨ IsLeaving (c x) (s x)
  compat : ∀ g ∈ (s false).held, ∀ h ∈ (s true).held, conflicts g h = false

theorem TwoInv.step {c : Bool → List LockTy} {s s' : CSys Bool} {x : Bool} (h : TwoInv c s) (hs : CSys.Step s x s') : TwoInv c s' := by
  have hother : ∀ y, y ≠ x → s' y = s y := by
    intro y hy
    cases hs with
    | acq _ _ => rw [Function.update_of_ne hy]
    | rel _ => rw [Function.update_of_ne hy]
  have hphase : (∃ i ≤ (c x).length, s' x = takenTo (c x) i) ∨ IsLeaving (c x) (s' x) := by
    cases hs with
    | acq hp hf =>
      rename_i ty k
      rw [Function.update_self]
      rcases h.phase x with ⟨i, hi, e⟩ | ⟨rest, e1, e2⟩
      · rw [e] at hp ⊢
        by_cases hl : i < (c x).length
        · rw [takenTo, List.drop_eq_getElem_cons hl] at hp
          simp only [List.map_cons, List.cons_append] at hp
          injection hp with h1 h2
          injection h1 with h1
          refine Or.inl ⟨i + 1, hl, ?_⟩
          unfold takenTo
          rw [← h2, ← h1, List.take_succ_eq_append_getElem hl, List.reverse_append]
          rfl
        · rw [takenTo, List.drop_eq_nil_of_le (by omega)] at hp
          cases hc : c x with
          | nil => rw [hc] at hp; cases hp
          | cons a l => rw [hc] at hp; simp at hp
      · rw [e1] at hp
        cases rest with
        | nil => cases hp
        | cons a l => simp at hp
    | rel hp =>
      rename_i ty k
      rw [Function.update_self]
      rcases h.phase x with ⟨i, hi, e⟩ | ⟨rest, e1, e2⟩
      · rw [e] at hp ⊢
        by_cases hl : i < (c x).length
        · rw [takenTo, List.drop_eq_getElem_cons hl] at hp
          injection hp with hp _; cases hp
        · have hi' : i = (c x).length := by omega
          rw [takenTo, List.drop_eq_nil_of_le (by omega)] at hp
          simp only [List.map_nil, List.nil_append] at hp
          cases hc : c x with
          | nil => rw [hc] at hp; cases hp
          | cons a l =>
            rw [hc] at hp
            injection hp with h1 h2
            injection h1 with h1
            refine Or.inr ⟨l, h2.symm, ?_⟩
            have : (takenTo (a :: l) i).held.Perm (a :: l) := by
              unfold takenTo
              rw [hi', hc]
              simp only [List.take_length]
              exact List.reverse_perm _
            have := this.erase ty
            rw [← h1, List.erase_cons_head] at this
            rw [← h1]; exact this
      · rw [e1] at hp
        cases rest with
        | nil => cases hp
        | cons a l =>
          injection hp with h1 h2
          injection h1 with h1
          refine Or.inr ⟨l, h2.symm, ?_⟩
          have := e2.erase ty
          rw [← h1, List.erase_cons_head] at this
          rw [← h1]; exact this
  refine ⟨fun y => ?_, ?_⟩
  · by_cases hy : y = x
    · subst hy; exact hphase
    · rw [hother y hy]; exact h.phase y
  · have hnew : ∀ g ∈ (s' x).held, g ∈ (s x).held ∨ ∀ y, ∀ h ∈ (s y).held, conflicts h g = false := by
      intro g hg
      cases hs with
      | acq hp hf =>
        rw [Function.update_self] at hg
        rcases List.mem_cons.1 hg with rfl | hg
        · exact Or.inr hf
        · exact Or.inl hg
      | rel hp =>
        rw [Function.update_self] at hg
        exact Or.inl (List.mem_of_mem_erase hg)
    intro g hg h' hh
    cases x with
    | false =>
      rw [hother true (by simp)] at hh
      rcases hnew g hg with hg | hg
      · exact h.compat g hg h' hh
      · rw [conflicts_comm]; exact hg true h' hh
    | true =>
      rw [hother false (by simp)] at hg
      rcases hnew h' hh with hh | hh
      · exact h.compat g hg h' hh
      · exact hh false g hg

theorem TwoInv.run {c : Bool → List LockTy} {waits : CSys Bool → Bool → Prop} {s s' : CSys Bool} (h : TwoInv c s) (hr : CSys.Run waits s s') :
    TwoInv c s' := by
  induction hr with
  | start => exact h
  | step _ hs _ ih => exact ih.step hs

/-- Two different fields of a context lock different things. -/
def Distinct (c : List LockTy) : Prop := (c.map LockTy.res).Nodup

theorem Distinct.ne {c : List LockTy} (h : Distinct c) {i : Nat} {ty g : LockTy} (hi : c[i]? = some ty) (hg : g ∈ c.take i) : g.res ≠ ty.res := by
  obtain ⟨j, hj, rfl⟩ := List.mem_iff_getElem.1 hg
  rw [List.getElem_take]
  have hj' : j < i := by rw [List.length_take] at hj; omega
  obtain ⟨hl, rfl⟩ := List.getElem?_eq_some_iff.1 hi
  intro e
  have := List.nodup_iff_injective_getElem.1 h (a₁ := ⟨j, by rw [List.length_map]; omega⟩) (a₂ := ⟨i, by rw [List.length_map]; omega⟩) (by simpa using e)
  injection this with this
  omega

theorem TwoInv.blocked {c : Bool → List LockTy} (hd : ∀ x, Distinct (c x)) {waits : CSys Bool → Bool → Prop} (hw : CSys.MayWait waits)
    {s : CSys Bool} (h : TwoInv c s) (hs : ∀ i s', CSys.Step s i s' → waits s i) (x : Bool) (hx : (s x).todo ≠ []) :
    ∃ i ty, s x = takenTo (c x) i ∧ (c x)[i]? = some ty ∧ ∃ g ∈ (s !x).held, conflicts g ty = true := by
  have hnorel : ∀ y ty k, (s y).todo ≠ .rel ty :: k := by
    intro y ty k he
    obtain ⟨_, _, e, _⟩ := hw s y (hs y _ (.rel he))
    rw [he] at e; cases e
  have hat : ∀ y, (s y).todo ≠ [] → ∃ i ty k, s y = takenTo (c y) i ∧ (c y)[i]? = some ty ∧ (s y).todo = .acq ty :: k := by
    intro y hy
    rcases h.phase y with ⟨i, hi, e⟩ | ⟨rest, e1, e2⟩
    · by_cases hl : i < (c y).length
      · refine ⟨i, (c y)[i], ((c y).drop (i + 1)).map .acq ++ (c y).map .rel, e, List.getElem?_eq_getElem hl, ?_⟩
        rw [e, takenTo, List.drop_eq_getElem_cons hl]; rfl
      · exfalso
        rw [e, takenTo, List.drop_eq_nil_of_le (by omega)] at hy
        cases hc : c y with
        | nil => rw [hc] at hy; exact hy rfl
        | cons a l =>
          refine hnorel y a (l.map .rel) ?_
          rw [e, takenTo, List.drop_eq_nil_of_le (by omega), hc]; rfl
    · exfalso
      cases rest with
      | nil => rw [e1] at hy; exact hy rfl
      | cons a l => exact hnorel y a _ e1
  have hown : ∀ y i ty, s y = takenTo (c y) i → (c y)[i]? = some ty → ∀ g ∈ (s y).held, g.res ≠ ty.res := by
    intro y i ty e hi g hg
    rw [e] at hg
    exact (hd y).ne hi (List.mem_reverse.1 hg)
  obtain ⟨i, ty, k, e, hi, ht⟩ := hat x hx
  refine ⟨i, ty, e, hi, ?_⟩
  have hfind : ¬ s.Free ty → ∃ g ∈ (s !x).held, conflicts g ty = true := by
    intro hf
    unfold CSys.Free at hf
    push Not at hf
    obtain ⟨m, g, hg, hc⟩ := hf
    have hc' : conflicts g ty = true := by simpa using hc
    by_cases hm : m = x
    · subst hm; exact absurd (conflicts_res hc') (hown m i ty e hi g hg)
    · have : m = !x := by cases m <;> cases x <;> simp_all
      subst this
      exact ⟨g, hg, hc'⟩
  by_cases hf : s.Free ty
  · exfalso
    obtain ⟨ty1, k1, e1, e2, j, ty2, k2, e3, e4, e5, e6⟩ := hw s x (hs x _ (.acq ht hf))
    rw [ht] at e1
    injection e1 with e1 _; injection e1 with e1; subst e1
    by_cases hf2 : s.Free ty2
    · obtain ⟨ty3, k3, g1, g2, _⟩ := hw s j (hs j _ (.acq e4 hf2))
      rw [e4] at g1
      injection g1 with g1 _; injection g1 with g1; subst g1
      rw [g2] at e5; cases e5
    · unfold CSys.Free at hf2
      push Not at hf2
      obtain ⟨m, g, hg, hc⟩ := hf2
      have hc' : conflicts g ty2 = true := by simpa using hc
      have hr := conflicts_res hc'
      obtain ⟨i2, ty4, k4, f1, f2, f3⟩ := hat j (by rw [e4]; simp)
      have : ty4 = ty2 := by rw [e4] at f3; injection f3 with f3 _; injection f3 with f3; exact f3.symm
      subst this
      by_cases hm : m = x
      · subst hm; exact hown m i ty e hi g hg (hr.trans e6)
      · have : m = j := by cases m <;> cases x <;> cases j <;> simp_all
        subst this
        exact hown m i2 ty4 f1 f2 g hg hr
  · exact hfind hf

theorem takes {c : List LockTy} (hd : Distinct c) (x : Bool) (n : Nat) : ∀ {s : CSys Bool} {k : Nat}, s x = takenTo c k → k + n ≤ c.length →
    (∀ g ∈ (s !x).held, ∀ h ∈ c.take (k + n), conflicts g h = false) → CSys.Run eager s (Function.update s x (takenTo c (k + n))) := by
  induction n with
  | zero =>
    intro s k e _ _
    have : Function.update s x (takenTo c (k + 0)) = s := by
      rw [Nat.add_zero, ← e]; exact Function.update_eq_self x s
    rw [this]; exact .start
  | succ n ih =>
    intro s k e hk hc
    have hl : k < c.length := by omega
    have ht : (s x).todo = .acq c[k] :: ((c.drop (k + 1)).map .acq ++ c.map .rel) := by
      rw [e, takenTo, List.drop_eq_getElem_cons hl]; rfl
    have hfree : s.Free c[k] := by
      intro m g hg
      by_contra hcon
      have hcon' : conflicts g c[k] = true := by simpa using hcon
      by_cases hm : m = x
      · subst hm
        rw [e] at hg
        exact hd.ne (List.getElem?_eq_getElem hl) (List.mem_reverse.1 hg) (conflicts_res hcon')
      · have : m = !x := by cases m <;> cases x <;> simp_all
        subst this
        have := hc g hg c[k] (List.mem_iff_getElem.2 ⟨k, by rw [List.length_take]; omega, by rw [List.getElem_take]⟩)
        rw [this] at hcon'; cases hcon'
    have hstep := CSys.Step.acq ht hfree
    have hnext : (⟨(c.drop (k + 1)).map .acq ++ c.map .rel, c[k] :: (s x).held⟩ : CThread) = takenTo c (k + 1) := by
      unfold takenTo
      rw [e, List.take_succ_eq_append_getElem hl, List.reverse_append]
      rfl
    rw [hnext] at hstep
    have hother : (Function.update s x (takenTo c (k + 1))) (!x) = s !x := by
      rw [Function.update_of_ne (by cases x <;> simp)]
    have := ih (s := Function.update s x (takenTo c (k + 1))) (k := k + 1) (by rw [Function.update_self]) (by omega) (by
      rw [hother, show k + 1 + n = k + (n + 1) by omega]; exact hc)
    rw [Function.update_idem, show k + 1 + n = k + (n + 1) by omega] at this
    exact (CSys.Run.step .start hstep (by simp [eager])).trans this

/-- C81: two threads that make one context each, whose fields lock different things. They can deadlock (in some schedule, under
some treatment of readers and writers std allows) exactly if there is a point in each such that the locks taken up to there
are compatible and each one's next lock is excluded by a lock the other has. -/
theorem C81_two_contexts (a b : List LockTy) (ha : Distinct a) (hb : Distinct b) :
    (∃ waits, CSys.MayWait waits ∧ ∃ s, CSys.Run waits (CSys.start (two [.new a] [.new b])) s ∧ Halted waits s) ↔ CanBlock a b := by
  have hstart : ∀ x, CSys.start (two [.new a] [.new b]) x = takenTo (if x then b else a) 0 := by
    intro x
    cases x
    · exact start_takenTo a
    · exact start_takenTo b
  constructor
  · rintro ⟨waits, hw, s, hr, ⟨x, hx⟩, hs⟩
    have hd : ∀ x : Bool, Distinct (if x then b else a) := by intro x; cases x <;> assumption
    have hinv : TwoInv (fun x => if x then b else a) s := by
      refine TwoInv.run ⟨fun x => Or.inl ⟨0, Nat.zero_le _, hstart x⟩, ?_⟩ hr
      intro g hg
      rw [hstart] at hg
      simp [takenTo] at hg
    have hboth : ∀ y, (s y).todo ≠ [] := by
      obtain ⟨i, ty, e, hi, g, hg, hc⟩ := hinv.blocked hd hw hs x hx
      intro y
      by_cases hy : y = x
      · subst hy; exact hx
      · have : y = !x := by cases y <;> cases x <;> simp_all
        subst this
        intro he
        rcases hinv.phase (!x) with ⟨i2, hi2, e2⟩ | ⟨rest, e1, e2⟩
        · rw [e2] at he hg
          unfold takenTo at he hg
          simp only [List.append_eq_nil_iff, List.map_eq_nil_iff] at he
          rw [he.2] at hg
          simp at hg
        · rw [e1] at he
          have : rest = [] := by simpa using he
          subst this
          have := e2.eq_nil
          rw [this] at hg; cases hg
    obtain ⟨i, tx, e, hi, g, hg, hc⟩ := hinv.blocked hd hw hs false (hboth false)
    obtain ⟨j, ty, e', hj, g', hg', hc'⟩ := hinv.blocked hd hw hs true (hboth true)
    simp only [Bool.not_false, Bool.not_true] at hg hg'
    refine ⟨i, j, tx, ty, by simpa using hi, by simpa using hj, ?_, ⟨g, ?_, hc⟩, ⟨g', ?_, hc'⟩⟩
    · intro p hp q hq
      refine hinv.compat p ?_ q ?_
      · rw [e]; simpa [takenTo] using hp
      · rw [e']; simpa [takenTo] using hq
    · rw [e'] at hg; simpa [takenTo] using hg
    · rw [e] at hg'; simpa [takenTo] using hg'
  · rintro ⟨i, j, x, y, hi, hj, hcomp, ⟨h, hh, hx⟩, ⟨g, hg, hy⟩⟩
    obtain ⟨hil, rfl⟩ := List.getElem?_eq_some_iff.1 hi
    obtain ⟨hjl, rfl⟩ := List.getElem?_eq_some_iff.1 hj
    refine ⟨eager, fun _ _ h => h.elim, ?_⟩
    have r1 := takes ha false i (s := CSys.start (two [.new a] [.new b])) (k := 0) (hstart false) (by omega) (by
      intro g hg
      rw [Bool.not_false, hstart] at hg
      simp [takenTo] at hg)
    rw [Nat.zero_add] at r1
    have r2 := takes hb true j (s := Function.update (CSys.start (two [.new a] [.new b])) false (takenTo a i)) (k := 0)
      (by rw [Function.update_of_ne (by simp)]; exact hstart true) (by omega) (by
        intro g hg h hh
        rw [Bool.not_true, Function.update_self] at hg
        rw [Nat.zero_add] at hh
        exact hcomp g (by simpa [takenTo] using hg) h hh)
    rw [Nat.zero_add] at r2
    refine ⟨_, r1.trans r2, ⟨false, ?_⟩, ?_⟩
    · rw [Function.update_of_ne (by simp), Function.update_self, takenTo, List.drop_eq_getElem_cons hil]
      exact List.cons_ne_nil _ _
    · have e1 : (Function.update (Function.update (CSys.start (two [.new a] [.new b])) false (takenTo a i)) true (takenTo b j)) false = takenTo a i := by
        rw [Function.update_of_ne (by simp), Function.update_self]
      have e2 : (Function.update (Function.update (CSys.start (two [.new a] [.new b])) false (takenTo a i)) true (takenTo b j)) true = takenTo b j := by
        rw [Function.update_self]
      generalize hS : (Function.update (Function.update (CSys.start (two [.new a] [.new b])) false (takenTo a i)) true (takenTo b j)) = S at e1 e2
      intro m s' hs
      exfalso
      cases m with
      | false =>
        cases hs with
        | acq hp hf =>
          rw [e1, takenTo, List.drop_eq_getElem_cons hil] at hp
          injection hp with hp _; injection hp with hp; subst hp
          have := hf true h (by rw [e2]; simpa [takenTo] using hh)
          rw [hx] at this; cases this
        | rel hp =>
          rw [e1, takenTo, List.drop_eq_getElem_cons hil] at hp
          injection hp with hp _; cases hp
      | true =>
        cases hs with
        | acq hp hf =>
          rw [e2, takenTo, List.drop_eq_getElem_cons hjl] at hp
          injection hp with hp _; injection hp with hp; subst hp
          have := hf false g (by rw [e1]; simpa [takenTo] using hg)
          rw [hy] at this; cases this
        | rel hp =>
          rw [e2, takenTo, List.drop_eq_getElem_cons hjl] at hp
          injection hp with hp _; cases hp

/-- C81, the defect: `from` locks what is missing while it keeps the rest, so contexts that all list their fields in one order
can still deadlock. One thread has `{y}` and goes over to `{x, y}`, another makes `{x, y}`: in some schedule both wait for
ever, whatever the treatment of readers and writers. -/
theorem C81_growing_deadlocks (x y : LockTy) (hx : x.write = true) (hy : y.write = true) (hr : x.res ≠ y.res) (hn : x.name ≠ y.name)
    (rest1 rest2 : List CtxOp) (waits : CSys Bool → Bool → Prop) (hw : CSys.MayWait waits) :
    ∃ s, CSys.Run waits (CSys.start (two (.new [y] :: .from [x, y] 1 :: rest1) (.new [x, y] :: rest2))) s ∧ Halted waits s := by
  have hxx : conflicts x x = true := by simp [conflicts, hx]
  have hyy : conflicts y y = true := by simp [conflicts, hy]
  have hyx : conflicts y x = false := by simp [conflicts, Ne.symm hr]
  have hfrom : fromActs [x, y] [y] = [.acq x] := by
    simp [fromActs, place, List.findIdx?_cons, hn]
  have e1 : ctxActs (.new [y] :: .from [x, y] 1 :: rest1) [] = .acq y :: .acq x :: ctxActs rest1 [[x, y]] := by
    simp only [ctxActs, List.take_succ_cons, List.take_zero, List.flatten_cons, List.flatten_nil, List.append_nil, hfrom]
    rfl
  have e2 : ctxActs (.new [x, y] :: rest2) [] = .acq x :: .acq y :: ctxActs rest2 [[x, y]] := rfl
  have nowait : ∀ (s : CSys Bool) i ty k, (s i).todo = .acq ty :: k → ty.write = true → ¬ waits s i := by
    intro s i ty k h1 h2 h3
    obtain ⟨ty', k', g1, g2, _⟩ := hw s i h3
    rw [h1] at g1
    injection g1 with g1 _; injection g1 with g1; subst g1
    rw [h2] at g2; cases g2
  let s0 : CSys Bool := CSys.start (two (.new [y] :: .from [x, y] 1 :: rest1) (.new [x, y] :: rest2))
  have t0 : (s0 false).todo = .acq y :: .acq x :: ctxActs rest1 [[x, y]] := e1
  have t1 : (s0 true).todo = .acq x :: .acq y :: ctxActs rest2 [[x, y]] := e2
  have h0 : ∀ i, (s0 i).held = [] := fun i => rfl
  let s1 : CSys Bool := Function.update s0 false ⟨.acq x :: ctxActs rest1 [[x, y]], y :: (s0 false).held⟩
  have r1 : CSys.Run waits s0 s1 := .step .start (.acq t0 (fun j g hg => by rw [h0] at hg; cases hg)) (nowait _ _ _ _ t0 hy)
  have t1' : (s1 true).todo = .acq x :: .acq y :: ctxActs rest2 [[x, y]] := t1
  let s2 : CSys Bool := Function.update s1 true ⟨.acq y :: ctxActs rest2 [[x, y]], x :: (s1 true).held⟩
  have r2 : CSys.Run waits s0 s2 := by
    refine .step r1 (.acq t1' ?_) (nowait _ _ _ _ t1' hx)
    intro j g hg
    cases j
    · replace hg : g ∈ [y] := hg
      rw [List.mem_singleton.1 hg]; exact hyx
    · cases hg
  refine ⟨s2, r2, ⟨false, fun h => by cases h⟩, ?_⟩
  have f1 : (s2 false).todo = .acq x :: ctxActs rest1 [[x, y]] := rfl
  have f2 : (s2 true).todo = .acq y :: ctxActs rest2 [[x, y]] := rfl
  intro m s' hs
  exfalso
  cases m with
  | false =>
    cases hs with
    | acq hp hf =>
      rw [f1] at hp
      injection hp with hp _; injection hp with hp; subst hp
      have := hf true x (by exact List.mem_cons_self)
      rw [hxx] at this; cases this
    | rel hp => rw [f1] at hp; injection hp with hp _; cases hp
  | true =>
    cases hs with
    | acq hp hf =>
      rw [f2] at hp
      injection hp with hp _; injection hp with hp; subst hp
      have := hf false y (by exact List.mem_cons_self)
      rw [hyy] at this; cases this
    | rel hp => rw [f2] at hp; injection hp with hp _; cases hp

/-- C81, the defect: a context that reads one table twice (through two lock types, or two modules) works alone, but if waiting
writers go before readers it deadlocks with any writer of that table. -/
theorem C81_reading_twice (r r' w : LockTy) (h1 : r.write = false) (h2 : r'.write = false) (h3 : w.write = true)
    (e1 : r'.res = r.res) (e2 : w.res = r.res) (rest1 rest2 : List CtxOp) :
    ∃ waits, CSys.MayWait waits ∧
      ∃ s, CSys.Run waits (CSys.start (two (.new [r, r'] :: rest1) (.new [w] :: rest2))) s ∧ Halted waits s := by
  have hrw : conflicts r w = true := by simp [conflicts, e2, h3]
  let s0 : CSys Bool := CSys.start (two (.new [r, r'] :: rest1) (.new [w] :: rest2))
  let s1 : CSys Bool := Function.update s0 false ⟨.acq r' :: ctxActs rest1 [[r, r']], r :: (s0 false).held⟩
  have f1 : (s1 false).todo = .acq r' :: ctxActs rest1 [[r, r']] := rfl
  have f2 : (s1 true).todo = .acq w :: ctxActs rest2 [[w]] := rfl
  have hne : (s0 false).held ≠ (s1 false).held := by
    show ([] : List LockTy) ≠ [r]
    simp
  refine ⟨fun s i => s = s1 ∧ i = false, ?_, s1, ?_, ⟨false, fun h => by cases h⟩, ?_⟩
  · rintro s i ⟨rfl, rfl⟩
    exact ⟨r', _, f1, h2, true, w, _, by simp, f2, h3, e2.trans e1.symm⟩
  · refine .step .start (.acq (ty := r) (k := .acq r' :: ctxActs rest1 [[r, r']]) rfl ?_) ?_
    · intro j g hg; cases j <;> cases hg
    · rintro ⟨e, _⟩
      exact hne (congrArg (fun s : CSys Bool => (s false).held) e)
  · intro m s' hs
    cases m with
    | false => exact ⟨rfl, rfl⟩
    | true =>
      exfalso
      cases hs with
      | acq hp hf =>
        rw [f2] at hp
        injection hp with hp _; injection hp with hp; subst hp
        have := hf false r (by exact List.mem_cons_self)
        rw [hrw] at this; cases this
      | rel hp => rw [f2] at hp; injection hp with hp _; cases hp

/-! Three locks: cars (written), roads (read), a log (written). -/

def carsW : LockTy := ⟨"cars::Write", 1, 2, true⟩
def roadsR : LockTy := ⟨"roads::Read", 2, 1, false⟩
def roadsW : LockTy := ⟨"roads::Write", 3, 1, true⟩
def logW : LockTy := ⟨"log::Write", 4, 0, true⟩

/-- Three threads: one goes from a context to a smaller one and then to one with a lower field; one has two contexts at once;
one uses contexts one by one. -/
def ctxDemo : Fin 3 → List CtxOp
  | 0 => [.new [carsW, roadsR, logW], .from [carsW] 1, .from [carsW, logW] 1, .drop]
  | 1 => [.new [roadsW], .new [logW], .from [logW] 2]
  | 2 => oneByOne [[roadsR, logW], [carsW, roadsW]]

example : (∀ i, OneName ((ctxDemo i).flatMap CtxOp.types)) ∧ ∀ i, Courteous id (ctxDemo i) [] := by
  constructor
  · have : ∀ i, ∀ a ∈ (ctxDemo i).flatMap CtxOp.types, ∀ b ∈ (ctxDemo i).flatMap CtxOp.types, a.name = b.name → a = b := by decide
    exact this
  · intro i
    match i with
    | 0 => simp [ctxDemo, Courteous, Listed, carsW, roadsR, logW]
    | 1 => simp [ctxDemo, Courteous, Listed, roadsW, logW]
    | 2 => simp [ctxDemo, oneByOne, Courteous, Listed, carsW, roadsW, roadsR, logW]

/-- What a thread does: the second goes over to the log alone, keeping that lock. -/
example : ctxActs (ctxDemo 0) [] =
      [.acq carsW, .acq roadsR, .acq logW, .rel roadsR, .rel logW, .acq logW, .rel carsW, .rel logW] ∧
    ctxActs (ctxDemo 1) [] = [.acq roadsW, .acq logW, .rel roadsW, .rel logW] := by decide

/-- Two contexts in opposite orders can block each other; with a common first field they cannot, whatever follows. -/
example : CanBlock [carsW, roadsW] [roadsR, carsW] :=
  ⟨1, 1, roadsW, carsW, rfl, rfl, by decide, ⟨roadsR, by decide, rfl⟩, ⟨carsW, by decide, rfl⟩⟩

example : ¬ CanBlock [logW, carsW, roadsW] [logW, roadsR, carsW] := by
  rintro ⟨i, j, x, y, hi, hj, hcomp, ⟨h, hh, hx⟩, ⟨g, hg, hy⟩⟩
  cases i with
  | zero => cases hg
  | succ i =>
    cases j with
    | zero => cases hh
    | succ j =>
      have := hcomp logW (by simp) logW (by simp)
      revert this; decide

example : Distinct [logW, carsW, roadsW] ∧ OneName ([carsW] ++ [carsW, roadsR, logW]) := by
  constructor
  · unfold Distinct; decide
  · have : ∀ a ∈ [carsW] ++ [carsW, roadsR, logW], ∀ b ∈ [carsW] ++ [carsW, roadsR, logW], a.name = b.name → a = b := by decide
    exact this

end V11
