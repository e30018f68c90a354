import Verif.Spec.CtxThreads
import Mathlib.Data.Fintype.Basic
import Mathlib.Algebra.BigOperators.Group.Finset.Basic
import Mathlib.Algebra.Order.BigOperators.Group.Finset

/-!
# Contexts among threads: the lock order
-/

set_option linter.unusedSimpArgs false
set_option linter.unusedVariables false
set_option linter.unusedSectionVars false

namespace V11

/-- Lock types with one name are one type. -/
def OneName (tys : List LockTy) : Prop := ∀ a ∈ tys, ∀ b ∈ tys, a.name = b.name → a = b

theorem OneName.mono {l l' : List LockTy} (h : OneName l) (hs : ∀ x ∈ l', x ∈ l) : OneName l' :=
  fun a ha b hb => h a (hs a ha) b (hs b hb)

/-- The slots that are filled, and those that are not. -/
def filled (slots : List (LockTy × Bool)) : List LockTy := (slots.filter (·.2)).map (·.1)
def vacant (slots : List (LockTy × Bool)) : List LockTy := (slots.filter (!·.2)).map (·.1)

theorem filled_split (l1 l2 : List (LockTy × Bool)) (ty : LockTy) :
    (filled (l1 ++ (ty, true) :: l2)).Perm (ty :: filled (l1 ++ (ty, false) :: l2)) := by
  unfold filled
  simp only [List.filter_append, List.filter_cons, List.map_append, Bool.false_eq_true, if_true, if_false, List.map_cons]
  exact List.perm_middle

theorem place_true {ty : LockTy} (old : List LockTy) : ∀ slots, (ty, true) ∈ slots → (ty, true) ∈ (place slots old).1 := by
  induction old with
  | nil => exact fun _ h => h
  | cons g gs ih =>
    intro slots h
    unfold place
    cases hf : slots.findIdx? (fun s => s.1.name = g.name) with
    | none => exact ih _ h
    | some i =>
      simp only []
      cases hs : slots[i]? with
      | none => exact ih _ h
      | some q =>
        obtain ⟨ty', b⟩ := q
        cases b with
        | true => exact ih _ h
        | false =>
          refine ih _ ?_
          rw [List.mem_iff_getElem?] at h ⊢
          obtain ⟨j, hj⟩ := h
          have : i ≠ j := by rintro rfl; rw [hs] at hj; cases hj
          exact ⟨j, by rw [List.getElem?_set_ne this, hj]⟩

theorem place_spec (old : List LockTy) : ∀ slots, OneName (slots.map (·.1) ++ old) → (slots.map (·.1)).Nodup →
    (place slots old).1.map (·.1) = slots.map (·.1) ∧
    (filled (place slots old).1 ++ (place slots old).2).Perm (filled slots ++ old) ∧
    (∀ ty, (ty, false) ∈ (place slots old).1 → ty ∉ old) := by
  induction old with
  | nil => exact fun slots _ _ => ⟨rfl, List.Perm.refl _, fun _ _ h => by cases h⟩
  | cons g gs ih =>
    intro slots hn hd
    have hn' : OneName (slots.map (·.1) ++ gs) := hn.mono (by simp only [List.mem_append, List.mem_cons]; tauto)
    have hdrop : (place slots (g :: gs)) = ((place slots gs).1, g :: (place slots gs).2) →
        (∀ s ∈ slots, s.1.name = g.name → s = (g, true)) →
        (place slots (g :: gs)).1.map (·.1) = slots.map (·.1) ∧
        (filled (place slots (g :: gs)).1 ++ (place slots (g :: gs)).2).Perm (filled slots ++ g :: gs) ∧
        (∀ ty, (ty, false) ∈ (place slots (g :: gs)).1 → ty ∉ g :: gs) := by
      intro e hfull
      obtain ⟨h1, h2, h3⟩ := ih slots hn' hd
      rw [e]
      refine ⟨h1, ?_, ?_⟩
      · simp only []
        refine List.perm_middle.trans ((List.Perm.cons g h2).trans List.perm_middle.symm)
      · intro ty hty hm
        rcases List.mem_cons.1 hm with rfl | hm
        · have hin : ty ∈ slots.map (·.1) := by rw [← h1]; exact List.mem_map.2 ⟨_, hty, rfl⟩
          obtain ⟨s, hs, rfl⟩ := List.mem_map.1 hin
          have hs1 := hfull s hs rfl
          have ht := place_true gs slots (hs1 ▸ hs)
          have hd' : ((place slots gs).1.map (·.1)).Nodup := h1 ▸ hd
          have := List.inj_on_of_nodup_map hd' hty ht rfl
          cases this
        · exact h3 ty hty hm
    cases hf : slots.findIdx? (fun s => s.1.name = g.name) with
    | none =>
      refine hdrop (by rw [place, hf]) ?_
      rw [List.findIdx?_eq_none_iff] at hf
      intro s hs he
      have := hf s hs
      simp [he] at this
    | some i =>
      obtain ⟨hi, hname, _⟩ := List.findIdx?_eq_some_iff_getElem.1 hf
      simp only [decide_eq_true_eq] at hname
      have hg : (slots[i]).1 = g := hn _ (List.mem_append_left _ (List.mem_map.2 ⟨_, List.getElem_mem hi, rfl⟩)) _ (by simp) hname
      rcases hs : slots[i] with ⟨ty, b⟩
      rw [hs] at hg; simp only [] at hg; subst hg
      have huniq : ∀ s ∈ slots, s.1.name = ty.name → s = (ty, b) := by
        intro s hs1 he
        have h1 : s.1 = ty := hn _ (by simp only [List.mem_append, List.mem_map]; exact Or.inl ⟨s, hs1, rfl⟩) _ (by simp) he
        exact List.inj_on_of_nodup_map hd hs1 (hs ▸ List.getElem_mem hi) (by rw [h1])
      have hget : slots[i]? = some (ty, b) := by rw [List.getElem?_eq_getElem hi, hs]
      cases b with
      | true => exact hdrop (by rw [place, hf]; simp only [hget]) huniq
      | false =>
        have e : place slots (ty :: gs) = place (slots.set i (ty, true)) gs := by rw [place, hf]; simp only [hget]
        have hm : (slots.set i (ty, true)).map (·.1) = slots.map (·.1) := by
          rw [List.map_set]
          apply List.ext_getElem?
          intro j
          by_cases hj : i = j
          · subst hj; simp [List.getElem?_set, hi, hs]
          · rw [List.getElem?_set_ne hj]
        obtain ⟨h1, h2, h3⟩ := ih (slots.set i (ty, true)) (by rw [hm]; exact hn') (by rw [hm]; exact hd)
        rw [e]
        refine ⟨h1.trans hm, h2.trans ?_, ?_⟩
        · have hsp : slots = slots.take i ++ (ty, false) :: slots.drop (i + 1) := by
            rw [← hs, List.cons_getElem_drop_succ, List.take_append_drop]
          have hset : slots.set i (ty, true) = slots.take i ++ (ty, true) :: slots.drop (i + 1) := by
            rw [List.set_eq_take_append_cons_drop, if_pos hi]
          have hp := filled_split (slots.take i) (slots.drop (i + 1)) ty
          rw [← hset, ← hsp] at hp
          exact (List.Perm.append_right gs hp).trans List.perm_middle.symm
        · intro ty' hty' hmem
          rcases List.mem_cons.1 hmem with rfl | hmem
          · have ht := place_true gs (slots.set i (ty', true)) (List.mem_set hi _)
            have hd' : ((place (slots.set i (ty', true)) gs).1.map (·.1)).Nodup := by rw [h1, hm]; exact hd
            have := List.inj_on_of_nodup_map hd' hty' ht rfl
            cases this
          · exact h3 ty' hty' hmem

/-- `from` in terms of sets: what is dropped, what is locked. -/
theorem from_split {fields old : List LockTy} (hn : OneName (fields ++ old)) (hd : fields.Nodup) :
    ∃ kept dropped missing : List LockTy, fromActs fields old = dropped.map .rel ++ missing.map .acq ∧ (kept ++ dropped).Perm old ∧
      (kept ++ missing).Perm fields ∧ missing.Sublist fields ∧ (∀ f ∈ missing, f ∉ old) ∧ (∀ g ∈ kept, g ∈ fields ∧ g ∈ old) := by
  have hm : (fields.map (fun ty => (ty, false))).map (·.1) = fields := by simp [Function.comp_def]
  obtain ⟨h1, h2, h3⟩ := place_spec old (fields.map (·, false)) (by rw [hm]; exact hn) (by rw [hm]; exact hd)
  have hf0 : filled (fields.map (·, false)) = [] := by unfold filled; simp [List.filter_map, Function.comp_def]
  rw [hf0, List.nil_append] at h2
  rw [hm] at h1
  refine ⟨filled (place (fields.map (·, false)) old).1, (place (fields.map (·, false)) old).2, vacant (place (fields.map (·, false)) old).1,
    ?_, h2, ?_, ?_, ?_, ?_⟩
  · unfold fromActs vacant
    simp [List.map_map, Function.comp_def]
  · have := (List.filter_append_perm (·.2) (place (fields.map (·, false)) old).1).map (·.1)
    rw [List.map_append, h1] at this
    exact this
  · have := (List.filter_sublist (p := fun s : LockTy × Bool => !s.2) (l := (place (fields.map (·, false)) old).1)).map (·.1)
    rw [h1] at this
    exact this
  · intro f hf
    obtain ⟨⟨f', b⟩, hq, rfl⟩ := List.mem_map.1 hf
    obtain ⟨hq1, hq2⟩ := List.mem_filter.1 hq
    simp only [Bool.not_eq_true', ] at hq2
    subst hq2
    exact h3 _ hq1
  · intro g hg
    refine ⟨?_, h2.subset (List.mem_append_left _ hg)⟩
    obtain ⟨q, hq, rfl⟩ := List.mem_map.1 hg
    rw [← h1]
    exact List.mem_map.2 ⟨q, (List.mem_filter.1 hq).1, rfl⟩

/-- Locks are asked for from higher to lower rank, only held ones are dropped, in the end none is held. -/
def InOrder (rank : Nat → Nat) : List LockTy → List CAct → Prop
  | h, [] => h = []
  | h, .acq ty :: k => (∀ g ∈ h, rank ty.res < rank g.res) ∧ InOrder rank (ty :: h) k
  | h, .rel ty :: k => ty ∈ h ∧ InOrder rank (h.erase ty) k

theorem InOrder.perm {rank : Nat → Nat} {l : List CAct} : ∀ {h h' : List LockTy}, h.Perm h' → InOrder rank h l → InOrder rank h' l := by
  induction l with
  | nil =>
    intro h h' hp hi
    unfold InOrder at hi ⊢
    subst hi
    exact (List.nil_perm.1 hp)
  | cons a k ih =>
    intro h h' hp hi
    cases a with
    | acq ty => exact ⟨fun g hg => hi.1 g (hp.mem_iff.2 hg), ih (hp.cons ty) hi.2⟩
    | rel ty => exact ⟨hp.mem_iff.1 hi.1, ih (hp.erase ty) hi.2⟩

theorem inOrder_rels {rank : Nat → Nat} (l : List LockTy) : ∀ {h rest : List LockTy} {k : List CAct}, h.Perm (l ++ rest) → InOrder rank rest k →
    InOrder rank h (l.map .rel ++ k) := by
  induction l with
  | nil => exact fun hp hk => hk.perm hp.symm
  | cons a l ih =>
    intro h rest k hp hk
    refine ⟨hp.mem_iff.2 (by simp), ?_⟩
    have := hp.erase a
    rw [List.cons_append, List.erase_cons_head] at this
    exact ih this hk

theorem inOrder_acqs {rank : Nat → Nat} (l : List LockTy) : ∀ {h : List LockTy} {k : List CAct}, Listed rank l →
    (∀ f ∈ l, ∀ g ∈ h, rank f.res < rank g.res) → InOrder rank (l ++ h) k → InOrder rank h (l.map .acq ++ k) := by
  induction l with
  | nil => exact fun _ _ hk => hk
  | cons a l ih =>
    intro h k hl hh hk
    obtain ⟨h1, h2⟩ := List.pairwise_cons.1 hl
    refine ⟨fun g hg => hh a (by simp) g hg, ih h2 ?_ (hk.perm List.perm_middle.symm)⟩
    intro f hf g hg
    rcases List.mem_cons.1 hg with rfl | hg
    · exact h1 f hf
    · exact hh f (by simp [hf]) g hg

theorem Listed.nodup {rank : Nat → Nat} {l : List LockTy} (h : Listed rank l) : l.Nodup := by
  unfold Listed at h
  exact h.imp (fun h e => by rw [e] at h; exact Nat.lt_irrefl _ h)

theorem courteous_inOrder {rank : Nat → Nat} (ops : List CtxOp) : ∀ {stack : List (List LockTy)} {h : List LockTy},
    OneName (ops.flatMap CtxOp.types ++ stack.flatten) → Courteous rank ops stack → h.Perm stack.flatten → InOrder rank h (ctxActs ops stack) := by
  induction ops with
  | nil =>
    intro stack h _ _ hp
    have := inOrder_rels (rank := rank) stack.flatten (h := h) (rest := []) (k := []) (by simpa using hp) rfl
    rw [List.append_nil] at this
    exact this
  | cons op ops ih =>
    intro stack h hn hpol hp
    cases op with
    | new fields =>
      obtain ⟨h1, h2, h3⟩ := hpol
      refine inOrder_acqs fields h1 (fun f hf g hg => h2 f hf g (hp.mem_iff.1 hg)) (ih (hn.mono ?_) h3 ?_)
      · simp only [List.mem_append, List.flatMap_cons, CtxOp.types, List.flatten_cons]; tauto
      · rw [List.flatten_cons]; exact List.Perm.append_left fields hp
    | «from» fields k =>
      obtain ⟨h1, h2, h3⟩ := hpol
      have hsplit : stack.flatten = (stack.take k).flatten ++ (stack.drop k).flatten := by
        rw [← List.flatten_append, List.take_append_drop]
      obtain ⟨kept, dropped, missing, e, p1, p2, p3, p4, p5⟩ := from_split (fields := fields) (old := (stack.take k).flatten)
        (hn.mono (by simp only [List.mem_append, List.flatMap_cons, CtxOp.types, hsplit]; tauto)) h1.nodup
      show InOrder rank h (fromActs fields (stack.take k).flatten ++ ctxActs ops (fields :: stack.drop k))
      rw [e, List.append_assoc]
      refine inOrder_rels dropped (rest := kept ++ (stack.drop k).flatten) ?_ ?_
      · refine hp.trans ?_
        rw [hsplit, ← List.append_assoc]
        exact List.Perm.append_right _ (p1.symm.trans List.perm_append_comm)
      · refine inOrder_acqs missing (List.Pairwise.sublist p3 h1) ?_ ?_
        · intro f hf g hg
          obtain ⟨q1, q2⟩ := h2 f (p3.subset hf) (p4 f hf)
          rcases List.mem_append.1 hg with hg | hg
          · exact q1 g (p5 g hg).1 (p5 g hg).2
          · exact q2 g hg
        · refine ih (hn.mono ?_) h3 ?_
          · simp only [List.mem_append, List.flatMap_cons, CtxOp.types, List.flatten_cons, hsplit]; tauto
          · rw [List.flatten_cons, ← List.append_assoc]
            exact List.Perm.append_right _ (List.perm_append_comm.trans p2)
    | drop =>
      cases stack with
      | nil => exact ih (hn.mono (by simp [CtxOp.types])) hpol hp
      | cons c stack =>
        refine inOrder_rels c (rest := stack.flatten) (by simpa using hp) (ih (hn.mono ?_) hpol (List.Perm.refl _))
        simp only [List.mem_append, List.flatMap_cons, CtxOp.types, List.flatten_cons, List.nil_append]; tauto

namespace CSys
variable {ι : Type} [DecidableEq ι]

theorem conflicts_res {a b : LockTy} (h : conflicts a b = true) : a.res = b.res := by
  unfold conflicts at h
  simp only [Bool.and_eq_true, decide_eq_true_eq] at h
  exact h.1

theorem conflicts_comm (a b : LockTy) : conflicts a b = conflicts b a := by
  unfold conflicts
  rw [Bool.or_comm]
  congr 1
  exact decide_eq_decide.2 eq_comm

/-- All threads keep to the order. -/
def Keeps (rank : Nat → Nat) (s : CSys ι) : Prop := ∀ i, InOrder rank (s i).held (s i).todo

theorem Keeps.step {rank : Nat → Nat} {s s' : CSys ι} {i : ι} (h : Keeps rank s) (hs : Step s i s') : Keeps rank s' := by
  intro j
  have hi := h i
  cases hs with
  | acq hp hf =>
    rw [hp] at hi
    by_cases e : j = i
    · subst e; rw [Function.update_self]; exact hi.2
    · rw [Function.update_of_ne e]; exact h j
  | rel hp =>
    rw [hp] at hi
    by_cases e : j = i
    · subst e; rw [Function.update_self]; exact hi.2
    · rw [Function.update_of_ne e]; exact h j

theorem Keeps.run {rank : Nat → Nat} {waits : CSys ι → ι → Prop} {s s' : CSys ι} (h : Keeps rank s) (hr : Run waits s s') : Keeps rank s' := by
  induction hr with
  | start => exact h
  | step _ hs _ ih => exact ih.step hs

/-- Somebody can go on, unless all have finished. -/
theorem Keeps.progress {rank : Nat → Nat} {waits : CSys ι → ι → Prop} (hw : MayWait waits) {s : CSys ι} (h : Keeps rank s) :
    (∀ i, (s i).todo = []) ∨ ∃ i s', Step s i s' ∧ ¬ waits s i := by
  by_contra hcon
  push Not at hcon
  obtain ⟨⟨i0, hi0⟩, hstuck⟩ := hcon
  have hacq : ∀ i, (s i).todo ≠ [] → ∃ ty k, (s i).todo = .acq ty :: k := by
    intro i hi
    cases ht : (s i).todo with
    | nil => exact absurd ht hi
    | cons a k =>
      cases a with
      | acq ty => exact ⟨ty, k, rfl⟩
      | rel ty =>
        obtain ⟨ty', k', e, _⟩ := hw s i (hstuck i _ (.rel ht))
        rw [ht] at e; cases e
  have hholds : ∀ i g, g ∈ (s i).held → (s i).todo ≠ [] := by
    intro i g hg he
    have := h i
    rw [he] at this
    unfold InOrder at this
    rw [this] at hg; cases hg
  have hnofree : ∀ ty, ¬ s.Free ty → ∃ m g, g ∈ (s m).held ∧ g.res = ty.res := by
    intro ty hf
    unfold Free at hf
    push Not at hf
    obtain ⟨m, g, hg, hc⟩ := hf
    exact ⟨m, g, hg, conflicts_res (by simpa using hc)⟩
  have main : ∀ n, ∀ i ty k, (s i).todo = .acq ty :: k → rank ty.res = n → False := by
    intro n
    induction n using Nat.strongRecOn with
    | _ n ih =>
      intro i ty k ht hn
      have hhold : ∀ m g, g ∈ (s m).held → g.res = ty.res → False := by
        intro m g hg hr
        obtain ⟨ty2, k2, ht2⟩ := hacq m (hholds m g hg)
        have := h m
        rw [ht2] at this
        have hlt := this.1 g hg
        rw [hr, hn] at hlt
        exact ih _ hlt m ty2 k2 ht2 rfl
      by_cases hf : s.Free ty
      · obtain ⟨ty1, k1, e1, e2, j, ty2, k2, e3, e4, e5, e6⟩ := hw s i (hstuck i _ (.acq ht hf))
        rw [ht] at e1
        injection e1 with e1 _; injection e1 with e1; subst e1
        by_cases hf2 : s.Free ty2
        · obtain ⟨ty3, k3, g1, g2, _⟩ := hw s j (hstuck j _ (.acq e4 hf2))
          rw [e4] at g1
          injection g1 with g1 _; injection g1 with g1; subst g1
          rw [g2] at e5; cases e5
        · obtain ⟨m, g, hg, hr⟩ := hnofree ty2 hf2
          exact hhold m g hg (hr.trans e6)
      · obtain ⟨m, g, hg, hr⟩ := hnofree ty hf
        exact hhold m g hg hr
  obtain ⟨ty, k, ht⟩ := hacq i0 hi0
  exact main _ i0 ty k ht rfl

theorem Run.trans {waits : CSys ι → ι → Prop} {a b c : CSys ι} (h1 : Run waits a b) (h2 : Run waits b c) : Run waits a c := by
  induction h2 with
  | start => exact h1
  | step _ hs hw ih => exact .step ih hs hw

/-- What is left to do. -/
def left [Fintype ι] (s : CSys ι) : Nat := ∑ i, (s i).todo.length

theorem step_left [Fintype ι] {s s' : CSys ι} {i : ι} (h : Step s i s') : s'.left < s.left := by
  have key : ∀ (k : List CAct) (hd : List LockTy), k.length < (s i).todo.length → left (Function.update s i ⟨k, hd⟩ : CSys ι) < s.left := by
    intro k hd hk
    unfold left
    apply Finset.sum_lt_sum
    · intro j _
      by_cases e : j = i
      · subst e; rw [Function.update_self]; exact hk.le
      · rw [Function.update_of_ne e]
    · exact ⟨i, Finset.mem_univ _, by rw [Function.update_self]; exact hk⟩
  cases h with
  | acq hp hf => exact key _ _ (by rw [hp]; simp)
  | rel hp => exact key _ _ (by rw [hp]; simp)

theorem Keeps.completes [Fintype ι] {rank : Nat → Nat} {waits : CSys ι → ι → Prop} (hw : MayWait waits) : ∀ (n : Nat) {s : CSys ι},
    s.left ≤ n → Keeps rank s → ∃ s', Run waits s s' ∧ ∀ i, (s' i).todo = [] ∧ (s' i).held = [] := by
  intro n
  induction n with
  | zero =>
    intro s hl h
    rcases h.progress hw with hd | ⟨i, s', hs, _⟩
    · refine ⟨s, .start, fun i => ⟨hd i, ?_⟩⟩
      have := h i; rw [hd i] at this; exact this
    · have := step_left hs; omega
  | succ n ih =>
    intro s hl h
    rcases h.progress hw with hd | ⟨i, s', hs, hnw⟩
    · refine ⟨s, .start, fun i => ⟨hd i, ?_⟩⟩
      have := h i; rw [hd i] at this; exact this
    · obtain ⟨s2, h1, h2⟩ := ih (by have := step_left hs; omega) (h.step hs)
      exact ⟨s2, (Run.step .start hs hnw).trans h1, h2⟩

end CSys
end V11
