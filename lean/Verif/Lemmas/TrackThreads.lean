import Verif.Spec.TrackThreads
import Mathlib.Data.List.Induction

/-!
# Trackers registered while threads run: invariants
-/

set_option linter.unusedSimpArgs false
set_option linter.unusedVariables false
set_option linter.unusedSectionVars false

namespace V11
open TkSys
variable {T X ι : Type} [DecidableEq T] [DecidableEq ι] {Code : T → X → List (TkOp T X) → Prop}

/-! ## Guards of `Flush`es -/

/-- `f` are the guards of `Flush`es at this point of the program. -/
def Kept : List (T × Mode) → List (TkAct T X) → Prop
  | f, [] => f = []
  | f, .acq _ _ :: k => Kept f k
  | f, .rel _ _ :: k => Kept f k
  | f, .acqF t :: k => Kept ((t, .wr) :: f) k
  | f, .push t _ :: k => (t, .wr) ∈ f ∧ Kept f k
  | f, .relF t :: k => (t, .wr) ∈ f ∧ Kept (f.erase (t, .wr)) k
  | f, .enter _ :: k => Kept f k
  | f, .iter _ t _ :: k => (t, .rd) ∈ f ∧ Kept (f.erase (t, .rd)) k

theorem tkActs_cons (op : TkOp T X) (ops : List (TkOp T X)) : tkActs (op :: ops) = op.acts ++ tkActs ops := rfl

theorem kept_acts (f : List (T × Mode)) (ops : List (TkOp T X)) (k : List (TkAct T X)) (h : Kept f k) : Kept f (tkActs ops ++ k) := by
  induction ops with
  | nil => exact h
  | cons op ops ih =>
    rw [tkActs_cons, List.append_assoc]
    cases op with
    | flush t rm => cases rm <;> exact ih
    | register t x =>
      refine ⟨by simp, by simp, ?_⟩
      rw [List.erase_cons_head]
      exact ih
    | _ => exact ih

/-- The act is the loop of a `do_flush` of `t`. -/
def TkAct.isIter (t : T) : TkAct T X → Bool
  | .iter _ t' _ => decide (t' = t)
  | _ => false

/-- The act is the loop of `do_flush` number `n`. -/
def TkAct.isNo (n : Nat) : TkAct T X → Bool
  | .iter n' _ _ => decide (n' = n)
  | _ => false

theorem kept_count (t : T) : ∀ (k : List (TkAct T X)) (f : List (T × Mode)), Kept f k → f.count (t, Mode.rd) = k.countP (TkAct.isIter t) := by
  intro k
  induction k with
  | nil => intro f h; cases h; rfl
  | cons a k ih =>
    intro f h
    cases a with
    | acq t' m => rw [List.countP_cons_of_neg (by simp [TkAct.isIter])]; exact ih f h
    | rel t' m => rw [List.countP_cons_of_neg (by simp [TkAct.isIter])]; exact ih f h
    | acqF t' =>
      rw [List.countP_cons_of_neg (by simp [TkAct.isIter]), ← ih _ h]
      rw [List.count_cons_of_ne (by simp)]
    | push t' x => rw [List.countP_cons_of_neg (by simp [TkAct.isIter])]; exact ih f h.2
    | relF t' =>
      rw [List.countP_cons_of_neg (by simp [TkAct.isIter]), ← ih _ h.2]
      rw [List.count_erase_of_ne (by simp)]
    | enter t' => rw [List.countP_cons_of_neg (by simp [TkAct.isIter])]; exact ih f h
    | iter n t' j =>
      have := ih _ h.2
      by_cases e : t' = t
      · subst e
        rw [List.countP_cons_of_pos (by simp [TkAct.isIter]), ← this, List.count_erase_self]
        have := List.count_pos_iff.2 h.1
        omega
      · rw [List.countP_cons_of_neg (by simp [TkAct.isIter, e]), ← this, List.count_erase_of_ne (by simp; exact fun h => e h.symm)]

theorem tkActs_not_iter (ops : List (TkOp T X)) (n : Nat) (t : T) (j : Nat) : TkAct.iter n t j ∉ tkActs ops := by
  intro h
  obtain ⟨op, _, h⟩ := List.mem_flatMap.1 h
  cases op with
  | flush t rm => cases rm <;> simp [TkOp.acts] at h
  | _ => simp [TkOp.acts] at h

theorem tkActs_isNo (ops : List (TkOp T X)) (n : Nat) : (tkActs ops).countP (TkAct.isNo n) = 0 := by
  rw [List.countP_eq_zero]
  intro a ha
  cases a with
  | iter n' t j => exact absurd ha (tkActs_not_iter ops n' t j)
  | _ => simp [TkAct.isNo]

/-! ## What the log says -/

/-- How far flush `n`, begun by thread `i` at place `n` of the log, is. `b` is what happened since. -/
def FlushState (s : TkSys T X ι) (n : Nat) (i : ι) (t : T) (before : List X) (b : List (TkEv T X ι)) : Prop :=
  (∃ j, .iter n t j ∈ (s.th i).todo ∧ j ≤ before.length ∧ toldBy n b = before.take j ∧ registeredOn t b = [] ∧ .ended n ∉ b) ∨
  (∃ b1 b2, b = b1 ++ .ended n :: b2 ∧ toldBy n b1 = before ∧ toldBy n b2 = [] ∧ registeredOn t b1 = [] ∧
    .ended n ∉ b1 ∧ .ended n ∉ b2 ∧ (s.th i).todo.countP (TkAct.isNo n) = 0)

/-- The invariant of all runs. -/
structure TkInv (trk : T → List X) (s : TkSys T X ι) : Prop where
  list : ∀ t, s.trackers t = trk t ++ registeredOn t s.log
  kept : ∀ i, Kept (s.th i).fl (s.th i).todo
  excl : ∀ i t, (t, .wr) ∈ (s.th i).fl → ∀ j m, (t, m) ∈ (s.th j).fl → j = i ∧ m = .wr
  place : ∀ i n t j, .iter n t j ∈ (s.th i).todo → s.log[n]? = some (.began n i t)
  once : ∀ i n, (s.th i).todo.countP (TkAct.isNo n) ≤ 1
  state : ∀ a b n i t, s.log = a ++ .began n i t :: b → n = a.length ∧ FlushState s n i t (trk t ++ registeredOn t a) b

theorem registeredOn_append (t : T) (a b : List (TkEv T X ι)) : registeredOn t (a ++ b) = registeredOn t a ++ registeredOn t b :=
  List.filterMap_append

theorem toldBy_append (n : Nat) (a b : List (TkEv T X ι)) : toldBy n (a ++ b) = toldBy n a ++ toldBy n b :=
  List.filterMap_append

/-- A step that only shortens the program by something that is not a loop, or puts loops' code before them. -/
theorem FlushState.mono {s s' : TkSys T X ι} {n : Nat} {i : ι} {t : T} {before : List X} {b : List (TkEv T X ι)}
    (h : FlushState s n i t before b) (e : List (TkEv T X ι))
    (h1 : ∀ j, .iter n t j ∈ (s.th i).todo → .iter n t j ∈ (s'.th i).todo)
    (h2 : (s'.th i).todo.countP (TkAct.isNo n) = (s.th i).todo.countP (TkAct.isNo n))
    (he : toldBy n e = []) (he' : .ended n ∉ e)
    (hr : registeredOn t e = [] ∨ ∀ j, .iter n t j ∉ (s.th i).todo) : FlushState s' n i t before (b ++ e) := by
  rcases h with ⟨j, hj, hle, ht, hrg, hen⟩ | ⟨b1, b2, hb, ht, ht2, hrg, hen, hen2, hc⟩
  · left
    refine ⟨j, h1 j hj, hle, by rw [toldBy_append, he, List.append_nil, ht], ?_, by simp [hen, he']⟩
    rw [registeredOn_append, hrg]
    rcases hr with hr | hr
    · rw [hr]; rfl
    · exact absurd hj (hr j)
  · right
    refine ⟨b1, b2 ++ e, by rw [hb]; simp, ht, by rw [toldBy_append, ht2, he]; rfl, hrg, hen, by simp [hen2, he'], by rw [h2, hc]⟩

theorem tk_start (trk : T → List X) (progs : ι → List (TkOp T X)) : TkInv trk (TkSys.start trk progs) where
  list t := by simp [TkSys.start, registeredOn]
  kept i := by
    have := kept_acts [] (progs i) [] rfl
    simpa [TkSys.start] using this
  excl i t h := by simp [TkSys.start] at h
  place i n t j h := absurd h (tkActs_not_iter _ _ _ _)
  once i n := by simp [TkSys.start, tkActs_isNo]
  state a b n i t h := by simp [TkSys.start] at h

theorem countP_pos_of_iter {l : List (TkAct T X)} {n : Nat} {t : T} {j : Nat} (h : TkAct.iter n t j ∈ l) : 0 < l.countP (TkAct.isNo n) :=
  List.countP_pos_iff.2 ⟨_, h, by simp [TkAct.isNo]⟩

/-- The step of thread `i` touched no loop and logged nothing. -/
theorem TkInv.quiet {trk : T → List X} {s : TkSys T X ι} (h : TkInv trk s) (i : ι) (a : TkAct T X) (k : List (TkAct T X))
    (ha : (s.th i).todo = a :: k) (hn : ∀ n t j, a ≠ .iter n t j) (x : TkThread T X) (hx : x.todo = k) (hk : Kept x.fl k)
    (hex : ∀ i' t, (t, Mode.wr) ∈ ((s.go i x).th i').fl → ∀ j m, (t, m) ∈ ((s.go i x).th j).fl → j = i' ∧ m = .wr) :
    TkInv trk (s.go i x) := by
  have hth : ∀ i', i' ≠ i → (s.go i x).th i' = s.th i' := fun i' e => Function.update_of_ne e _ _
  have hself : (s.go i x).th i = x := Function.update_self _ _ _
  have hmem : ∀ i' n t j, .iter n t j ∈ ((s.go i x).th i').todo ↔ .iter n t j ∈ (s.th i').todo := by
    intro i' n t j
    by_cases e : i' = i
    · subst e
      rw [hself, hx, ha]
      constructor
      · exact List.mem_cons_of_mem _
      · intro hm
        rcases List.mem_cons.1 hm with hm | hm
        · exact absurd hm.symm (hn _ _ _)
        · exact hm
    · rw [hth i' e]
  have hcnt : ∀ i' n, ((s.go i x).th i').todo.countP (TkAct.isNo n) = (s.th i').todo.countP (TkAct.isNo n) := by
    intro i' n
    by_cases e : i' = i
    · subst e
      rw [hself, hx, ha, List.countP_cons_of_neg]
      cases a with
      | iter n t j => exact absurd rfl (hn _ _ _)
      | _ => simp [TkAct.isNo]
    · rw [hth i' e]
  refine ⟨h.list, ?_, hex, ?_, ?_, ?_⟩
  · intro i'
    by_cases e : i' = i
    · subst e; rw [hself, hx]; exact hk
    · rw [hth i' e]; exact h.kept i'
  · intro i' n t j hm
    exact h.place i' n t j ((hmem i' n t j).1 hm)
  · intro i' n
    rw [hcnt]; exact h.once i' n
  · intro a' b n i' t e
    obtain ⟨e1, e2⟩ := h.state a' b n i' t e
    refine ⟨e1, ?_⟩
    have := e2.mono (s' := s.go i x) [] (fun j => (hmem i' n t j).2) (hcnt i' n) rfl (by simp) (.inl rfl)
    simpa using this

/-- The exclusion is kept if a thread has fewer or the same guards. -/
theorem TkInv.excl_less {trk : T → List X} {s : TkSys T X ι} (h : TkInv trk s) (i : ι) (x : TkThread T X)
    (hx : ∀ g ∈ x.fl, g ∈ (s.th i).fl) :
    ∀ i' t, (t, Mode.wr) ∈ ((s.go i x).th i').fl → ∀ j m, (t, m) ∈ ((s.go i x).th j).fl → j = i' ∧ m = .wr := by
  have hsub : ∀ i' g, g ∈ ((s.go i x).th i').fl → g ∈ (s.th i').fl := by
    intro i' g hg
    by_cases e : i' = i
    · subst e; rw [show (s.go i' x).th i' = x from Function.update_self _ _ _] at hg; exact hx g hg
    · rwa [show (s.go i x).th i' = s.th i' from Function.update_of_ne e _ _] at hg
  intro i' t hw j m hm
  exact h.excl i' t (hsub _ _ hw) j m (hsub _ _ hm)

/-- The exclusion is kept if a thread gets a guard of a free lock. -/
theorem TkInv.excl_more {trk : T → List X} {s : TkSys T X ι} (h : TkInv trk s) (i : ι) (x : TkThread T X) (t : T) (m : Mode)
    (hx : x.fl = (t, m) :: (s.th i).fl) (hf : s.FreeF t m) :
    ∀ i' t, (t, Mode.wr) ∈ ((s.go i x).th i').fl → ∀ j m, (t, m) ∈ ((s.go i x).th j).fl → j = i' ∧ m = .wr := by
  have hcase : ∀ i' g, g ∈ ((s.go i x).th i').fl → i' = i ∧ g = (t, m) ∨ g ∈ (s.th i').fl := by
    intro i' g hg
    by_cases e : i' = i
    · subst e
      rw [show (s.go i' x).th i' = x from Function.update_self _ _ _, hx] at hg
      rcases List.mem_cons.1 hg with hg | hg
      · exact .inl ⟨rfl, hg⟩
      · exact .inr hg
    · rw [show (s.go i x).th i' = s.th i' from Function.update_of_ne e _ _] at hg; exact .inr hg
  intro i' t' hw j m' hm
  rcases hcase i' _ hw with ⟨rfl, e⟩ | hw1
  · injection e with e1 e2; subst e1 e2
    rcases hcase j _ hm with ⟨rfl, e⟩ | hm1
    · injection e with e1 e2; exact ⟨rfl, e2⟩
    · exact absurd hm1 (hf j m')
  · rcases hcase j _ hm with ⟨rfl, e⟩ | hm1
    · injection e with e1 e2; subst e1 e2
      cases m' with
      | rd => exact absurd hw1 (hf i')
      | wr => exact absurd hw1 (hf i' .wr)
    · exact h.excl i' t' hw1 j m' hm1

/-- Nobody is in a flush of a table whose list of trackers is locked for writing. -/
theorem TkInv.no_iter {trk : T → List X} {s : TkSys T X ι} (h : TkInv trk s) {i : ι} {t : T} (hw : (t, .wr) ∈ (s.th i).fl)
    (i' : ι) (n j : Nat) : .iter n t j ∉ (s.th i').todo := by
  intro hm
  have h1 : 0 < (s.th i').todo.countP (TkAct.isIter t) := List.countP_pos_iff.2 ⟨_, hm, by simp [TkAct.isIter]⟩
  rw [← kept_count t _ _ (h.kept i')] at h1
  have := (h.excl i t hw i' .rd (List.count_pos_iff.1 h1)).2
  cases this

/-- A log with one entry more. -/
theorem split_snoc {α : Type} {l a b : List α} {x e : α} (h : l ++ [e] = a ++ x :: b) :
    (∃ b', b = b' ++ [e] ∧ l = a ++ x :: b') ∨ (b = [] ∧ a = l ∧ x = e) := by
  rcases List.eq_nil_or_concat b with rfl | ⟨b', y, rfl⟩
  · right
    have := List.append_inj' h rfl
    refine ⟨rfl, this.1.symm, ?_⟩
    have := this.2
    injection this with this; exact this.symm
  · left
    refine ⟨b', ?_, ?_⟩
    · have := List.append_inj' (s₁ := l) (t₁ := [e]) (s₂ := a ++ x :: b') (t₂ := [y]) (by rw [h]; simp) rfl
      rw [List.concat_eq_append]
      injection this.2 with e' _; rw [e']
    · exact (List.append_inj' (s₁ := l) (t₁ := [e]) (s₂ := a ++ x :: b') (t₂ := [y]) (by rw [h]; simp) rfl).1

theorem log_append_get {α : Type} {l : List α} {n : Nat} {x : α} (e : List α) (h : l[n]? = some x) : (l ++ e)[n]? = some x := by
  have hn : n < l.length := by
    by_contra hc
    rw [List.getElem?_eq_none (by omega)] at h
    cases h
  rw [List.getElem?_append_left hn]
  exact h

theorem tk_step {trk : T → List X} {s s' : TkSys T X ι} {i : ι} (h : TkInv trk s) (hs : Step Code s i s') : TkInv trk s' := by
  cases hs with
  | acq hp hf =>
    have hk := h.kept i
    rw [hp] at hk
    exact h.quiet i _ _ hp (by intros; simp) _ rfl hk (h.excl_less i _ (fun g hg => hg))
  | rel hp =>
    have hk := h.kept i
    rw [hp] at hk
    exact h.quiet i _ _ hp (by intros; simp) _ rfl hk (h.excl_less i _ (fun g hg => hg))
  | acqF hp hf =>
    have hk := h.kept i
    rw [hp] at hk
    exact h.quiet i _ _ hp (by intros; simp) _ rfl hk (h.excl_more i _ _ _ rfl hf)
  | relF hp =>
    have hk := h.kept i
    rw [hp] at hk
    exact h.quiet i _ _ hp (by intros; simp) _ rfl hk.2 (h.excl_less i _ (fun g hg => List.mem_of_mem_erase hg))
  | @push t x k hp =>
    have hk := h.kept i
    rw [hp] at hk
    have hq := h.quiet i _ _ hp (by intros; simp) ⟨k, (s.th i).tb, (s.th i).fl⟩ rfl hk.2 (h.excl_less i _ (fun g hg => hg))
    have hw : (t, Mode.wr) ∈ ((s.go i ⟨k, (s.th i).tb, (s.th i).fl⟩).th i).fl := by
      rw [show (s.go i ⟨k, (s.th i).tb, (s.th i).fl⟩).th i = ⟨k, (s.th i).tb, (s.th i).fl⟩ from Function.update_self _ _ _]
      exact hk.1
    refine ⟨?_, hq.kept, hq.excl, ?_, hq.once, ?_⟩
    · intro t'
      show Function.update s.trackers t (s.trackers t ++ [x]) t' = _
      rw [registeredOn_append]
      by_cases e : t' = t
      · subst e
        rw [Function.update_self, h.list t', List.append_assoc]
        simp [registeredOn, TkEv.regOn]
      · rw [Function.update_of_ne e, h.list t']
        have : registeredOn t' [TkEv.reg i t x] = [] := by simp [registeredOn, TkEv.regOn, Ne.symm e]
        rw [this, List.append_nil]
    · intro i' n t' j hm
      exact log_append_get _ (hq.place i' n t' j hm)
    · intro a b n i' t' e
      rcases split_snoc e with ⟨b', rfl, e'⟩ | ⟨_, _, e'⟩
      · obtain ⟨h1, h2⟩ := hq.state a b' n i' t' e'
        refine ⟨h1, ?_⟩
        refine h2.mono (s' := { s.go i ⟨k, (s.th i).tb, (s.th i).fl⟩ with
          trackers := Function.update s.trackers t (s.trackers t ++ [x]), log := s.log ++ [.reg i t x] })
          [TkEv.reg i t x] (fun j hj => hj) rfl (by simp [toldBy, TkEv.toldBy]) (by simp) ?_
        by_cases et : t' = t
        · subst et
          exact .inr (fun j => hq.no_iter hw i' n j)
        · left; simp [registeredOn, TkEv.regOn, Ne.symm et]
      · cases e'
  | @enter t k hp hf =>
    have hk := h.kept i
    rw [hp] at hk
    have hnew : ∀ i' t' j, TkAct.iter s.log.length t' j ∉ (s.th i').todo := by
      intro i' t' j hm
      have := h.place _ _ _ _ hm
      rw [List.getElem?_eq_none (by omega)] at this
      cases this
    have hcnew : ∀ i', (s.th i').todo.countP (TkAct.isNo s.log.length) = 0 := by
      intro i'
      rw [List.countP_eq_zero]
      intro a ha hn
      cases a with
      | iter n' t' j =>
        simp [TkAct.isNo] at hn
        subst hn
        exact hnew _ _ _ ha
      | _ => simp [TkAct.isNo] at hn
    have hself : (s.go i ⟨.iter s.log.length t 0 :: k, (s.th i).tb, (t, .rd) :: (s.th i).fl⟩).th i =
      ⟨.iter s.log.length t 0 :: k, (s.th i).tb, (t, .rd) :: (s.th i).fl⟩ := Function.update_self _ _ _
    have hth : ∀ i', i' ≠ i → (s.go i ⟨.iter s.log.length t 0 :: k, (s.th i).tb, (t, .rd) :: (s.th i).fl⟩).th i' = s.th i' :=
      fun i' e => Function.update_of_ne e _ _
    refine ⟨?_, ?_, h.excl_more i _ t .rd rfl hf, ?_, ?_, ?_⟩
    · intro t'
      show s.trackers t' = _
      rw [registeredOn_append, h.list t']
      simp [registeredOn, TkEv.regOn]
    · intro i'
      by_cases e : i' = i
      · subst e
        show Kept ((s.go i' _).th i').fl ((s.go i' _).th i').todo
        rw [hself]
        refine ⟨by simp, ?_⟩
        rw [List.erase_cons_head]; exact hk
      · show Kept ((s.go i _).th i').fl ((s.go i _).th i').todo
        rw [hth i' e]; exact h.kept i'
    · intro i' n t' j hm
      replace hm : TkAct.iter n t' j ∈ ((s.go i ⟨.iter s.log.length t 0 :: k, (s.th i).tb, (t, .rd) :: (s.th i).fl⟩).th i').todo := hm
      by_cases e : i' = i
      · subst e
        rw [hself] at hm
        rcases List.mem_cons.1 hm with hm | hm
        · injection hm with e1 e2 e3
          subst e1 e2
          simp
        · exact log_append_get _ (h.place i' n t' j (by rw [hp]; exact List.mem_cons_of_mem _ hm))
      · rw [hth i' e] at hm
        exact log_append_get _ (h.place i' n t' j hm)
    · intro i' n
      show List.countP _ ((s.go i ⟨.iter s.log.length t 0 :: k, (s.th i).tb, (t, .rd) :: (s.th i).fl⟩).th i').todo ≤ 1
      by_cases e : i' = i
      · subst e
        rw [hself]
        have h1 := h.once i' n
        rw [hp, List.countP_cons_of_neg (by simp [TkAct.isNo])] at h1
        by_cases en : n = s.log.length
        · subst en
          have h2 := hcnew i'
          rw [hp, List.countP_cons_of_neg (by simp [TkAct.isNo])] at h2
          rw [List.countP_cons_of_pos (by simp [TkAct.isNo]), h2]
        · rw [List.countP_cons_of_neg (by simp [TkAct.isNo, Ne.symm en])]
          exact h1
      · rw [hth i' e]; exact h.once i' n
    · intro a b n i' t' e
      rcases split_snoc e with ⟨b', rfl, e'⟩ | ⟨rfl, ha, e'⟩
      · obtain ⟨h1, h2⟩ := h.state a b' n i' t' e'
        have hne : n ≠ s.log.length := by rw [h1, e']; simp
        refine ⟨h1, h2.mono _ ?_ ?_ (by simp [toldBy, TkEv.toldBy]) (by simp) (.inl (by simp [registeredOn, TkEv.regOn]))⟩
        · intro j hj
          show _ ∈ ((s.go i ⟨.iter s.log.length t 0 :: k, (s.th i).tb, (t, .rd) :: (s.th i).fl⟩).th i').todo
          by_cases ei : i' = i
          · subst ei
            rw [hself]
            rw [hp] at hj
            rcases List.mem_cons.1 hj with hj | hj
            · cases hj
            · exact List.mem_cons_of_mem _ hj
          · rw [hth i' ei]; exact hj
        · show List.countP _ ((s.go i ⟨.iter s.log.length t 0 :: k, (s.th i).tb, (t, .rd) :: (s.th i).fl⟩).th i').todo = _
          by_cases ei : i' = i
          · subst ei
            rw [hself, hp, List.countP_cons_of_neg (by simp [TkAct.isNo, Ne.symm hne]), List.countP_cons_of_neg (by simp [TkAct.isNo])]
          · rw [hth i' ei]
      · injection e' with e1 e2 e3
        subst e1 e2 e3 ha
        refine ⟨rfl, .inl ⟨0, ?_, Nat.zero_le _, rfl, rfl, by simp⟩⟩
        show _ ∈ ((s.go i' _).th i').todo
        rw [hself]
        simp
  | @tell n t j k x ops hp hx hc =>
    have hk := h.kept i
    rw [hp] at hk
    have hpl := h.place i n t j (by rw [hp]; simp)
    have hself : (s.go i ⟨tkActs ops ++ .iter n t (j + 1) :: k, (s.th i).tb, (s.th i).fl⟩).th i =
      ⟨tkActs ops ++ .iter n t (j + 1) :: k, (s.th i).tb, (s.th i).fl⟩ := Function.update_self _ _ _
    have hth : ∀ i', i' ≠ i → (s.go i ⟨tkActs ops ++ .iter n t (j + 1) :: k, (s.th i).tb, (s.th i).fl⟩).th i' = s.th i' :=
      fun i' e => Function.update_of_ne e _ _
    have hcnt : ∀ i' n', ((s.go i ⟨tkActs ops ++ .iter n t (j + 1) :: k, (s.th i).tb, (s.th i).fl⟩).th i').todo.countP (TkAct.isNo n') =
        (s.th i').todo.countP (TkAct.isNo n') := by
      intro i' n'
      by_cases e : i' = i
      · subst e
        rw [hself, hp, List.countP_append, tkActs_isNo, Nat.zero_add, List.countP_cons, List.countP_cons]
        simp [TkAct.isNo]
      · rw [hth i' e]
    have hmem : ∀ i' n' t' j', .iter n' t' j' ∈ ((s.go i ⟨tkActs ops ++ .iter n t (j + 1) :: k, (s.th i).tb, (s.th i).fl⟩).th i').todo →
        (i' = i ∧ n' = n ∧ t' = t ∧ j' = j + 1) ∨ .iter n' t' j' ∈ (s.th i').todo := by
      intro i' n' t' j' hm
      by_cases e : i' = i
      · subst e
        rw [hself] at hm
        rcases List.mem_append.1 hm with hm | hm
        · exact absurd hm (tkActs_not_iter _ _ _ _)
        · rcases List.mem_cons.1 hm with hm | hm
          · injection hm with e1 e2 e3
            exact .inl ⟨rfl, e1, e2, e3⟩
          · right; rw [hp]; exact List.mem_cons_of_mem _ hm
      · rw [hth i' e] at hm; exact .inr hm
    refine ⟨?_, ?_, h.excl_less i _ (fun g hg => hg), ?_, ?_, ?_⟩
    · intro t'
      show s.trackers t' = _
      rw [registeredOn_append, h.list t']
      simp [registeredOn, TkEv.regOn]
    · intro i'
      by_cases e : i' = i
      · subst e
        show Kept ((s.go i' _).th i').fl ((s.go i' _).th i').todo
        rw [hself]
        exact kept_acts _ _ _ ⟨hk.1, hk.2⟩
      · show Kept ((s.go i _).th i').fl ((s.go i _).th i').todo
        rw [hth i' e]; exact h.kept i'
    · intro i' n' t' j' hm
      rcases hmem i' n' t' j' hm with ⟨rfl, rfl, rfl, rfl⟩ | hm
      · exact log_append_get _ hpl
      · exact log_append_get _ (h.place _ _ _ _ hm)
    · intro i' n'
      show List.countP _ ((s.go i _).th i').todo ≤ 1
      rw [hcnt]; exact h.once i' n'
    · intro a b n' i' t' e
      rcases split_snoc e with ⟨b', rfl, e'⟩ | ⟨rfl, ha, e'⟩
      · obtain ⟨h1, h2⟩ := h.state a b' n' i' t' e'
        refine ⟨h1, ?_⟩
        have hat : s.log[n']? = some (.began n' i' t') := by
          rw [e', List.getElem?_append_right (by omega), show n' - a.length = 0 by omega]; rfl
        by_cases en : n' = n
        · subst en
          rw [hpl] at hat
          injection hat with hat
          injection hat with _ ei et
          subst ei et
          have hpos := countP_pos_of_iter (l := (s.th i).todo) (n := n') (t := t) (j := j) (by rw [hp]; simp)
          rcases h2 with ⟨j', hj', hle, ht, hrg, hen⟩ | ⟨b1, b2, _, _, _, _, _, _, hz⟩
          · have hjj : j' = j := by
              rw [hp] at hj'
              rcases List.mem_cons.1 hj' with hj' | hj'
              · injection hj'
              · have := h.once i n'
                rw [hp, List.countP_cons_of_pos (by simp [TkAct.isNo])] at this
                have := countP_pos_of_iter hj'
                omega
            subst hjj
            have hbef : trk t ++ registeredOn t a = s.trackers t := by
              rw [h.list t, e', registeredOn_append]
              have : registeredOn t (TkEv.began n' i t :: b') = registeredOn t b' := rfl
              rw [this, hrg, List.append_nil]
            have hlt : j' < (s.trackers t).length := by
              by_contra hc'
              rw [List.getElem?_eq_none (by omega)] at hx
              cases hx
            left
            refine ⟨j' + 1, ?_, ?_, ?_, ?_, ?_⟩
            · show _ ∈ ((s.go i _).th i).todo
              rw [hself]; simp
            · rw [hbef]; exact hlt
            · rw [toldBy_append, ht, hbef]
              rw [List.take_succ, hx]
              simp [toldBy, TkEv.toldBy]
            · rw [registeredOn_append, hrg]; simp [registeredOn, TkEv.regOn]
            · simp [hen]
          · omega
        · refine h2.mono _ ?_ (hcnt i' n') (by simp [toldBy, TkEv.toldBy, Ne.symm en]) (by simp) (.inl (by simp [registeredOn, TkEv.regOn]))
          intro j' hj'
          show _ ∈ ((s.go i _).th i').todo
          by_cases ei : i' = i
          · subst ei
            rw [hself]
            rw [hp] at hj'
            rcases List.mem_cons.1 hj' with hj' | hj'
            · injection hj' with e1; exact absurd e1 en
            · simp [hj']
          · rw [hth i' ei]; exact hj'
      · cases e'
  | @leave n t j k hp hx =>
    have hk := h.kept i
    rw [hp] at hk
    have hpl := h.place i n t j (by rw [hp]; simp)
    have hself : (s.go i ⟨k, (s.th i).tb, (s.th i).fl.erase (t, .rd)⟩).th i = ⟨k, (s.th i).tb, (s.th i).fl.erase (t, .rd)⟩ :=
      Function.update_self _ _ _
    have hth : ∀ i', i' ≠ i → (s.go i ⟨k, (s.th i).tb, (s.th i).fl.erase (t, .rd)⟩).th i' = s.th i' := fun i' e => Function.update_of_ne e _ _
    have hkz : k.countP (TkAct.isNo n) = 0 := by
      have := h.once i n
      rw [hp, List.countP_cons_of_pos (by simp [TkAct.isNo])] at this
      omega
    refine ⟨?_, ?_, h.excl_less i _ (fun g hg => List.mem_of_mem_erase hg), ?_, ?_, ?_⟩
    · intro t'
      show s.trackers t' = _
      rw [registeredOn_append, h.list t']
      simp [registeredOn, TkEv.regOn]
    · intro i'
      by_cases e : i' = i
      · subst e
        show Kept ((s.go i' _).th i').fl ((s.go i' _).th i').todo
        rw [hself]
        exact hk.2
      · show Kept ((s.go i _).th i').fl ((s.go i _).th i').todo
        rw [hth i' e]; exact h.kept i'
    · intro i' n' t' j' hm
      replace hm : TkAct.iter n' t' j' ∈ ((s.go i ⟨k, (s.th i).tb, (s.th i).fl.erase (t, .rd)⟩).th i').todo := hm
      by_cases e : i' = i
      · subst e
        rw [hself] at hm
        exact log_append_get _ (h.place _ _ _ _ (by rw [hp]; exact List.mem_cons_of_mem _ hm))
      · rw [hth i' e] at hm
        exact log_append_get _ (h.place _ _ _ _ hm)
    · intro i' n'
      show List.countP _ ((s.go i ⟨k, (s.th i).tb, (s.th i).fl.erase (t, .rd)⟩).th i').todo ≤ 1
      by_cases e : i' = i
      · subst e
        rw [hself]
        have := h.once i' n'
        rw [hp, List.countP_cons] at this
        show List.countP _ k ≤ 1
        omega
      · rw [hth i' e]; exact h.once i' n'
    · intro a b n' i' t' e
      rcases split_snoc e with ⟨b', rfl, e'⟩ | ⟨rfl, ha, e'⟩
      · obtain ⟨h1, h2⟩ := h.state a b' n' i' t' e'
        refine ⟨h1, ?_⟩
        have hat : s.log[n']? = some (.began n' i' t') := by
          rw [e', List.getElem?_append_right (by omega), show n' - a.length = 0 by omega]; rfl
        by_cases en : n' = n
        · subst en
          rw [hpl] at hat
          injection hat with hat
          injection hat with _ ei et
          subst ei et
          have hpos := countP_pos_of_iter (l := (s.th i).todo) (n := n') (t := t) (j := j) (by rw [hp]; simp)
          rcases h2 with ⟨j', hj', hle, ht, hrg, hen⟩ | ⟨b1, b2, _, _, _, _, _, _, hz⟩
          · have hjj : j' = j := by
              rw [hp] at hj'
              rcases List.mem_cons.1 hj' with hj' | hj'
              · injection hj'
              · have := countP_pos_of_iter hj'
                omega
            subst hjj
            have hbef : trk t ++ registeredOn t a = s.trackers t := by
              rw [h.list t, e', registeredOn_append]
              have : registeredOn t (TkEv.began n' i t :: b') = registeredOn t b' := rfl
              rw [this, hrg, List.append_nil]
            right
            refine ⟨b', [], rfl, ?_, rfl, hrg, hen, by simp, ?_⟩
            · rw [ht, hbef]
              apply List.take_of_length_le
              exact List.getElem?_eq_none_iff.1 hx
            · show List.countP _ ((s.go i ⟨k, (s.th i).tb, (s.th i).fl.erase (t, .rd)⟩).th i).todo = 0
              rw [hself]; exact hkz
          · omega
        · refine h2.mono _ ?_ ?_ (by simp [toldBy, TkEv.toldBy]) (by simp [en]) (.inl (by simp [registeredOn, TkEv.regOn]))
          · intro j' hj'
            show _ ∈ ((s.go i ⟨k, (s.th i).tb, (s.th i).fl.erase (t, .rd)⟩).th i').todo
            by_cases ei : i' = i
            · subst ei
              rw [hself]
              rw [hp] at hj'
              rcases List.mem_cons.1 hj' with hj' | hj'
              · injection hj' with e1; exact absurd e1 en
              · exact hj'
            · rw [hth i' ei]; exact hj'
          · show List.countP _ ((s.go i ⟨k, (s.th i).tb, (s.th i).fl.erase (t, .rd)⟩).th i').todo = _
            by_cases ei : i' = i
            · subst ei
              rw [hself, hp, List.countP_cons_of_neg (by simp [TkAct.isNo, Ne.symm en])]
            · rw [hth i' ei]
      · cases e'

theorem tk_run {trk : T → List X} {progs : ι → List (TkOp T X)} {waits : TkSys T X ι → ι → Prop} {s : TkSys T X ι}
    (hr : Run Code waits (TkSys.start trk progs) s) : TkInv trk s := by
  induction hr with
  | start => exact tk_start trk progs
  | step _ hs _ ih => exact tk_step ih hs

/-! ## No registration is lost -/

/-- A registration that is still to be made. -/
def TkAct.pushes : TkAct T X → Option (T × X)
  | .push t x => some (t, x)
  | _ => none

theorem acts_pushes (ops : List (TkOp T X)) : (tkActs ops).filterMap TkAct.pushes = ops.filterMap TkOp.registers := by
  induction ops with
  | nil => rfl
  | cons op ops ih =>
    rw [tkActs_cons, List.filterMap_append, ih]
    cases op with
    | flush t rm => cases rm <;> rfl
    | _ => rfl

theorem registeredBy_append (i : ι) (a b : List (TkEv T X ι)) : registeredBy i (a ++ b) = registeredBy i a ++ registeredBy i b :=
  List.filterMap_append

/-- What thread `i` has registered and what it has still to. -/
def TkSys.regs (s : TkSys T X ι) (i : ι) : List (T × X) := registeredBy i s.log ++ (s.th i).todo.filterMap TkAct.pushes

theorem regs_step {s s' : TkSys T X ι} {i : ι} (hs : Step Code s i s') (i' : ι) :
    (s.regs i').Sublist (s'.regs i') ∧ ((∀ t x ops, Code t x ops → ops.filterMap TkOp.registers = []) → s'.regs i' = s.regs i') := by
  by_cases e : i' = i
  · subst e
    have hself : ∀ x, (s.go i' x).th i' = x := fun x => Function.update_self _ _ _
    have goal : ∀ (x : TkThread T X) (l : List (TkEv T X ι)) (s1 : TkSys T X ι), s1.th = (s.go i' x).th → s1.log = s.log ++ l →
        registeredBy i' l ++ x.todo.filterMap TkAct.pushes = (s.th i').todo.filterMap TkAct.pushes → s1.regs i' = s.regs i' := by
      intro x l s1 e1 e2 e3
      unfold TkSys.regs
      rw [e1, e2, hself, registeredBy_append, List.append_assoc, e3]
    have both : ∀ (s1 : TkSys T X ι), s1.regs i' = s.regs i' → (s.regs i').Sublist (s1.regs i') ∧
        ((∀ t x ops, Code t x ops → ops.filterMap TkOp.registers = []) → s1.regs i' = s.regs i') :=
      fun s1 e => ⟨by rw [e], fun _ => e⟩
    cases hs with
    | @acq t m k hp hf => exact both _ (goal ⟨k, (t, m) :: (s.th i').tb, (s.th i').fl⟩ [] (s.go i' _) rfl (by simp [TkSys.go]) (by rw [hp]; rfl))
    | @rel t m k hp => exact both _ (goal ⟨k, (s.th i').tb.erase (t, m), (s.th i').fl⟩ [] (s.go i' _) rfl (by simp [TkSys.go]) (by rw [hp]; rfl))
    | @acqF t k hp hf => exact both _ (goal ⟨k, (s.th i').tb, (t, .wr) :: (s.th i').fl⟩ [] (s.go i' _) rfl (by simp [TkSys.go]) (by rw [hp]; rfl))
    | @push t x k hp =>
      exact both _ (goal ⟨k, (s.th i').tb, (s.th i').fl⟩ [.reg i' t x] _ rfl rfl (by rw [hp]; simp [registeredBy, TkEv.regBy, TkAct.pushes]))
    | @relF t k hp => exact both _ (goal ⟨k, (s.th i').tb, (s.th i').fl.erase (t, .wr)⟩ [] (s.go i' _) rfl (by simp [TkSys.go]) (by rw [hp]; rfl))
    | @enter t k hp hf =>
      exact both _ (goal ⟨.iter s.log.length t 0 :: k, (s.th i').tb, (t, .rd) :: (s.th i').fl⟩ [.began s.log.length i' t] _ rfl rfl (by rw [hp]; rfl))
    | @tell n t j k x ops hp hx hc =>
      constructor
      · unfold TkSys.regs
        show List.Sublist _ (registeredBy i' (s.log ++ [.told n x]) ++ List.filterMap _ ((s.go i' _).th i').todo)
        rw [hself, registeredBy_append, hp]
        simp only [List.filterMap_append]
        have : registeredBy i' [(TkEv.told n x : TkEv T X ι)] = [] := rfl
        rw [this, List.append_nil]
        refine List.Sublist.append (List.Sublist.refl _) ?_
        exact List.Sublist.trans (List.Sublist.refl _) (List.sublist_append_right _ _)
      · intro hno
        refine goal ⟨tkActs ops ++ .iter n t (j + 1) :: k, (s.th i').tb, (s.th i').fl⟩ [.told n x] _ rfl rfl ?_
        rw [hp, List.filterMap_append, acts_pushes, hno _ _ _ hc]
        rfl
    | @leave n t j k hp hx =>
      exact both _ (goal ⟨k, (s.th i').tb, (s.th i').fl.erase (t, .rd)⟩ [.ended n] _ rfl rfl (by rw [hp]; rfl))
  · have goal : ∀ (x : TkThread T X) (l : List (TkEv T X ι)) (s1 : TkSys T X ι), s1.th = (s.go i x).th → s1.log = s.log ++ l →
        registeredBy i' l = [] → s1.regs i' = s.regs i' := by
      intro x l s1 e1 e2 e3
      unfold TkSys.regs
      rw [e1, e2, show (s.go i x).th i' = s.th i' from Function.update_of_ne e _ _, registeredBy_append, e3, List.append_nil]
    have : s'.regs i' = s.regs i' := by
      cases hs with
      | acq => exact goal _ [] _ rfl (by simp [TkSys.go]) rfl
      | rel => exact goal _ [] _ rfl (by simp [TkSys.go]) rfl
      | acqF => exact goal _ [] _ rfl (by simp [TkSys.go]) rfl
      | @push t x k hp => exact goal _ [.reg i t x] _ rfl rfl (by simp [registeredBy, TkEv.regBy, Ne.symm e])
      | relF => exact goal _ [] _ rfl (by simp [TkSys.go]) rfl
      | enter => exact goal _ [_] _ rfl rfl rfl
      | tell => exact goal _ [_] _ rfl rfl rfl
      | leave => exact goal _ [_] _ rfl rfl rfl
    rw [this]; simp

theorem regs_run {trk : T → List X} {progs : ι → List (TkOp T X)} {waits : TkSys T X ι → ι → Prop} {s : TkSys T X ι}
    (hr : Run Code waits (TkSys.start trk progs) s) (i : ι) :
    ((progs i).filterMap TkOp.registers).Sublist (s.regs i) ∧
      ((∀ t x ops, Code t x ops → ops.filterMap TkOp.registers = []) → s.regs i = (progs i).filterMap TkOp.registers) := by
  have h0 : (TkSys.start trk progs).regs i = (progs i).filterMap TkOp.registers := by
    simp [TkSys.regs, TkSys.start, registeredBy, acts_pushes]
  induction hr with
  | start => rw [h0]; simp
  | step _ hs _ ih =>
    obtain ⟨h1, h2⟩ := regs_step hs i
    exact ⟨ih.1.trans h1, fun hno => (h2 hno).trans (ih.2 hno)⟩

end V11
