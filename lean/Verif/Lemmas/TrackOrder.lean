import Verif.Lemmas.TrackThreads
import Mathlib.Data.Multiset.DershowitzManna
import Mathlib.Algebra.BigOperators.Group.Finset.Basic
import Mathlib.Data.Prod.Lex
import Mathlib.Order.WellFounded
import Mathlib.Order.WithBot

/-!
# Trackers registered while threads run: lock order and termination
-/

set_option linter.unusedSimpArgs false
set_option linter.unusedVariables false
set_option linter.unusedSectionVars false

namespace V11
open TkSys
variable {T X ι : Type} [DecidableEq T] [DecidableEq ι] {Code : T → X → List (TkOp T X) → Prop}

/-- Everything held is above `l`. -/
def Above (lev : Lk T → Nat) (tb fl : List (T × Mode)) (l : Lk T) : Prop :=
  (∀ g ∈ tb, lev l < lev (.tbl g.1)) ∧ ∀ g ∈ fl, lev l < lev (.fl g.1)

/-- The program keeps the order from here on. -/
def Fit (lev : Lk T → Nat) : List (T × Mode) → List (T × Mode) → List (TkAct T X) → Prop
  | tb, fl, [] => tb = [] ∧ fl = []
  | tb, fl, .acq t m :: k => Above lev tb fl (.tbl t) ∧ Fit lev ((t, m) :: tb) fl k
  | tb, fl, .rel t m :: k => (t, m) ∈ tb ∧ Fit lev (tb.erase (t, m)) fl k
  | tb, fl, .acqF t :: k => Above lev tb fl (.fl t) ∧ Fit lev tb ((t, .wr) :: fl) k
  | tb, fl, .push _ _ :: k => Fit lev tb fl k
  | tb, fl, .relF t :: k => (t, .wr) ∈ fl ∧ Fit lev tb (fl.erase (t, .wr)) k
  | tb, fl, .enter t :: k => Above lev tb fl (.fl t) ∧ Fit lev tb fl k
  | tb, fl, .iter _ t _ :: k => (t, .rd) ∈ fl ∧ (∀ l, lev l < lev (.fl t) → Above lev tb fl l) ∧ Fit lev tb (fl.erase (t, .rd)) k

theorem fit_acts {lev : Lk T → Nat} {tb fl : List (T × Mode)} {k : List (TkAct T X)} (hk : Fit lev tb fl k) :
    ∀ (ops : List (TkOp T X)) (h : List (T × Mode)), TkOrder lev h ops → (∀ op ∈ ops, ∀ l ∈ op.asks, Above lev tb fl l) →
      Fit lev (h ++ tb) fl (tkActs ops ++ k) := by
  intro ops
  induction ops with
  | nil => intro h ho _; cases ho; exact hk
  | cons op ops ih =>
    intro h ho ha
    have ha' : ∀ op ∈ ops, ∀ l ∈ op.asks, Above lev tb fl l := fun op hop => ha op (List.mem_cons_of_mem _ hop)
    have hop : ∀ l ∈ op.asks, Above lev tb fl l := ha op (by simp)
    have hab : ∀ (h' : List (T × Mode)) (l : Lk T), l ∈ op.asks → (∀ g ∈ h', lev l < lev (.tbl g.1)) → Above lev (h' ++ tb) fl l := by
      intro h' l hl hh
      refine ⟨?_, (hop l hl).2⟩
      intro g hg
      rcases List.mem_append.1 hg with hg | hg
      · exact hh g hg
      · exact (hop l hl).1 g hg
    rw [tkActs_cons, List.append_assoc]
    cases op with
    | lock t m =>
      exact ⟨hab h _ (by simp [TkOp.asks]) ho.1, ih ((t, m) :: h) ho.2 ha'⟩
    | unlock t m =>
      refine ⟨List.mem_append_left _ ho.1, ?_⟩
      rw [List.erase_append_left _ ho.1]
      exact ih _ ho.2 ha'
    | register t x =>
      refine ⟨hab h _ (by simp [TkOp.asks]) ho.1, ?_, by simp, by simp, ?_⟩
      · refine hab ((t, .wr) :: h) _ (by simp [TkOp.asks]) ?_
        intro g hg
        rcases List.mem_cons.1 hg with rfl | hg
        · exact ho.2.1
        · exact lt_trans ho.2.1 (ho.1 g hg)
      · rw [List.erase_cons_head, List.erase_cons_head]
        exact ih h ho.2.2 ha'
    | flush t rm =>
      obtain ⟨h1, h2, h3, h4⟩ := ho
      cases rm with
      | false =>
        refine ⟨List.mem_append_left _ h1, ?_⟩
        rw [List.erase_append_left _ h1]
        exact ⟨hab _ _ (by simp [TkOp.asks]) h2, ih _ h4 ha'⟩
      | true =>
        refine ⟨List.mem_append_left _ h1, ?_⟩
        rw [List.erase_append_left _ h1]
        refine ⟨hab _ _ (by simp [TkOp.asks]) h2, hab _ _ (by simp [TkOp.asks]) (h3 rfl), by simp, ?_⟩
        rw [List.erase_cons_head]
        exact ih _ h4 ha'
    | liveFlush t => exact ⟨hab _ _ (by simp [TkOp.asks]) ho.2.1, ih _ ho.2.2 ha'⟩
    | select t =>
      refine ⟨List.mem_append_left _ ho.1, ?_⟩
      rw [List.erase_append_left _ ho.1]
      exact ⟨hab _ _ (by simp [TkOp.asks]) ho.2.1, ih _ ho.2.2 ha'⟩
    | run t =>
      refine ⟨hab h _ (by simp [TkOp.asks]) ho.1, ?_, by simp, ?_⟩
      · refine hab ((t, .rd) :: h) _ (by simp [TkOp.asks]) ?_
        intro g hg
        rcases List.mem_cons.1 hg with rfl | hg
        · exact ho.2.1
        · exact lt_trans ho.2.1 (ho.1 g hg)
      · rw [List.erase_cons_head]
        exact ih h ho.2.2 ha'

/-- All threads keep the order. -/
def AllFit (lev : Lk T → Nat) (s : TkSys T X ι) : Prop := ∀ i, Fit lev (s.th i).tb (s.th i).fl (s.th i).todo

theorem fit_step {lev : Lk T → Nat} (hcode : CodeInOrder lev Code) {s s' : TkSys T X ι} {i : ι} (h : AllFit lev s) (hs : Step Code s i s') :
    AllFit lev s' := by
  have goal : ∀ (x : TkThread T X) (s1 : TkSys T X ι), s1.th = (s.go i x).th → Fit lev x.tb x.fl x.todo → AllFit lev s1 := by
    intro x s1 e hx i'
    rw [e]
    by_cases ei : i' = i
    · subst ei
      rw [show (s.go i' x).th i' = x from Function.update_self _ _ _]; exact hx
    · rw [show (s.go i x).th i' = s.th i' from Function.update_of_ne ei _ _]; exact h i'
  have hi := h i
  cases hs with
  | acq hp hf => rw [hp] at hi; exact goal _ _ rfl hi.2
  | rel hp => rw [hp] at hi; exact goal _ _ rfl hi.2
  | acqF hp hf => rw [hp] at hi; exact goal _ _ rfl hi.2
  | push hp => rw [hp] at hi; exact goal _ _ rfl hi
  | relF hp => rw [hp] at hi; exact goal _ _ rfl hi.2
  | enter hp hf =>
    rw [hp] at hi
    refine goal _ _ rfl ⟨by simp, ?_, ?_⟩
    · intro l hl
      refine ⟨fun g hg => lt_trans hl (hi.1.1 g hg), fun g hg => ?_⟩
      rcases List.mem_cons.1 hg with rfl | hg
      · exact hl
      · exact lt_trans hl (hi.1.2 g hg)
    · rw [List.erase_cons_head]; exact hi.2
  | tell hp hx hc =>
    rw [hp] at hi
    refine goal _ _ rfl ?_
    obtain ⟨h1, h2⟩ := hcode _ _ _ hc
    refine fit_acts (tb := (s.th i).tb) (fl := (s.th i).fl) ?_ _ [] h1 (fun op hop l hl => hi.2.1 l (h2 op hop l hl))
    exact ⟨hi.1, hi.2.1, hi.2.2⟩
  | leave hp hx => rw [hp] at hi; exact goal _ _ rfl hi.2.2

theorem fit_run {lev : Lk T → Nat} (hcode : CodeInOrder lev Code) {trk : T → List X} {progs : ι → List (TkOp T X)}
    (hp : ∀ i, TkOrder lev [] (progs i)) {waits : TkSys T X ι → ι → Prop} {s : TkSys T X ι}
    (hr : Run Code waits (TkSys.start trk progs) s) : AllFit lev s := by
  induction hr with
  | start =>
    intro i
    have := fit_acts (lev := lev) (tb := []) (fl := []) (k := ([] : List (TkAct T X))) ⟨rfl, rfl⟩ (progs i) [] (hp i)
      (fun op _ l _ => ⟨by simp, by simp⟩)
    simpa [TkSys.start] using this
  | step _ hs _ ih => exact fit_step hcode ih hs

/-- The lock a thread asks for. -/
def TkAct.wants : TkAct T X → Option (Lk T)
  | .acq t _ => some (.tbl t)
  | .acqF t => some (.fl t)
  | .enter t => some (.fl t)
  | _ => none

/-- A thread that asks for nothing can go on. -/
theorem go_on (hcode : ∀ t x, ∃ ops, Code t x ops) {waits : TkSys T X ι → ι → Prop} (hw : MayWait waits) {s : TkSys T X ι} {i : ι}
    {a : TkAct T X} {k : List (TkAct T X)} (ha : (s.th i).todo = a :: k) (hn : a.wants = none) :
    ∃ s', Step Code s i s' ∧ ¬ waits s i := by
  have hnw : ¬ waits s i := by
    intro hwi
    rcases hw s i hwi with ⟨t, k', e, _⟩ | ⟨t, k', e, _⟩ <;> (rw [ha] at e; injection e with e; subst e; simp [TkAct.wants] at hn)
  cases a with
  | acq t m => simp [TkAct.wants] at hn
  | acqF t => simp [TkAct.wants] at hn
  | enter t => simp [TkAct.wants] at hn
  | rel t m => exact ⟨_, .rel ha, hnw⟩
  | push t x => exact ⟨_, .push ha, hnw⟩
  | relF t => exact ⟨_, .relF ha, hnw⟩
  | iter n t j =>
    cases hx : (s.trackers t)[j]? with
    | none => exact ⟨_, .leave ha hx, hnw⟩
    | some x =>
      obtain ⟨ops, hc⟩ := hcode t x
      exact ⟨_, .tell ha hx hc, hnw⟩

theorem fit_wants {lev : Lk T → Nat} {tb fl : List (T × Mode)} {a : TkAct T X} {k : List (TkAct T X)} (h : Fit lev tb fl (a :: k)) {l : Lk T}
    (hl : a.wants = some l) : Above lev tb fl l := by
  cases a with
  | acq t m => injection hl with hl; subst hl; exact h.1
  | acqF t => injection hl with hl; subst hl; exact h.1
  | enter t => injection hl with hl; subst hl; exact h.1
  | _ => cases hl

/-- Some thread has the lock. -/
def HeldBy (s : TkSys T X ι) (j : ι) : Lk T → Prop
  | .tbl t => ∃ m, (t, m) ∈ (s.th j).tb
  | .fl t => ∃ m, (t, m) ∈ (s.th j).fl

theorem some_goes (hcode : ∀ t x, ∃ ops, Code t x ops) {waits : TkSys T X ι → ι → Prop} (hw : MayWait waits) {lev : Lk T → Nat}
    {s : TkSys T X ι} (hfit : AllFit lev s) (N : Nat) : ∀ (i : ι) (a : TkAct T X) (k : List (TkAct T X)) (l : Lk T),
      (s.th i).todo = a :: k → a.wants = some l → lev l = N → ∃ j s', Step Code s j s' ∧ ¬ waits s j := by
  induction N using Nat.strong_induction_on with
  | _ N ih =>
    -- whoever has the lock can go on, or waits for a lower one
    have holder : ∀ (l : Lk T) (j : ι), lev l = N → HeldBy s j l → ∃ j s', Step Code s j s' ∧ ¬ waits s j := by
      intro l j hl hh
      cases htd : (s.th j).todo with
      | nil =>
        have := hfit j
        rw [htd] at this
        obtain ⟨e1, e2⟩ := this
        cases l with
        | tbl t => obtain ⟨m, hm⟩ := hh; rw [e1] at hm; cases hm
        | fl t => obtain ⟨m, hm⟩ := hh; rw [e2] at hm; cases hm
      | cons b k =>
        cases hb : b.wants with
        | none =>
          obtain ⟨s', h⟩ := go_on hcode hw htd hb
          exact ⟨j, s', h⟩
        | some l' =>
          have hj := hfit j
          rw [htd] at hj
          have hab := fit_wants hj hb
          refine ih (lev l') ?_ j b k l' htd hb rfl
          rw [← hl]
          cases l with
          | tbl t => obtain ⟨m, hm⟩ := hh; exact hab.1 _ hm
          | fl t => obtain ⟨m, hm⟩ := hh; exact hab.2 _ hm
    -- a writer goes on, or somebody has the lock
    have writerT : ∀ (j : ι) (t : T) (k : List (TkAct T X)), (s.th j).todo = .acq t .wr :: k → lev (.tbl t) = N →
        ∃ j s', Step Code s j s' ∧ ¬ waits s j := by
      intro j t k hj hl
      by_cases hf : s.FreeT t .wr
      · refine ⟨j, _, .acq hj hf, ?_⟩
        intro hwj
        rcases hw s j hwj with ⟨t', k', e, _⟩ | ⟨t', k', e, _⟩ <;> (rw [hj] at e; simp at e)
      · unfold TkSys.FreeT at hf
        push Not at hf
        obtain ⟨j', m, hm⟩ := hf
        exact holder (.tbl t) j' hl ⟨m, hm⟩
    have writerF : ∀ (j : ι) (t : T) (k : List (TkAct T X)), (s.th j).todo = .acqF t :: k → lev (.fl t) = N →
        ∃ j s', Step Code s j s' ∧ ¬ waits s j := by
      intro j t k hj hl
      by_cases hf : s.FreeF t .wr
      · refine ⟨j, _, .acqF hj hf, ?_⟩
        intro hwj
        rcases hw s j hwj with ⟨t', k', e, _⟩ | ⟨t', k', e, _⟩ <;> (rw [hj] at e; simp at e)
      · unfold TkSys.FreeF at hf
        push Not at hf
        obtain ⟨j', m, hm⟩ := hf
        exact holder (.fl t) j' hl ⟨m, hm⟩
    intro i a k l ha hl hN
    cases a with
    | acq t m =>
      injection hl with hl; subst hl
      cases m with
      | wr => exact writerT i t k ha hN
      | rd =>
        by_cases hf : s.FreeT t .rd
        · by_cases hwi : waits s i
          · rcases hw s i hwi with ⟨t', k', e, j, k'', hj, ej⟩ | ⟨t', k', e, _⟩
            · rw [ha] at e; injection e with e; injection e with e; subst e
              exact writerT j t k'' ej hN
            · rw [ha] at e; simp at e
          · exact ⟨i, _, .acq ha hf, hwi⟩
        · unfold TkSys.FreeT at hf
          push Not at hf
          obtain ⟨j', hm⟩ := hf
          exact holder (.tbl t) j' hN ⟨_, hm⟩
    | acqF t =>
      injection hl with hl; subst hl
      exact writerF i t k ha hN
    | enter t =>
      injection hl with hl; subst hl
      by_cases hf : s.FreeF t .rd
      · by_cases hwi : waits s i
        · rcases hw s i hwi with ⟨t', k', e, _⟩ | ⟨t', k', e, j, k'', hj, ej⟩
          · rw [ha] at e; simp at e
          · rw [ha] at e; injection e with e; injection e with e; subst e
            exact writerF j t k'' ej hN
        · exact ⟨i, _, .enter ha hf, hwi⟩
      · unfold TkSys.FreeF at hf
        push Not at hf
        obtain ⟨j', hm⟩ := hf
        exact holder (.fl t) j' hN ⟨_, hm⟩
    | _ => cases hl

theorem progress (hcode : ∀ t x, ∃ ops, Code t x ops) {waits : TkSys T X ι → ι → Prop} (hw : MayWait waits) {lev : Lk T → Nat}
    {s : TkSys T X ι} (hfit : AllFit lev s) : (∀ i, Done s i) ∨ ∃ i s', Step Code s i s' ∧ ¬ waits s i := by
  by_cases hd : ∀ i, Done s i
  · exact .inl hd
  · right
    push Not at hd
    obtain ⟨i, hi⟩ := hd
    obtain ⟨a, k, ha⟩ := List.exists_cons_of_ne_nil hi
    cases hb : a.wants with
    | none =>
      obtain ⟨s', h⟩ := go_on hcode hw ha hb
      exact ⟨i, s', h⟩
    | some l => exact some_goes hcode hw hfit _ i a k l ha hb rfl

/-! ## Termination -/

/-- What an act weighs: the loops by the level of their lock and how many trackers are left. -/
def TkAct.wt (lev : Lk T → Nat) (len : T → Nat) : TkAct T X → Nat ×ₗ WithTop Nat
  | .enter t => toLex (lev (.fl t), ⊤)
  | .iter _ t j => toLex (lev (.fl t), ((len t - j + 1 : Nat) : WithTop Nat))
  | _ => toLex (0, ((0 : Nat) : WithTop Nat))

/-- What a program weighs. -/
def wts (lev : Lk T → Nat) (len : T → Nat) (k : List (TkAct T X)) : Multiset (Nat ×ₗ WithTop Nat) :=
  (k.map (TkAct.wt lev len) : List (Nat ×ₗ WithTop Nat))

/-- What all programs weigh. -/
def TkSys.wts [Fintype ι] (lev : Lk T → Nat) (s : TkSys T X ι) : Multiset (Nat ×ₗ WithTop Nat) :=
  ∑ i, V11.wts lev (fun t => (s.trackers t).length) (s.th i).todo

theorem wts_cons (lev : Lk T → Nat) (len : T → Nat) (a : TkAct T X) (k : List (TkAct T X)) :
    wts lev len (a :: k) = {a.wt lev len} + wts lev len k := by
  simp [wts]

theorem wts_append (lev : Lk T → Nat) (len : T → Nat) (a k : List (TkAct T X)) : wts lev len (a ++ k) = wts lev len a + wts lev len k := by
  simp [wts]

/-- Replacing one act by lighter ones. -/
theorem lighter [Fintype ι] {lev : Lk T → Nat} {s s' : TkSys T X ι} {i : ι} {a : TkAct T X} {k new : List (TkAct T X)} {x : TkThread T X}
    (ha : (s.th i).todo = a :: k) (hth : s'.th = (s.go i x).th) (hx : x.todo = new ++ k)
    (hsame : ∀ j, ∀ b ∈ (s'.th j).todo, b.wt lev (fun t => (s'.trackers t).length) = b.wt lev (fun t => (s.trackers t).length))
    (hlt : ∀ b ∈ new, b.wt lev (fun t => (s.trackers t).length) < a.wt lev (fun t => (s.trackers t).length)) :
    Multiset.IsDershowitzMannaLT (s'.wts lev) (s.wts lev) := by
  have e1 : s'.wts lev = ∑ j, wts lev (fun t => (s.trackers t).length) (s'.th j).todo := by
    unfold TkSys.wts
    refine Finset.sum_congr rfl (fun j _ => ?_)
    unfold wts
    congr 1
    exact List.map_congr_left (fun b hb => hsame j b hb)
  have e2 : s'.wts lev = wts lev (fun t => (s.trackers t).length) (new ++ k) +
      ∑ j ∈ Finset.univ.erase i, wts lev (fun t => (s.trackers t).length) (s.th j).todo := by
    rw [e1, ← Finset.add_sum_erase _ _ (Finset.mem_univ i), hth, show (s.go i x).th i = x from Function.update_self _ _ _, hx]
    congr 1
    refine Finset.sum_congr rfl (fun j hj => ?_)
    rw [show (s.go i x).th j = s.th j from Function.update_of_ne (Finset.ne_of_mem_erase hj) _ _]
  have e3 : s.wts lev = wts lev (fun t => (s.trackers t).length) (a :: k) +
      ∑ j ∈ Finset.univ.erase i, wts lev (fun t => (s.trackers t).length) (s.th j).todo := by
    unfold TkSys.wts
    rw [← Finset.add_sum_erase _ _ (Finset.mem_univ i), ha]
  refine ⟨wts lev (fun t => (s.trackers t).length) k +
      ∑ j ∈ Finset.univ.erase i, wts lev (fun t => (s.trackers t).length) (s.th j).todo,
    wts lev (fun t => (s.trackers t).length) new, {a.wt lev (fun t => (s.trackers t).length)}, ?_, ?_, ?_, ?_⟩
  · simp
  · rw [e2, wts_append]
    rw [add_assoc, add_comm]
  · rw [e3, wts_cons]
    rw [add_assoc, add_comm]
  · intro y hy
    refine ⟨_, Multiset.mem_singleton_self _, ?_⟩
    unfold wts at hy
    rw [Multiset.mem_coe, List.mem_map] at hy
    obtain ⟨b, hb, rfl⟩ := hy
    exact hlt b hb

theorem acts_light {lev : Lk T → Nat} {len : T → Nat} {t : T} {j : Nat} (n : Nat) (ops : List (TkOp T X))
    (h : ∀ op ∈ ops, ∀ l ∈ op.asks, lev l < lev (.fl t)) :
    ∀ b ∈ tkActs ops, b.wt lev len < (TkAct.iter n t j : TkAct T X).wt lev len := by
  have small : ∀ b : TkAct T X, (∀ t', b ≠ .enter t') → (∀ n' t' j', b ≠ .iter n' t' j') →
      b.wt lev len < (TkAct.iter n t j : TkAct T X).wt lev len := by
    intro b h1 h2
    have : b.wt lev len = toLex (0, ((0 : Nat) : WithTop Nat)) := by
      cases b with
      | enter t' => exact absurd rfl (h1 t')
      | iter n' t' j' => exact absurd rfl (h2 n' t' j')
      | _ => rfl
    rw [this]
    show toLex (0, ((0 : Nat) : WithTop Nat)) < toLex (lev (.fl t), ((len t - j + 1 : Nat) : WithTop Nat))
    rw [Prod.Lex.toLex_lt_toLex]
    rcases Nat.eq_zero_or_pos (lev (.fl t)) with e | e
    · right
      refine ⟨e.symm, ?_⟩
      exact WithTop.coe_lt_coe.2 (Nat.succ_pos _)
    · exact .inl e
  intro b hb
  cases b with
  | iter n' t' j' => exact absurd hb (tkActs_not_iter _ _ _ _)
  | enter t' =>
    obtain ⟨op, hop, hb⟩ := List.mem_flatMap.1 hb
    have hl : Lk.fl t' ∈ op.asks := by
      cases op with
      | flush t rm => cases rm <;> simp [TkOp.acts] at hb <;> simp [TkOp.asks, hb]
      | _ => simp [TkOp.acts] at hb <;> simp [TkOp.asks, hb]
    have := h op hop _ hl
    show toLex (lev (.fl t'), (⊤ : WithTop Nat)) < toLex (lev (.fl t), ((len t - j + 1 : Nat) : WithTop Nat))
    rw [Prod.Lex.toLex_lt_toLex]
    exact .inl this
  | _ => exact small _ (by simp) (by simp)

theorem step_lighter [Fintype ι] {lev : Lk T → Nat} (hcode : ∀ t x ops, Code t x ops → ∀ op ∈ ops, ∀ l ∈ op.asks, lev l < lev (.fl t))
    {trk : T → List X} {s s' : TkSys T X ι} {i : ι} (h : TkInv trk s) (hs : Step Code s i s') :
    Multiset.IsDershowitzMannaLT (s'.wts lev) (s.wts lev) := by
  cases hs with
  | acq hp hf => exact lighter (new := []) hp rfl rfl (fun _ _ _ => rfl) (by simp)
  | rel hp => exact lighter (new := []) hp rfl rfl (fun _ _ _ => rfl) (by simp)
  | acqF hp hf => exact lighter (new := []) hp rfl rfl (fun _ _ _ => rfl) (by simp)
  | relF hp => exact lighter (new := []) hp rfl rfl (fun _ _ _ => rfl) (by simp)
  | @push t x k hp =>
    have hk := h.kept i
    rw [hp] at hk
    refine lighter (new := []) hp rfl rfl (fun j b hb => ?_) (by simp)
    cases b with
    | iter n t' j' =>
      have hne : t' ≠ t := by
        rintro rfl
        refine h.no_iter hk.1 j n j' ?_
        replace hb : TkAct.iter n t' j' ∈ ((s.go i ⟨k, (s.th i).tb, (s.th i).fl⟩).th j).todo := hb
        by_cases e : j = i
        · subst e
          rw [show (s.go j ⟨k, (s.th j).tb, (s.th j).fl⟩).th j = ⟨k, (s.th j).tb, (s.th j).fl⟩ from Function.update_self _ _ _] at hb
          rw [hp]; exact List.mem_cons_of_mem _ hb
        · rwa [show (s.go i ⟨k, (s.th i).tb, (s.th i).fl⟩).th j = s.th j from Function.update_of_ne e _ _] at hb
      show toLex (lev (.fl t'), (((Function.update s.trackers t (s.trackers t ++ [x]) t').length - j' + 1 : Nat) : WithTop Nat)) = _
      rw [Function.update_of_ne hne]
      rfl
    | _ => rfl
  | @enter t k hp hf =>
    refine lighter (new := [.iter s.log.length t 0]) hp rfl rfl (fun _ _ _ => rfl) ?_
    intro b hb
    rw [List.mem_singleton] at hb
    subst hb
    show toLex (lev (.fl t), (((s.trackers t).length - 0 + 1 : Nat) : WithTop Nat)) < toLex (lev (.fl t), (⊤ : WithTop Nat))
    rw [Prod.Lex.toLex_lt_toLex]
    exact .inr ⟨rfl, WithTop.coe_lt_top _⟩
  | @tell n t j k x ops hp hx hc =>
    refine lighter (new := tkActs ops ++ [.iter n t (j + 1)]) hp rfl (by simp) (fun _ _ _ => rfl) ?_
    intro b hb
    rcases List.mem_append.1 hb with hb | hb
    · exact acts_light n ops (hcode _ _ _ hc) b hb
    · rw [List.mem_singleton] at hb
      subst hb
      show toLex (lev (.fl t), (((s.trackers t).length - (j + 1) + 1 : Nat) : WithTop Nat)) <
        toLex (lev (.fl t), (((s.trackers t).length - j + 1 : Nat) : WithTop Nat))
      rw [Prod.Lex.toLex_lt_toLex]
      refine .inr ⟨rfl, ?_⟩
      have hlt : j < (s.trackers t).length := by
        by_contra hc'
        rw [List.getElem?_eq_none (by omega)] at hx
        cases hx
      exact WithTop.coe_lt_coe.2 (show (s.trackers t).length - (j + 1) + 1 < (s.trackers t).length - j + 1 by omega)
  | leave hp hx => exact lighter (new := []) hp rfl rfl (fun _ _ _ => rfl) (by simp)

theorem no_infinite {α : Type} [Preorder α] [WellFoundedLT α] (g : Nat → Multiset α) (h : ∀ k, Multiset.IsDershowitzMannaLT (g (k + 1)) (g k)) : False := by
  have wf := Multiset.wellFounded_isDershowitzMannaLT (α := α)
  obtain ⟨m, ⟨k, rfl⟩, hm⟩ := wf.has_min (Set.range g) ⟨_, ⟨0, rfl⟩⟩
  exact hm _ ⟨k + 1, rfl⟩ (h k)

end V11
