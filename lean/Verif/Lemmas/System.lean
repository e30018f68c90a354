import Verif.Lemmas.Threads
import Mathlib.Logic.Hydra
import Mathlib.Data.Fintype.Basic
import Mathlib.Tactic.Abel

/-!
# Interleavings of programs that keep the lock order
-/

set_option linter.unusedSectionVars false
set_option linter.unusedVariables false

namespace V11
variable {T : Type} [DecidableEq T] {S : T → Schema} {ι : Type} [DecidableEq ι]
  {ord : Lk T → Nat} {I : (t : T) → Tbl (S t) → Prop} {J : T → FlushLock → Prop}
open Sys

/-- Every thread keeps the order, guards exclude each other, contents satisfy the invariants. -/
structure Good (ord : Lk T → Nat) (I : (t : T) → Tbl (S t) → Prop) (J : T → FlushLock → Prop) (s : Sys S ι) : Prop where
  tidy : ∀ i, Tidy ord I J (s.th i).held (s.th i).prog (fun h _ => h = [])
  excl : ∀ i j l m, i ≠ j → (l, .wr) ∈ (s.th i).held → (l, m) ∉ (s.th j).held
  rows : ∀ t, I t (s.tbl t)
  flush : ∀ t, J t (s.fl t)

theorem go_self (s : Sys S ι) (i : ι) (p : Prog S Unit) (h : List (Lk T × Mode)) : (s.go i p h).th i = ⟨p, h⟩ := by
  unfold Sys.go; exact Function.update_self ..

theorem go_other (s : Sys S ι) {i j : ι} (hj : j ≠ i) (p : Prog S Unit) (h : List (Lk T × Mode)) : (s.go i p h).th j = s.th j := by
  unfold Sys.go; exact Function.update_of_ne hj ..

/-- A step of `i` that takes no guard. -/
theorem Good.move {s s' : Sys S ι} (hg : Good ord I J s) {i : ι} {p : Prog S Unit} {h : List (Lk T × Mode)}
    (hth : s'.th = (s.go i p h).th) (hsub : ∀ x ∈ h, x ∈ (s.th i).held)
    (hp : Tidy ord I J h p (fun h _ => h = [])) (hr : ∀ t, I t (s'.tbl t)) (hf : ∀ t, J t (s'.fl t)) : Good ord I J s' where
  tidy j := by
    rw [hth]
    by_cases e : j = i
    · subst e; rw [go_self]; exact hp
    · rw [go_other _ e]; exact hg.tidy j
  excl a b l m hab ha hb := by
    rw [hth] at ha hb
    have ha' : (l, Mode.wr) ∈ (s.th a).held := by
      by_cases e : a = i
      · subst e; rw [go_self] at ha; exact hsub _ ha
      · rwa [go_other _ e] at ha
    have hb' : (l, m) ∈ (s.th b).held := by
      by_cases e : b = i
      · subst e; rw [go_self] at hb; exact hsub _ hb
      · rwa [go_other _ e] at hb
    exact hg.excl a b l m hab ha' hb'
  rows := hr
  flush := hf

theorem free_excl {s : Sys S ι} {l : Lk T} {m : Mode} (hf : s.Free l m) : (∀ j, (l, .wr) ∉ (s.th j).held) ∧ (m = .wr → ∀ j m', (l, m') ∉ (s.th j).held) := by
  cases m with
  | rd => exact ⟨hf, fun h => by cases h⟩
  | wr =>
    cases l with
    | tbl t => exact ⟨fun j => hf j .wr, fun _ => hf⟩
    | fl t => exact ⟨fun j => hf.1 j .wr, fun _ => hf.1⟩

/-- A step of `i` that takes a guard. -/
theorem Good.take {s : Sys S ι} (hg : Good ord I J s) {i : ι} {p : Prog S Unit} {l : Lk T} {m : Mode} (hf : s.Free l m)
    (ht : Tidy ord I J ((l, m) :: (s.th i).held) p (fun h _ => h = [])) : Good ord I J (s.go i p ((l, m) :: (s.th i).held)) := by
  constructor
  · intro j
    by_cases e : j = i
    · subst e; rw [go_self]; exact ht
    · rw [go_other _ e]; exact hg.tidy j
  · intro a b l' m' hab ha hb
    have hfree := free_excl hf
    by_cases ea : a = i
    · subst ea
      rw [go_self] at ha
      rw [go_other _ (Ne.symm hab)] at hb
      rcases List.mem_cons.1 ha with he | ha
      · injection he with h1 h2; subst h1 h2
        exact hfree.2 rfl b m' hb
      · exact hg.excl a b l' m' hab ha hb
    · rw [go_other _ ea] at ha
      by_cases eb : b = i
      · subst eb
        rw [go_self] at hb
        rcases List.mem_cons.1 hb with he | hb
        · injection he with h1 h2; subst h1 h2
          exact hfree.1 a ha
        · exact hg.excl a b l' m' hab ha hb
      · rw [go_other _ eb] at hb
        exact hg.excl a b l' m' hab ha hb
  · exact hg.rows
  · exact hg.flush

theorem Good.step {s s' : Sys S ι} (hg : Good ord I J s) {i : ι} (hs : Step s i s') : Good ord I J s' := by
  have ht := hg.tidy i
  cases hs with
  | @acq l m k hp hf hn =>
    rw [hp] at ht
    exact hg.take hf ht.2
  | acqPoisoned hp hf hn => exact hg.move rfl (fun x hx => hx) trivial hg.rows hg.flush
  | att hp hf hn =>
    rw [hp] at ht
    exact hg.take hf (ht.1 ⟨(free_excl hf).1 i, fun e => (free_excl hf).2 e i _⟩)
  | attPoisoned hp hf hn => rw [hp] at ht; exact hg.move rfl (fun x hx => hx) (ht.2 _) hg.rows hg.flush
  | attBusy hp hb => rw [hp] at ht; exact hg.move rfl (fun x hx => hx) (ht.2 _) hg.rows hg.flush
  | rel hp =>
    rw [hp] at ht
    exact hg.move rfl (fun x hx => List.mem_of_mem_erase hx) ht.2 hg.rows hg.flush
  | get hp =>
    rw [hp] at ht
    exact hg.move rfl (fun x hx => hx) (ht.2 _ (hg.rows _)) hg.rows hg.flush
  | @put t x k hp =>
    rw [hp] at ht
    refine hg.move (i := i) (p := k) (h := (s.th i).held) rfl (fun x hx => hx) ht.2.2 (fun t' => ?_) hg.flush
    show I t' (Function.update s.tbl t x t')
    by_cases e : t' = t
    · subst e; rw [Function.update_self]; exact ht.2.1
    · rw [Function.update_of_ne e]; exact hg.rows t'
  | getF hp =>
    rw [hp] at ht
    exact hg.move rfl (fun x hx => hx) (ht.2 _ (hg.flush _)) hg.rows hg.flush
  | @putF t x k hp =>
    rw [hp] at ht
    refine hg.move (i := i) (p := k) (h := (s.th i).held) rfl (fun x hx => hx) ht.2.2 hg.rows (fun t' => ?_)
    show J t' (Function.update s.fl t x t')
    by_cases e : t' = t
    · subst e; rw [Function.update_self]; exact ht.2.1
    · rw [Function.update_of_ne e]; exact hg.flush t'
  | forget hp => rw [hp] at ht; exact ht.elim
  | see hp =>
    rw [hp] at ht
    exact hg.move rfl (fun x hx => hx) ht hg.rows hg.flush
  | @unwind p hp hh =>
    exact hg.move (i := i) (p := .fail p) (h := []) rfl (fun x hx => by cases hx) trivial hg.rows hg.flush

theorem Good.run {waits : Sys S ι → ι → Prop} {s s' : Sys S ι} (hg : Good ord I J s) (hr : Run waits s s') : Good ord I J s' := by
  induction hr with
  | start => exact hg
  | step _ hs _ ih => exact ih.step hs

/-- Some thread can go on. -/
def CanMove (waits : Sys S ι → ι → Prop) (s : Sys S ι) : Prop := ∃ i s', Step s i s' ∧ ¬ waits s i

theorem not_free {s : Sys S ι} (hl : ∀ t, (s.fl t).leaked = 0) {l : Lk T} {m : Mode} (hf : ¬ s.Free l m) : ∃ j m', (l, m') ∈ (s.th j).held := by
  by_contra hc
  push Not at hc
  apply hf
  cases m with
  | rd => exact fun j => hc j .wr
  | wr =>
    cases l with
    | tbl t => exact hc
    | fl t => exact ⟨hc, hl t⟩

theorem free_step {s : Sys S ι} {i : ι} {l : Lk T} {m : Mode} {k : Prog S Unit} (hp : (s.th i).prog = .acq l m k) (hf : s.Free l m) :
    ∃ s', Step s i s' := by
  cases hb : s.poisoned l with
  | false => exact ⟨_, Step.acq hp hf hb⟩
  | true => exact ⟨_, Step.acqPoisoned hp hf hb⟩

/-- A `try_` lock always gives an answer. -/
theorem att_step {s : Sys S ι} {i : ι} {t : T} {m : Mode} {yes : Prog S Unit} {no : TryErr → Prog S Unit}
    (hp : (s.th i).prog = .att t m yes no) : ∃ s', Step s i s' := by
  by_cases hf : s.Free (.tbl t) m
  · cases hb : s.poisoned (.tbl t) with
    | false => exact ⟨_, Step.att hp hf hb⟩
    | true => exact ⟨_, Step.attPoisoned hp hf hb⟩
  · exact ⟨_, Step.attBusy hp (.inl hf)⟩

/-- When nobody can go on, a thread that is not finished waits for a lock that somebody has. -/
theorem stuck_waits {waits : Sys S ι → ι → Prop} (hw : MayWait waits) {s : Sys S ι} (hg : Good ord I J s) (hl : ∀ t, (s.fl t).leaked = 0)
    (hn : ¬ CanMove waits s) {i : ι} (hf : ¬ Finished s i) :
    ∃ l m k, (s.th i).prog = .acq l m k ∧ ∃ j m', (l, m') ∈ (s.th j).held := by
  have nw : ∀ {j : ι}, (∀ l k, (s.th j).prog ≠ .acq l .rd k) → ¬ waits s j := by
    intro j h1 h2
    obtain ⟨l, k, hp, -⟩ := hw s j h2
    exact h1 l k hp
  have ht := hg.tidy i
  cases hp : (s.th i).prog with
  | ret a => exact absurd (Or.inl hp) hf
  | fail p =>
    by_cases hh : (s.th i).held = []
    · exact absurd (Or.inr ⟨⟨p, hp⟩, hh⟩) hf
    · exact absurd ⟨i, _, Step.unwind hp hh, nw (by simp [hp])⟩ hn
  | att t m yes no =>
    obtain ⟨s', hs'⟩ := att_step hp
    exact absurd ⟨i, s', hs', nw (by simp [hp])⟩ hn
  | rel l m k => exact absurd ⟨i, _, Step.rel hp, nw (by simp [hp])⟩ hn
  | get t k => exact absurd ⟨i, _, Step.get hp, nw (by simp [hp])⟩ hn
  | put t x k => exact absurd ⟨i, _, Step.put hp, nw (by simp [hp])⟩ hn
  | getF t k => exact absurd ⟨i, _, Step.getF hp, nw (by simp [hp])⟩ hn
  | putF t x k => exact absurd ⟨i, _, Step.putF hp, nw (by simp [hp])⟩ hn
  | forget t k => exact absurd ⟨i, _, Step.forget hp, nw (by simp [hp])⟩ hn
  | see p o ev rows k => exact absurd ⟨i, _, Step.see hp, nw (by simp [hp])⟩ hn
  | acq l m k =>
    refine ⟨l, m, k, rfl, ?_⟩
    by_cases hfr : s.Free l m
    · obtain ⟨s', hs'⟩ := free_step hp hfr
      have hwi : waits s i := by
        by_contra hc
        exact hn ⟨i, s', hs', hc⟩
      obtain ⟨l', k', hp', j, k'', -, hj⟩ := hw s i hwi
      rw [hp] at hp'
      injection hp' with h1 h2 h3
      subst h1 h2
      by_cases hfr2 : s.Free l .wr
      · obtain ⟨s2, hs2⟩ := free_step hj hfr2
        exact absurd ⟨j, s2, hs2, nw (by simp [hj])⟩ hn
      · exact not_free hl hfr2
    · exact not_free hl hfr

theorem Good.progress {waits : Sys S ι → ι → Prop} (hw : MayWait waits) {s : Sys S ι} (hg : Good ord I J s) (hl : ∀ t, (s.fl t).leaked = 0)
    (hn : ¬ CanMove waits s) (i : ι) : Finished s i := by
  have key : ∀ (r : Nat) (i : ι) (l : Lk T) (m : Mode) (k : Prog S Unit), ord l = r → (s.th i).prog = .acq l m k →
      (∃ j m', (l, m') ∈ (s.th j).held) → False := by
    intro r
    induction r using Nat.strong_induction_on with
    | _ r ih =>
      intro i l m k hr hp hh
      obtain ⟨j, m', hj⟩ := hh
      have hnf : ¬ Finished s j := by
        rintro (h | ⟨-, h⟩)
        · have := hg.tidy j
          rw [h] at this
          have h0 : (s.th j).held = [] := this
          rw [h0] at hj; cases hj
        · rw [h] at hj; cases hj
      obtain ⟨l2, m2, k2, hp2, hh2⟩ := stuck_waits hw hg hl hn hnf
      have hto := hg.tidy j
      rw [hp2] at hto
      have := hto.1 _ hj
      exact ih (ord l2) (by rw [← hr]; exact this) j l2 m2 k2 rfl hp2 hh2
  by_contra hf
  obtain ⟨l, m, k, hp, hh⟩ := stuck_waits hw hg hl hn hf
  exact key (ord l) i l m k rfl hp hh

/-! ## Every schedule ends -/

/-- What is left of a thread after one step. -/
inductive Less : Thread S → Thread S → Prop
  | acq {l m k h h'} : Less ⟨k, h'⟩ ⟨.acq l m k, h⟩
  | acqFail {l m k h h' p} : Less ⟨.fail p, h'⟩ ⟨.acq l m k, h⟩
  | att {t m yes no h h'} : Less ⟨yes, h'⟩ ⟨.att t m yes no, h⟩
  | attNo {t m yes no e h h'} : Less ⟨no e, h'⟩ ⟨.att t m yes no, h⟩
  | rel {l m k h h'} : Less ⟨k, h'⟩ ⟨.rel l m k, h⟩
  | get {t k x h h'} : Less ⟨k x, h'⟩ ⟨.get t k, h⟩
  | put {t x k h h'} : Less ⟨k, h'⟩ ⟨.put t x k, h⟩
  | getF {t k x h h'} : Less ⟨k x, h'⟩ ⟨.getF t k, h⟩
  | putF {t x k h h'} : Less ⟨k, h'⟩ ⟨.putF t x k, h⟩
  | forget {t k h h'} : Less ⟨k, h'⟩ ⟨.forget t k, h⟩
  | see {p o ev rows k h h'} : Less ⟨k, h'⟩ ⟨.see p o ev rows k, h⟩
  | unwind {p h} : h ≠ [] → Less ⟨.fail p, []⟩ ⟨.fail p, h⟩

theorem acc_fail (p : Panic) (h : List (Lk T × Mode)) : Acc (Less (S := S)) ⟨.fail p, h⟩ := by
  have h0 : Acc (Less (S := S)) ⟨.fail p, []⟩ := by
    constructor
    intro y hy
    cases hy with
    | unwind hh => exact absurd rfl hh
  constructor
  intro y hy
  cases hy with
  | unwind hh => exact h0

theorem acc_less (p : Prog S Unit) : ∀ h : List (Lk T × Mode), Acc (Less (S := S)) ⟨p, h⟩ := by
  induction p with
  | ret a => intro h; constructor; intro y hy; cases hy
  | fail p => exact acc_fail p
  | acq l m k ih =>
    intro h; constructor; intro y hy
    cases hy with
    | acq => exact ih _
    | acqFail => exact acc_fail _ _
  | att t m yes no ih1 ih2 =>
    intro h; constructor; intro y hy
    cases hy with
    | att => exact ih1 _
    | attNo => exact ih2 _ _
  | rel l m k ih => intro h; constructor; intro y hy; cases hy; exact ih _
  | get t k ih => intro h; constructor; intro y hy; cases hy; exact ih _ _
  | put t x k ih => intro h; constructor; intro y hy; cases hy; exact ih _
  | getF t k ih => intro h; constructor; intro y hy; cases hy; exact ih _ _
  | putF t x k ih => intro h; constructor; intro y hy; cases hy; exact ih _
  | forget t k ih => intro h; constructor; intro y hy; cases hy; exact ih _
  | see p o ev rows k ih => intro h; constructor; intro y hy; cases hy; exact ih _

/-- A step changes one thread, to something smaller. -/
theorem step_less {s s' : Sys S ι} {i : ι} (h : Step s i s') : ∃ th, s'.th = Function.update s.th i th ∧ Less th (s.th i) := by
  have eta : ∀ {p}, (s.th i).prog = p → s.th i = ⟨p, (s.th i).held⟩ := by rintro p rfl; rfl
  cases h with
  | acq hp _ _ => exact ⟨_, rfl, by rw [eta hp]; exact .acq⟩
  | acqPoisoned hp _ _ => exact ⟨_, rfl, by rw [eta hp]; exact .acqFail⟩
  | att hp _ _ => exact ⟨_, rfl, by rw [eta hp]; exact .att⟩
  | attPoisoned hp _ _ => exact ⟨_, rfl, by rw [eta hp]; exact .attNo⟩
  | attBusy hp _ => exact ⟨_, rfl, by rw [eta hp]; exact .attNo⟩
  | rel hp => exact ⟨_, rfl, by rw [eta hp]; exact .rel⟩
  | get hp => exact ⟨_, rfl, by rw [eta hp]; exact .get⟩
  | put hp => exact ⟨_, rfl, by rw [eta hp]; exact .put⟩
  | getF hp => exact ⟨_, rfl, by rw [eta hp]; exact .getF⟩
  | putF hp => exact ⟨_, rfl, by rw [eta hp]; exact .putF⟩
  | forget hp => exact ⟨_, rfl, by rw [eta hp]; exact .forget⟩
  | see hp => exact ⟨_, rfl, by rw [eta hp]; exact .see⟩
  | unwind hp hh => exact ⟨_, rfl, by rw [eta hp]; exact .unwind hh⟩

/-- Every schedule of finitely many threads ends. -/
theorem acc_step [Fintype ι] (s : Sys S ι) : Acc (fun s' s : Sys S ι => ∃ i, Step s i s') s := by
  let μ : Sys S ι → Multiset (Thread S) := fun s => Finset.univ.val.map s.th
  have hacc : ∀ s : Sys S ι, Acc (Relation.CutExpand (Less (S := S))) (μ s) := by
    intro s
    haveI : IsIrrefl (Thread S) Less := ⟨fun a h => by
      have : Acc (Less (S := S)) a := acc_less a.prog a.held
      induction this with
      | intro x _ ih => exact ih x h h⟩
    refine Relation.acc_of_singleton (fun a _ => ?_)
    exact (acc_less a.prog a.held).cutExpand
  have hdec : ∀ s s' : Sys S ι, (∃ i, Step s i s') → Relation.CutExpand (Less (S := S)) (μ s') (μ s) := by
    rintro s s' ⟨i, hi⟩
    obtain ⟨th, hth, hl⟩ := step_less hi
    refine ⟨{th}, s.th i, fun a ha => by rw [Multiset.mem_singleton.1 ha]; exact hl, ?_⟩
    show Finset.univ.val.map s'.th + {s.th i} = Finset.univ.val.map s.th + {th}
    rw [hth]
    have hu : (Finset.univ : Finset ι).val = i ::ₘ (Finset.univ.erase i).val := by
      rw [Finset.erase_val, Multiset.cons_erase (Finset.mem_univ i)]
    rw [hu, Multiset.map_cons, Multiset.map_cons, Function.update_self]
    have : Multiset.map (Function.update s.th i th) (Finset.univ.erase i).val = Multiset.map s.th (Finset.univ.erase i).val := by
      refine Multiset.map_congr rfl (fun j hj => ?_)
      exact Function.update_of_ne (Finset.ne_of_mem_erase hj) ..
    rw [this, ← Multiset.singleton_add, ← Multiset.singleton_add]
    abel
  have : ∀ m, Acc (Relation.CutExpand (Less (S := S))) m → ∀ s, μ s = m → Acc (fun s' s : Sys S ι => ∃ i, Step s i s') s := by
    intro m hm
    induction hm with
    | intro m _ ih =>
      intro s hn
      refine Acc.intro _ (fun s' hs' => ih _ (hn ▸ hdec s s' hs') s' rfl)
  exact this _ (hacc s) s rfl

/-- There is no infinite schedule of finitely many threads. -/
theorem steps_end [Fintype ι] (f : Nat → Sys S ι) (hf : ∀ n, ∃ i, Step (f n) i (f (n + 1))) : False := by
  have : ∀ s : Sys S ι, Acc (fun s' s : Sys S ι => ∃ i, Step s i s') s → ∀ n, f n = s → False := by
    intro s hs
    induction hs with
    | intro s _ ih => intro n hn; exact ih (f (n + 1)) (hn ▸ hf n) (n + 1) rfl
  exact this _ (acc_step (f 0)) 0 rfl

theorem Run.trans {waits : Sys S ι → ι → Prop} {a b c : Sys S ι} (h : Run waits a b) (h' : Run waits b c) : Run waits a c := by
  induction h' with
  | start => exact h
  | step _ hs hw ih => exact .step ih hs hw

/-- Every schedule can be completed. -/
theorem Good.completes [Fintype ι] {waits : Sys S ι → ι → Prop} (hw : MayWait waits) {s : Sys S ι} (hg : Good ord I J s)
    (hl : ∀ t f, J t f → f.leaked = 0) : ∃ s', Run waits s s' ∧ ∀ i, Finished s' i := by
  have := acc_step s
  induction this with
  | intro s _ ih =>
    by_cases hc : CanMove waits s
    · obtain ⟨i, s1, hs, hnw⟩ := hc
      obtain ⟨s2, hr, hf⟩ := ih s1 ⟨i, hs⟩ (hg.step hs)
      exact ⟨s2, Run.trans (.step .start hs hnw) hr, hf⟩
    · exact ⟨s, .start, hg.progress hw (fun t => hl t _ (hg.flush t)) hc⟩

end V11
