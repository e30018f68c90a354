import Verif.Lemmas.System

/-!
# Running a given schedule

A schedule that is written down can be run: what the executor gives is a state the threads can reach, under every policy of the locks.
-/

set_option linter.unusedSectionVars false
set_option linter.unusedVariables false

namespace V11
variable {T : Type} [DecidableEq T] {S : T → Schema} {ι : Type} [DecidableEq ι] [Fintype ι]
open Sys

instance : Fintype Mode where
  elems := {.rd, .wr}
  complete m := by cases m <;> simp

instance freeDec (s : Sys S ι) (l : Lk T) (m : Mode) : Decidable (s.Free l m) := by
  cases m with
  | rd => cases l <;> (unfold Sys.Free; infer_instance)
  | wr => cases l <;> (unfold Sys.Free; infer_instance)

/-- Whether the program is about to ask for this lock to write. -/
def Prog.asksWr (l : Lk T) : Prog S Unit → Bool
  | .acq l' .wr _ => decide (l' = l)
  | _ => false

/-- What thread `i` does next, if it can and is not made to wait by any policy. -/
def Sys.exec1 (s : Sys S ι) (i : ι) : Option (Sys S ι) :=
  match (s.th i).prog with
  | .ret _ => none
  | .fail p => if (s.th i).held = [] then none else
      some { s.go i (.fail p) [] with poisoned := fun l => s.poisoned l || decide ((l, Mode.wr) ∈ (s.th i).held) }
  | .acq l m k =>
      if s.Free l m ∧ (m = .rd → ∀ j, (s.th j).prog.asksWr l = false) then
        some (if s.poisoned l then s.go i (.fail .poisoned) (s.th i).held else s.go i k ((l, m) :: (s.th i).held))
      else none
  | .att t m yes no =>
      if s.Free (.tbl t) m then
        some (if s.poisoned (.tbl t) then s.go i (no .poisoned) (s.th i).held else s.go i yes ((.tbl t, m) :: (s.th i).held))
      else some (s.go i (no .wouldBlock) (s.th i).held)
  | .rel l m k => some (s.go i k ((s.th i).held.erase (l, m)))
  | .get t k => some (s.go i (k (s.tbl t)) (s.th i).held)
  | .put t x k => some { s.go i k (s.th i).held with tbl := Function.update s.tbl t x }
  | .getF t k => some (s.go i (k (s.fl t)) (s.th i).held)
  | .putF t f k => some { s.go i k (s.th i).held with fl := Function.update s.fl t f }
  | .forget t k => some { s.go i k ((s.th i).held.erase (.fl t, .rd)) with
      fl := Function.update s.fl t { s.fl t with leaked := (s.fl t).leaked + 1 } }
  | .see _ _ _ _ k => some (s.go i k (s.th i).held)

/-- A schedule: which thread goes next. -/
def Sys.exec : Sys S ι → List ι → Option (Sys S ι)
  | s, [] => some s
  | s, i :: is => match s.exec1 i with
    | none => none
    | some s => s.exec is

theorem exec1_step {waits : Sys S ι → ι → Prop} (hw : MayWait waits) {s s' : Sys S ι} {i : ι} (h : s.exec1 i = some s') :
    Step s i s' ∧ ¬ waits s i := by
  have nw : (∀ l k, (s.th i).prog ≠ .acq l .rd k) → ¬ waits s i := by
    intro h hwt
    obtain ⟨l, k, hp, -⟩ := hw s i hwt
    exact h l k hp
  unfold Sys.exec1 at h
  cases hp : (s.th i).prog with
  | ret a => rw [hp] at h; cases h
  | fail p =>
    rw [hp] at h
    simp only [] at h
    by_cases hh : (s.th i).held = []
    · rw [if_pos hh] at h; cases h
    · rw [if_neg hh] at h; injection h with h; subst h
      exact ⟨.unwind hp hh, nw (by rw [hp]; intro l k h; cases h)⟩
  | acq l m k =>
    rw [hp] at h
    simp only [] at h
    by_cases hf : s.Free l m ∧ (m = .rd → ∀ j, (s.th j).prog.asksWr l = false)
    · rw [if_pos hf] at h; injection h with h; subst h
      constructor
      · cases hpo : s.poisoned l with
        | true => exact .acqPoisoned hp hf.1 hpo
        | false => exact .acq hp hf.1 hpo
      · intro hwt
        obtain ⟨l', k1, h1, j, k2, -, h2⟩ := hw s i hwt
        rw [hp] at h1
        injection h1 with e1 e2 e3; subst e1 e2 e3
        have := hf.2 rfl j
        rw [h2] at this
        simp [Prog.asksWr] at this
    · rw [if_neg hf] at h; cases h
  | att t m yes no =>
    rw [hp] at h
    simp only [] at h
    refine ⟨?_, nw (by rw [hp]; intro l k h; cases h)⟩
    by_cases hf : s.Free (.tbl t) m
    · rw [if_pos hf] at h; injection h with h; subst h
      cases hpo : s.poisoned (.tbl t) with
      | true => exact .attPoisoned hp hf hpo
      | false => exact .att hp hf hpo
    · rw [if_neg hf] at h; injection h with h; subst h
      exact .attBusy hp (.inl hf)
  | rel l m k => rw [hp] at h; injection h with h; subst h; exact ⟨.rel hp, nw (by rw [hp]; intro l k h; cases h)⟩
  | get t k => rw [hp] at h; injection h with h; subst h; exact ⟨.get hp, nw (by rw [hp]; intro l k h; cases h)⟩
  | put t x k => rw [hp] at h; injection h with h; subst h; exact ⟨.put hp, nw (by rw [hp]; intro l k h; cases h)⟩
  | getF t k => rw [hp] at h; injection h with h; subst h; exact ⟨.getF hp, nw (by rw [hp]; intro l k h; cases h)⟩
  | putF t f k => rw [hp] at h; injection h with h; subst h; exact ⟨.putF hp, nw (by rw [hp]; intro l k h; cases h)⟩
  | forget t k => rw [hp] at h; injection h with h; subst h; exact ⟨.forget hp, nw (by rw [hp]; intro l k h; cases h)⟩
  | see p o ev rows k => rw [hp] at h; injection h with h; subst h; exact ⟨.see hp, nw (by rw [hp]; intro l k h; cases h)⟩

theorem exec_run {waits : Sys S ι → ι → Prop} (hw : MayWait waits) (is : List ι) {s s' : Sys S ι} (h : s.exec is = some s') : Run waits s s' := by
  have : ∀ (is : List ι) {s0 s s' : Sys S ι}, Run waits s0 s → s.exec is = some s' → Run waits s0 s' := by
    intro is
    induction is with
    | nil => intro s0 s s' h0 h; injection h with h; subst h; exact h0
    | cons i is ih =>
      intro s0 s s' h0 h
      unfold Sys.exec at h
      cases e : s.exec1 i with
      | none => rw [e] at h; cases h
      | some s1 =>
        rw [e] at h
        obtain ⟨h1, h2⟩ := exec1_step hw e
        exact ih (.step h0 h1 h2) h
  exact this is .start h

end V11
