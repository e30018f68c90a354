import Verif.Spec.PropLocks
import Verif.Props.Registry

/-!
# Property locks among threads: what one step does
-/

set_option linter.unusedSimpArgs false
set_option linter.unusedSectionVars false
set_option linter.unusedVariables false

namespace V11
variable {Ty : Type} [DecidableEq Ty] {V : Ty → Type} {P : Type} [DecidableEq P] {ι : Type} [DecidableEq ι] {decl : P → PropDecl V}

theorem opsOf_append (a b : List (PlEv ι decl)) : opsOf (a ++ b) = opsOf a ++ opsOf b := by
  unfold opsOf
  rw [List.filterMap_append]

/-- What one step is: the thread, the events and the poisoned locks after it. -/
inductive PlDid (s : PlSys ι decl) (i : ι) : PlThread decl → List (PlEv ι decl) → (PKey → Bool) → Prop where
  | die {evs} : (s.th i).falling = false → (evs = [.died i] ∨ ∃ k p, evs = [.found i k p, .died i]) →
      PlDid s i ⟨.panic, (s.th i).held, true⟩ evs s.bad
  | use {k p m v evs sc} : (s.th i).falling = false → (s.th i).script.asks = some (k, p, m) → (s.w.get decl k p).1 = .ok v →
      s.free (PropDecl.key decl k p) m → s.bad (PropDecl.key decl k p) = false →
      ((m = .rd ∧ evs = [.found i k p, .saw i k p v]) ∨ (∃ x, m = .wr ∧ evs = [.wrote i k p x]) ∨ ∃ x, m = .wr ∧ evs = [.saw i k p v, .wrote i k p x]) →
      PlDid s i ⟨sc, (s.th i).held, false⟩ evs s.bad
  | take {k p m v sc} : (s.th i).falling = false → (s.th i).script.asks = some (k, p, m) → (s.w.get decl k p).1 = .ok v →
      s.free (PropDecl.key decl k p) m → s.bad (PropDecl.key decl k p) = false →
      PlDid s i ⟨sc, (k, p, m) :: (s.th i).held, false⟩ [.found i k p, .took i (k, p, m)] s.bad
  | look {k p m v sc} : (s.th i).falling = false → (k, p, m) ∈ (s.th i).held → (s.w.get decl k p).1 = .ok v →
      PlDid s i ⟨sc, (s.th i).held, false⟩ [.saw i k p v] s.bad
  | store {k p x sc} : (s.th i).falling = false → (k, p, .wr) ∈ (s.th i).held → PlDid s i ⟨sc, (s.th i).held, false⟩ [.wrote i k p x] s.bad
  | leave {g sc} : g ∈ (s.th i).held →
      PlDid s i ⟨sc, (s.th i).held.erase g, (s.th i).falling⟩ [.left i g]
        (if (s.th i).falling = true ∧ g.2.2 = .wr then Function.update s.bad (g.key decl) true else s.bad)

variable {s s' : PlSys ι decl} {i : ι}

theorem step_did (h : PlStep s i s') : ∃ t evs bad, PlDid s i t evs bad ∧ s'.th = Function.update s.th i t ∧ s'.w = s.w.run decl (opsOf evs) ∧
    s'.log = s.log ++ evs ∧ s'.bad = bad := by
  cases h with
  | @absent k p m e h1 h2 h3 => exact ⟨_, _, _, .die h1 (Or.inr ⟨k, p, rfl⟩), rfl, rfl, rfl, rfl⟩
  | @poisoned k p m v h1 h2 h3 h4 h5 => exact ⟨_, _, _, .die h1 (Or.inr ⟨k, p, rfl⟩), rfl, rfl, rfl, rfl⟩
  | @take k p m v h1 h2 h3 h4 h5 =>
    cases e : (s.th i).script with
    | done => rw [e] at h2; cases h2
    | panic => rw [e] at h2; cases h2
    | look k p f => rw [e] at h2; cases h2
    | store k p x n => rw [e] at h2; cases h2
    | drop k p m n => rw [e] at h2; cases h2
    | get k' p' f =>
      have h2' := h2
      rw [e] at h2'
      injection h2' with h2'
      injection h2' with a1 a2
      injection a2 with a2 a3
      subst a1; subst a2; subst a3
      have hg : s.grant i (.get k' p' f) = s.goOn i { script := f v, held := (s.th i).held, falling := false } (s.w.get decl k' p').2 [.found i k' p', .saw i k' p' v] := by
        simp only [PlSys.grant]
        rcases ew : s.w.get decl k' p' with ⟨r, w⟩
        rw [ew] at h3
        simp only [] at h3
        subst h3
        rfl
      rw [hg]
      exact ⟨_, _, _, .use h1 h2 h3 h4 h5 (Or.inl ⟨rfl, rfl⟩), rfl, rfl, rfl, rfl⟩
    | set k' p' x n =>
      have h2' := h2
      rw [e] at h2'
      injection h2' with h2'
      injection h2' with a1 a2
      injection a2 with a2 a3
      subst a1; subst a2; subst a3
      have hs := (C41_swap_returns (decl := decl) s.w k' p' x).2.1
      rw [h3] at hs
      have hg : s.grant i (.set k' p' x n) = s.goOn i { script := n, held := (s.th i).held, falling := false } (s.w.set decl k' p' x).2 [.wrote i k' p' x] := by
        simp only [PlSys.grant]
        rcases ew : s.w.set decl k' p' x with ⟨r, w⟩
        rw [ew] at hs
        simp only [] at hs
        subst hs
        rfl
      rw [hg]
      exact ⟨_, _, _, .use h1 h2 h3 h4 h5 (Or.inr (Or.inl ⟨x, rfl, rfl⟩)), rfl, rfl, rfl, rfl⟩
    | swap k' p' x f =>
      have h2' := h2
      rw [e] at h2'
      injection h2' with h2'
      injection h2' with a1 a2
      injection a2 with a2 a3
      subst a1; subst a2; subst a3
      have hs := (C41_swap_returns (decl := decl) s.w k' p' x)
      rw [h3] at hs
      have hg : s.grant i (.swap k' p' x f) = s.goOn i { script := f v, held := (s.th i).held, falling := false } (s.w.swap decl k' p' x).2 [.saw i k' p' v, .wrote i k' p' x] := by
        simp only [PlSys.grant]
        have := hs.1
        rcases ew : s.w.swap decl k' p' x with ⟨r, w⟩
        rw [ew] at this
        simp only [] at this
        subst this
        rfl
      rw [hg]
      exact ⟨_, _, _, .use h1 h2 h3 h4 h5 (Or.inr (Or.inr ⟨x, rfl, rfl⟩)), rfl, hs.2.2.symm, rfl, rfl⟩
    | read k' p' n =>
      have h2' := h2
      rw [e] at h2'
      injection h2' with h2'
      injection h2' with a1 a2
      injection a2 with a2 a3
      subst a1; subst a2; subst a3
      exact ⟨_, _, _, .take h1 h2 h3 h4 h5, rfl, rfl, rfl, rfl⟩
    | write k' p' n =>
      have h2' := h2
      rw [e] at h2'
      injection h2' with h2'
      injection h2' with a1 a2
      injection a2 with a2 a3
      subst a1; subst a2; subst a3
      exact ⟨_, _, _, .take h1 h2 h3 h4 h5, rfl, rfl, rfl, rfl⟩
  | look h1 h2 h3 h4 => exact ⟨_, _, _, .look h1 h3 h4, rfl, rfl, rfl, rfl⟩
  | store h1 h2 h3 => exact ⟨_, _, _, .store h1 h3, rfl, rfl, rfl, rfl⟩
  | @drop k p m next h1 h2 h3 =>
    refine ⟨_, _, _, .leave (g := (k, p, m)) (sc := next) h3, ?_, rfl, rfl, ?_⟩
    · rw [h1]; rfl
    · simp [h1]; rfl
  | panic h1 h2 => exact ⟨_, _, _, .die h1 (Or.inl rfl), rfl, rfl, rfl, rfl⟩
  | @leave g rest h1 h2 h3 =>
    refine ⟨_, _, _, .leave (g := g) (sc := .done) (by rw [h3]; simp), ?_, rfl, rfl, ?_⟩
    · rw [h1, h3]; simp [PlSys.goOn]
    · simp [h1]; rfl
  | @unwind g rest h1 h2 =>
    refine ⟨_, _, _, .leave (g := g) (sc := .panic) (by rw [h2]; simp), ?_, rfl, rfl, ?_⟩
    · rw [h1, h2]; simp [PlSys.goOn]
    · simp [h1]

end V11
