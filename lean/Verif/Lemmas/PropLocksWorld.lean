import Verif.Lemmas.PropLocks

/-!
# Property locks among threads: what reading and writing one property does to the others
-/

set_option linter.unusedSimpArgs false
set_option linter.unusedSectionVars false
set_option linter.unusedVariables false

namespace V11
variable {Ty : Type} [DecidableEq Ty] {V : Ty → Type} {P : Type} [DecidableEq P] {decl : P → PropDecl V}

theorem syncAlias_idx (w : World P V) (q p : P) (h : q ≠ p) : (w.syncAlias decl q).2.idx p = w.idx p := by
  unfold World.syncAlias
  split
  · rfl
  · split
    · rfl
    · split
      · rfl
      · split
        · rfl
        · exact Function.update_of_ne (Ne.symm h) _ _

theorem syncAlias_error {w : World P V} {p : P} {e : Panic} (h : (w.syncAlias decl p).1 = .error e) :
    (w.syncAlias decl p).2.poisoned = true ∧ (w.syncAlias decl p).2.idx = w.idx := by
  unfold World.syncAlias at h ⊢
  split
  · rename_i hp
    exact ⟨hp, rfl⟩
  · split
    · exact ⟨rfl, rfl⟩
    · split
      · exact ⟨rfl, rfl⟩
      · split
        · exact ⟨rfl, rfl⟩
        · rename_i a _ b _ c _ d _
          simp_all

theorem syncAlias_same {w w' : World P V} (hg : w'.g = w.g) (hp : w'.poisoned = w.poisoned) (p : P) : (w'.syncAlias decl p).1 = (w.syncAlias decl p).1 := by
  unfold World.syncAlias
  rw [hg, hp]
  split
  · rfl
  · split
    · rfl
    · split
      · rfl
      · split <;> rfl

theorem resolve_error {w : World P V} {p : P} {e : Panic} (h : (w.resolve decl p).1 = .error e) :
    (w.resolve decl p).2.poisoned = true ∧ (w.resolve decl p).2.idx = w.idx ∧ w.idx p = none := by
  unfold World.resolve at h ⊢
  cases e : w.idx p with
  | some i => rw [e] at h; cases h
  | none =>
    rw [e] at h
    obtain ⟨a, b⟩ := syncAlias_error h
    exact ⟨a, b, rfl⟩

theorem resolve_back {w : World P V} (hw : WInv decl w) {q p : P} {i : PIndex} (h : ((w.resolve decl q).2.resolve decl p).1 = .ok i) : (w.resolve decl p).1 = .ok i := by
  obtain ⟨a1, a2, a3, a4, a5⟩ := resolve_step hw q
  cases ep : w.idx p with
  | some j =>
    have := a2.idx p j ep
    unfold World.resolve at h ⊢
    rw [ep]
    have h2 : (w.resolve decl q).2.idx p = some j := this
    unfold World.resolve at h2
    rw [h2] at h
    exact h
  | none =>
    by_cases hq : q = p
    · subst hq
      cases er : (w.resolve decl q).1 with
      | ok j =>
        obtain ⟨-, b⟩ := a5 j er
        unfold World.resolve at h
        have h2 := b
        unfold World.resolve at h2
        rw [h2] at h
        exact h
      | error e =>
        obtain ⟨b1, b2, b3⟩ := resolve_error er
        have : ((w.resolve decl q).2.resolve decl q).1 = .error .poisoned := by
          rw [World.resolve, b2, b3]
          simp only []
          unfold World.syncAlias
          rw [if_pos b1]
        rw [this] at h
        cases h
    · have hidx : (w.resolve decl q).2.idx p = none := by
        unfold World.resolve
        cases eq : w.idx q with
        | some j => exact ep
        | none => exact (syncAlias_idx w q p hq).trans ep
      have e1 : (w.resolve decl p).1 = (w.syncAlias decl p).1 := by rw [World.resolve, ep]
      have e2 : ((w.resolve decl q).2.resolve decl p).1 = ((w.resolve decl q).2.syncAlias decl p).1 := by rw [World.resolve, hidx]
      rw [e1]
      rw [e2] at h
      rw [← h]
      have hnp : (w.resolve decl q).2.poisoned = false := by
        cases hp : (w.resolve decl q).2.poisoned with
        | false => rfl
        | true =>
          unfold World.syncAlias at h
          rw [if_pos hp] at h
          cases h
      refine (syncAlias_same a4 ?_ p).symm
      rw [hnp]
      cases hp : w.poisoned with
      | false => rfl
      | true => rw [a2.poisoned hp] at hnp; cases hnp

/-- Looking at one property leaves the world as finding its place does, or as it was. -/
theorem get_world (w : World P V) (k : Nat) (p : P) : (w.get decl k p).2 = w ∨ (w.get decl k p).2 = (w.resolve decl p).2 := by
  unfold World.get
  cases w.unis[k]? with
  | none => exact Or.inl rfl
  | some u =>
    right
    simp only []
    rcases w.resolve decl p with ⟨_ | i, w1⟩
    · rfl
    · simp only []
      cases cellOf u i <;> rfl

theorem swap_error {w : World P V} {k : Nat} {p : P} {x : V (decl p).ty} {e : Panic} (h : (w.swap decl k p x).1 = .error e) :
    (w.swap decl k p x).2 = (w.get decl k p).2 := by
  unfold World.swap World.get at *
  cases eu : w.unis[k]? with
  | none => rfl
  | some u =>
    rw [eu] at h
    simp only [] at h ⊢
    rcases er : w.resolve decl p with ⟨_ | i, w1⟩
    · rfl
    · rw [er] at h
      simp only [] at h ⊢
      cases ec : cellOf u i with
      | error e => rfl
      | ok c =>
        rw [ec] at h
        simp only [] at h ⊢
        cases ed : downcast (decl p).ty c with
        | error e => rfl
        | ok old => rw [ed] at h; cases h

/-- What reads after another property was looked at read the same before. -/
theorem get_back {w : World P V} (hw : WInv decl w) {k k' : Nat} {q p : P} {v : V (decl p).ty} (h : ((w.get decl k q).2.get decl k' p).1 = .ok v) :
    (w.get decl k' p).1 = .ok v := by
  rcases get_world (decl := decl) w k q with e | e
  · rw [e] at h; exact h
  · obtain ⟨a1, a2, a3, a4, -⟩ := resolve_step hw q
    rw [e] at h
    obtain ⟨u, i, h1, h2, h3, h4⟩ := get_ok a1 h
    rw [a3] at h1
    exact get_of h1 (resolve_back hw h2) h4

/-- It has its place and can be read. -/
def Settled (decl : P → PropDecl V) (w : World P V) (k : Nat) (p : P) : Prop := (w.idx p).isSome = true ∧ ∃ v, (w.get decl k p).1 = .ok v

theorem get_settles {w : World P V} (hw : WInv decl w) {k : Nat} {p : P} {v : V (decl p).ty} (h : (w.get decl k p).1 = .ok v) :
    ((w.get decl k p).2.idx p).isSome = true ∧ ((w.get decl k p).2.get decl k p).1 = .ok v := by
  obtain ⟨u, i, h1, h2, h3, h4⟩ := get_ok hw h
  obtain ⟨a1, a2, a3, a4, a5⟩ := resolve_step hw p
  obtain ⟨-, b2⟩ := a5 i h2
  have e : (w.get decl k p).2 = (w.resolve decl p).2 := by
    unfold World.get
    rw [h1]
    simp only []
    rcases w.resolve decl p with ⟨_ | i, w1⟩
    · rfl
    · simp only []
      cases cellOf u i <;> rfl
  rw [e, b2]
  refine ⟨rfl, ?_⟩
  refine get_of (u := u) (i := i) (by rw [a3]; exact h1) ?_ h4
  rw [World.resolve, b2]

theorem idx_keeps {w : World P V} (hw : WInv decl w) {p : P} (hi : (w.idx p).isSome = true) {w' : World P V} (hg : Grows w w') : (w'.idx p).isSome = true := by
  obtain ⟨x, hx⟩ := Option.isSome_iff_exists.1 hi
  rw [hg.idx p x hx]
  rfl

/-- What has its place reads the same after another property was looked at. -/
theorem get_keeps {w : World P V} (hw : WInv decl w) {k k' : Nat} {q p : P} {v : V (decl p).ty} (hi : (w.idx p).isSome = true) (h : (w.get decl k p).1 = .ok v) :
    ((w.get decl k' q).2.idx p).isSome = true ∧ ((w.get decl k' q).2.get decl k p).1 = .ok v := by
  obtain ⟨u, i, h1, h2, h3, h4⟩ := get_ok hw h
  obtain ⟨a1, a2, a3, a4⟩ := get_step hw k' q
  have hi' := idx_keeps hw hi a2
  exact ⟨hi', get_of (by rw [a3]; exact h1) (resolve_of_idx a1 (by rw [a4]; exact h3) (Or.inr hi')) h4⟩

/-- Looking at a property that can be read does not keep others from being read. -/
theorem get_keeps_ok {w : World P V} (hw : WInv decl w) {k k' : Nat} {q p : P} {v : V (decl p).ty} {x : V (decl q).ty} (h : (w.get decl k p).1 = .ok v)
    (hq : (w.get decl k' q).1 = .ok x) : ((w.get decl k' q).2.get decl k p).1 = .ok v := by
  obtain ⟨u, i, h1, h2, h3, h4⟩ := get_ok hw h
  obtain ⟨a1, a2, a3, a4⟩ := get_step hw k' q
  obtain ⟨u', j, g1, g2, g3, g4⟩ := get_ok hw hq
  refine get_of (by rw [a3]; exact h1) (resolve_of_idx a1 (by rw [a4]; exact h3) ?_) h4
  by_cases hi : (w.idx p).isSome = true
  · exact Or.inr (idx_keeps hw hi a2)
  · have hnp : w.poisoned = false := by
      cases hp : w.poisoned with
      | false => rfl
      | true =>
        rw [World.resolve] at h2
        cases hx : w.idx p with
        | some y => rw [hx] at hi; simp at hi
        | none =>
          rw [hx] at h2
          simp only [] at h2
          unfold World.syncAlias at h2
          rw [if_pos hp] at h2
          cases h2
    left
    rcases get_world (decl := decl) w k' q with e | e
    · rw [e]; exact hnp
    · rw [e]
      rw [World.resolve] at g2 ⊢
      cases hx : w.idx q with
      | some y => exact hnp
      | none =>
        rw [hx] at g2
        simp only [] at g2 ⊢
        unfold World.syncAlias at g2 ⊢
        rw [if_neg (by rw [hnp]; simp)] at g2 ⊢
        revert g2
        split
        · simp [World.die]
        · split
          · simp [World.die]
          · split
            · simp [World.die]
            · intro _; exact hnp

theorem resolve_unis (w : World P V) (us : List (List (MaybeDomain V))) (p : P) : (({ w with unis := us } : World P V).resolve decl p).1 = (w.resolve decl p).1 := by
  cases e : w.idx p with
  | some i => simp only [World.resolve, e]
  | none =>
    simp only [World.resolve, e]
    exact syncAlias_same (w := w) (w' := { w with unis := us }) rfl rfl p

theorem swap_world {w : World P V} {k : Nat} {p : P} {x old : V (decl p).ty} (h : (w.swap decl k p x).1 = .ok old) :
    ∃ us, (w.swap decl k p x).2 = { (w.resolve decl p).2 with unis := us } := by
  unfold World.swap at *
  cases eu : w.unis[k]? with
  | none => rw [eu] at h; cases h
  | some u =>
    rw [eu] at h
    simp only [] at h ⊢
    rcases er : w.resolve decl p with ⟨_ | i, w1⟩
    · rw [er] at h; cases h
    · rw [er] at h
      simp only [] at h ⊢
      cases ec : cellOf u i with
      | error e => rw [ec] at h; cases h
      | ok c =>
        rw [ec] at h
        simp only [] at h ⊢
        cases ed : downcast (decl p).ty c with
        | error e => rw [ed] at h; cases h
        | ok old => exact ⟨_, rfl⟩

variable {ops : List (ROp decl)} {k k' : Nat} {p q : P}

theorem after_inv (ops : List (ROp decl)) : WInv decl (World.after decl ops) := (ledger (decl := decl) (P := P) (V := V) ops).inv

/-- What can be read after another property was written could be read before. -/
theorem set_back {x : V (decl q).ty} {v : V (decl p).ty} (h : (((World.after decl ops).set decl k q x).2.get decl k' p).1 = .ok v) :
    ∃ old, ((World.after decl ops).get decl k' p).1 = .ok old := by
  have hw := after_inv ops
  rw [set_snd] at h
  obtain ⟨a1, a2, a3, a4⟩ := swap_step hw k q x
  obtain ⟨u2, j, h1, h2, h3, h4⟩ := get_ok a1 h
  rcases a4 with ⟨e, b1, b2⟩ | ⟨u, i, old, b1, b2, b3, b4, b5, b6, b7⟩
  · rw [swap_error b1] at h
    exact ⟨v, get_back hw h⟩
  · obtain ⟨us, hs⟩ := swap_world b6
    rw [hs, resolve_unis] at h2
    have h2 := resolve_back hw h2
    rw [show ((World.after decl ops).swap decl k q x).2.unis = _ from b7] at h1
    by_cases hk : k = k'
    · subst hk
      rw [List.getElem?_set] at h1
      simp only [if_true] at h1
      split at h1
      · injection h1 with h1
        subst h1
        rw [cellOf_putCell b5] at h4
        split at h4
        · rename_i hpl
          injection h4 with h4
          have ht : (decl q).ty = (decl p).ty := congrArg Sigma.fst h4
          have hc : cellOf u j = cellOf u i := by
            unfold cellOf
            rw [hpl.1, hpl.2]
          have hold : (⟨(decl q).ty, old⟩ : Σ t, V t) = ⟨(decl p).ty, ht ▸ old⟩ := by
            rw [Sigma.mk.injEq]
            exact ⟨ht, by rw [heq_comm]; exact eqRec_heq ht old⟩
          exact ⟨ht ▸ old, get_of b1 h2 (by rw [hc, b5, hold])⟩
        · exact ⟨v, get_of b1 h2 h4⟩
      · cases h1
    · rw [List.getElem?_set_ne hk] at h1
      exact ⟨v, get_of h1 h2 h4⟩

theorem set_of_get {w : World P V} {v x : V (decl p).ty} (h : (w.get decl k p).1 = .ok v) : (w.set decl k p x).1 = .ok () := by
  rw [(C41_swap_returns w k p x).2.1, h]
  rfl

/-- Who can be read can be read after another property was written. -/
theorem set_keeps {x old : V (decl q).ty} {v : V (decl p).ty} (hq : ((World.after decl ops).get decl k' q).1 = .ok old)
    (h : ((World.after decl ops).get decl k p).1 = .ok v) : ∃ v', (((World.after decl ops).set decl k' q x).2.get decl k p).1 = .ok v' := by
  have := C40_set ops k' q x (set_of_get hq) k p v h
  cases e : (((World.after decl ops).set decl k' q x).2.get decl k p).1 with
  | ok v' => exact ⟨v', rfl⟩
  | error e' => rw [e] at this; cases this

theorem set_grows (x : V (decl q).ty) : Grows (World.after decl ops) ((World.after decl ops).set decl k q x).2 := by
  rw [set_snd]
  exact (swap_step (after_inv ops) k q x).2.1

theorem set_settles {x old : V (decl q).ty} (hq : ((World.after decl ops).get decl k q).1 = .ok old) :
    ((((World.after decl ops).set decl k q x).2).idx q).isSome = true := by
  have h := set_of_get (x := x) hq
  rw [set_fst] at h
  rw [set_snd]
  rcases (swap_step (after_inv ops) k q x).2.2.2 with ⟨e, b1, b2⟩ | ⟨u, i, old, b1, b2, b3, b4, b5, b6, b7⟩
  · rw [show ((World.after decl ops).swap decl k q x).1 = _ from b1] at h; cases h
  · rw [show ((World.after decl ops).swap decl k q x).2.idx q = _ from b4]; rfl

/-- What is read after a write: what was written if it was that property, what was there otherwise. -/
theorem set_value {x old : V (decl q).ty} {v : V (decl p).ty} (hq : ((World.after decl ops).get decl k' q).1 = .ok old)
    (h : (((World.after decl ops).set decl k' q x).2.get decl k p).1 = .ok v) :
    (PropDecl.key decl k p = PropDecl.key decl k' q ∧ (⟨_, v⟩ : Σ t, V t) = ⟨_, x⟩) ∨
    (PropDecl.key decl k p ≠ PropDecl.key decl k' q ∧ ((World.after decl ops).get decl k p).1 = .ok v) := by
  obtain ⟨old', ho⟩ := set_back h
  have := C40_set ops k' q x (set_of_get hq) k p old' ho
  rw [h] at this
  have this : (⟨_, v⟩ : Σ t, V t) = if k = k' ∧ (decl p).name = (decl q).name then ⟨_, x⟩ else ⟨_, old'⟩ := by
    simpa [Except.map] using this
  by_cases hc : k = k' ∧ (decl p).name = (decl q).name
  · rw [if_pos hc] at this
    left
    exact ⟨by unfold PropDecl.key; rw [hc.1, hc.2], this⟩
  · rw [if_neg hc] at this
    right
    refine ⟨?_, ?_⟩
    · intro he
      unfold PropDecl.key at he
      injection he with h1 h2
      exact hc ⟨h1, h2⟩
    · rw [ho]
      have : v = old' := by simpa using this
      rw [this]

end V11
