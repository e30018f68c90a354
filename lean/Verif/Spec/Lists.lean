import Verif.Model.Rug

/-!
# Specifications of the list-like operations, independent of the tables
-/

namespace V11

/-- What `visit` should do to the list of rows: `f i s` is the decision for the row at original position
`i`, threading the closure's state. -/
def visitSpec {A σ : Type} (f : Nat → σ → Action A × σ) : Nat → List A → σ → List A × σ
  | _, [], s => ([], s)
  | i, r :: rs, s =>
    match f i s with
    | (.brk, s) => (r :: rs, s)
    | (.cont remove add, s) =>
      let (out, s) := visitSpec f (i + 1) rs s
      ((if remove then [] else [r]) ++ add ++ out, s)

/-- What `retain` should do: keep the rows for which `f` says so, in order. -/
def retainSpec {A σ : Type} (f : Nat → σ → Bool × σ) : Nat → List A → σ → List A × σ
  | _, [], s => ([], s)
  | i, r :: rs, s =>
    let (keep, s) := f i s
    let (out, s) := retainSpec f (i + 1) rs s
    (if keep then r :: out else out, s)

theorem visitSpec_congr {A σ : Type} {f g : Nat → σ → Action A × σ} {i : Nat} (l : List A) (s : σ)
    (h : ∀ k, i ≤ k → f k = g k) : visitSpec f i l s = visitSpec g i l s := by
  induction l generalizing i s with
  | nil => rfl
  | cons r rs ih =>
    simp only [visitSpec, h i (le_refl i)]
    split
    · rfl
    · rw [ih _ (fun k hk => h k (by omega))]

/-- `retain` is `visit` with no additions. -/
theorem visitSpec_retain {A σ : Type} (f : Nat → σ → Bool × σ) (i : Nat) (l : List A) (s : σ) :
    visitSpec (fun i s => (.cont (!(f i s).1) [], (f i s).2)) i l s = retainSpec f i l s := by
  induction l generalizing i s with
  | nil => rfl
  | cons r rs ih =>
    simp only [visitSpec, retainSpec]
    rw [ih]
    cases (f i s).1 <;> rfl

theorem retainSpec_length {A σ : Type} (f : Nat → σ → Bool × σ) (i : Nat) (l : List A) (s : σ) :
    (retainSpec f i l s).1.length ≤ l.length := by
  induction l generalizing i s with
  | nil => simp [retainSpec]
  | cons r rs ih =>
    simp only [retainSpec]
    have := ih (i + 1) (f i s).2
    split <;> simp <;> omega

/-- `retain` with a closure that looks at the id and the contents of the row it is asked about. -/
def retainRows {A σ : Type} (f : Nat → A → σ → Bool × σ) : Nat → List A → σ → List A × σ
  | _, [], s => ([], s)
  | i, r :: rs, s =>
    let (keep, s) := f i r s
    let (out, s) := retainRows f (i + 1) rs s
    (if keep then r :: out else out, s)

/-- `visit` with a closure that looks at the id and the contents of the row it is asked about: the row
itself unless removed, then the added rows, then the rest; after `Break` the rest is kept as it is. -/
def visitRows {A σ : Type} (f : Nat → A → σ → Action A × σ) : Nat → List A → σ → List A × σ
  | _, [], s => ([], s)
  | i, r :: rs, s =>
    match f i r s with
    | (.brk, s) => (r :: rs, s)
    | (.cont remove add, s) =>
      let (out, s) := visitRows f (i + 1) rs s
      ((if remove then [] else [r]) ++ add ++ out, s)

/-- Position `i` is taken by the last element, and the list is one shorter (`Vec::swap_remove`). -/
def swapRemove {A : Type} (l : List A) (i : Nat) : List A :=
  match l.getLast? with
  | none => []
  | some last => (l.set i last).dropLast

end V11
