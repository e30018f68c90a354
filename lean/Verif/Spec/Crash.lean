import Verif.Spec.Lists
import Verif.Spec.Merge
import Verif.Model.Table

/-!
# What the caller's panic leaves: specifications on lists

`none` in a list of rows stands for a panic of the iterator at that point.
-/

namespace V11
variable {A σ : Type}

/-- The rows an iterator yields before it panics or ends. -/
def okPrefix : List (Option A) → List A
  | [] => []
  | none :: _ => []
  | some a :: l => a :: okPrefix l

/-- What has been put in place when a `visit` of the rows `rest`, the first of which is row `i`, ends, and whether it
ends by a panic; `out` is what has come out so far, of which the positions below `i` at most are in place. -/
def visitPlaced (f : Nat → A → σ → Option (Action (Option A) × σ)) : Nat → List (Option A) → List A → σ → List A × Bool
  | _, out, [], _ => (okPrefix out, (okPrefix out).length < out.length)
  | i, out, r :: rest, s =>
    match f i r s with
    | none => (okPrefix (out.take i), true)
    | some (.brk, _) => (okPrefix (out ++ (r :: rest).map some), (okPrefix out).length < out.length)
    | some (.cont remove add, s) =>
      let out := out ++ (if remove then [] else [some r]) ++ add
      if (okPrefix out).length < out.length ∧ (okPrefix out).length ≤ i then (okPrefix out, true)
      else visitPlaced f (i + 1) out rest s

/-- `retain` up to a panic of the closure: the rows kept by then, and whether it panicked. -/
def retainPlaced (f : Nat → A → σ → Option (Bool × σ)) : Nat → List A → σ → List A × Bool
  | _, [], _ => ([], false)
  | i, r :: rest, s =>
    match f i r s with
    | none => ([], true)
    | some (keep, s) =>
      let (out, p) := retainPlaced f (i + 1) rest s
      (if keep then r :: out else out, p)

section
variable {K : Type} [LinearOrder K]

/-- The left-biased merge up to the last of the new rows. -/
def mergeUpTo (key : A → K) : List A → List A → List A
  | _, [] => []
  | [], b :: new => b :: new
  | a :: old, b :: new =>
    if key a ≤ key b then a :: mergeUpTo key old (b :: new) else b :: mergeUpTo key (a :: old) new
termination_by old new => old.length + new.length

/-- What `merge` has put in place by the last of the new rows. -/
def mergePlaced (key : A → K) (old new : List A) : List A :=
  match new with
  | [] => []
  | first :: rest =>
    old.takeWhile (fun r => key r < key first) ++ first :: mergeUpTo key (old.dropWhile (fun r => key r < key first)) rest

end

/-- The rows `new` put over the first ones of `old`. -/
def putOver (old new : List A) : List A := new ++ old.drop new.length

/-- No visit among `new`, made after `done`, panicked. -/
def CalmVisits {A : Type} (f : List (Nat × A) → Nat → A → Bool × Bool) (done new : List (Nat × A)) : Prop :=
  ∀ pre v post, new = pre ++ v :: post → (f (done ++ pre) v.1 v.2).2 = false

/-- The last visit among `new` is the only one that panicked. -/
def LastPanics {A : Type} (f : List (Nat × A) → Nat → A → Bool × Bool) (done new : List (Nat × A)) : Prop :=
  new ≠ [] ∧ ∀ pre v post, new = pre ++ v :: post → ((f (done ++ pre) v.1 v.2).2 = true ↔ post = [])

/-- A closure that looks at the id and the contents of the row it is asked about, and may panic. -/
def onRowC {S : Schema} {σ B : Type} (f : Nat → Row S → σ → Option (B × σ)) : Tbl S → Nat → σ → Option (B × σ) :=
  fun t i s => match t.getRow i with
    | .ok r => f i r s
    | .error _ => none

end V11
