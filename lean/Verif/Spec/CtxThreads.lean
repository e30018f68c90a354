import Verif.Model.CtxThreads

/-!
# Contexts in one order
-/

namespace V11

/-- The fields are listed from higher to lower rank. -/
def Listed (rank : Nat → Nat) (fields : List LockTy) : Prop := fields.Pairwise (fun a b => rank b.res < rank a.res)

/-- A thread that asks for locks from higher to lower rank only: every context lists its fields in that order, a new context
has only fields below all it holds, and what `from` has to lock is below everything it keeps and everything else held. -/
def Courteous (rank : Nat → Nat) : List CtxOp → List (List LockTy) → Prop
  | [], _ => True
  | .new fields :: ops, stack => Listed rank fields ∧ (∀ f ∈ fields, ∀ g ∈ stack.flatten, rank f.res < rank g.res) ∧
      Courteous rank ops (fields :: stack)
  | .from fields k :: ops, stack => Listed rank fields ∧
      (∀ f ∈ fields, f ∉ (stack.take k).flatten →
        (∀ g ∈ fields, g ∈ (stack.take k).flatten → rank f.res < rank g.res) ∧ ∀ g ∈ (stack.drop k).flatten, rank f.res < rank g.res) ∧
      Courteous rank ops (fields :: stack.drop k)
  | .drop :: ops, stack => Courteous rank ops stack.tail

/-- The lock types the program mentions. -/
def CtxOp.types : CtxOp → List LockTy
  | .new fields | .from fields _ => fields
  | .drop => []

/-- A thread that has one context at a time, and drops it before it makes the next. -/
def oneByOne (ctxs : List (List LockTy)) : List CtxOp := ctxs.flatMap fun c => [.new c, .drop]

namespace CSys
variable {ι : Type} [DecidableEq ι]

/-- Not all have finished and none goes on, under this policy of letting readers wait for waiting writers. -/
def Halted (waits : CSys ι → ι → Prop) (s : CSys ι) : Prop := (∃ i, (s i).todo ≠ []) ∧ ∀ i s', Step s i s' → waits s i

/-- Readers never wait for waiting writers. -/
def eager : CSys ι → ι → Prop := fun _ _ => False

/-- Two threads. -/
def two (a b : List CtxOp) : Bool → List CtxOp := fun i => if i then b else a

end CSys

/-- Two contexts can block each other: there is a point in each such that what the two threads have by then is compatible,
and each one's next lock is excluded by what the other has. -/
def CanBlock (a b : List LockTy) : Prop :=
  ∃ i j x y, a[i]? = some x ∧ b[j]? = some y ∧ (∀ g ∈ a.take i, ∀ h ∈ b.take j, conflicts g h = false) ∧
    (∃ h ∈ b.take j, conflicts h x = true) ∧ ∃ g ∈ a.take i, conflicts g y = true

end V11
