import Verif.Model.Context

/-!
# `context!` among threads

Only the locks matter here: what a thread's contexts lock and release, in which order. `Model/Context` is about one thread;
`C81_agrees` says that the actions below are those it performs.
-/

namespace V11

/-- One lock taken or dropped. -/
inductive CAct where
  | acq (ty : LockTy)
  | rel (ty : LockTy)
deriving DecidableEq

/-- What `release_fields` (src/context.rs:101-135, 151-170) does with the fields of the old context, as `releaseField` does:
fields that are moved fill slots, the others are dropped (second component). -/
def place (slots : List (LockTy × Bool)) : List LockTy → List (LockTy × Bool) × List LockTy
  | [] => (slots, [])
  | g :: gs =>
    match slots.findIdx? (fun s => s.1.name = g.name) with
    | none => ((place slots gs).1, g :: (place slots gs).2)
    | some i =>
      match slots[i]? with
      | some (ty, false) => place (slots.set i (ty, true)) gs
      | _ => ((place slots gs).1, g :: (place slots gs).2)

/-- `$name::from(universe, old)` (src/context.rs:140-185). -/
def fromActs (fields old : List LockTy) : List CAct :=
  let r := place (fields.map (·, false)) old
  r.2.map .rel ++ (r.1.filter (!·.2)).map (.acq ·.1)

/-- What a thread does with contexts. `stack` are those it has, the newest first. -/
inductive CtxOp where
  /-- `let c = ctx::new(universe);` (src/context.rs:88-93) -/
  | new (fields : List LockTy)
  /-- `let c = ctx::from(universe, (c1, …));` with the newest `k` contexts (src/context.rs:140-185, 205-256) -/
  | from (fields : List LockTy) (k : Nat)
  /-- `drop(c);` of the newest -/
  | drop

/-- The locks it takes and drops, to the end, where all contexts are dropped. -/
def ctxActs : List CtxOp → List (List LockTy) → List CAct
  | [], stack => stack.flatten.map .rel
  | .new fields :: ops, stack => fields.map .acq ++ ctxActs ops (fields :: stack)
  | .from fields k :: ops, stack => fromActs fields (stack.take k).flatten ++ ctxActs ops (fields :: stack.drop k)
  | .drop :: ops, [] => ctxActs ops []
  | .drop :: ops, c :: stack => c.map .rel ++ ctxActs ops stack

/-- A thread: what it still has to do, and the locks it has. -/
structure CThread where
  todo : List CAct
  held : List LockTy

/-- The threads of a process. -/
abbrev CSys (ι : Type) := ι → CThread

namespace CSys
variable {ι : Type} [DecidableEq ι]

/-- Nobody has a lock that excludes this one. -/
def Free (s : CSys ι) (ty : LockTy) : Prop := ∀ j, ∀ g ∈ (s j).held, conflicts g ty = false

/-- What thread `i` can do next. -/
inductive Step (s : CSys ι) (i : ι) : CSys ι → Prop
  | acq {ty k} : (s i).todo = .acq ty :: k → s.Free ty → Step s i (Function.update s i ⟨k, ty :: (s i).held⟩)
  | rel {ty k} : (s i).todo = .rel ty :: k → Step s i (Function.update s i ⟨k, (s i).held.erase ty⟩)

/-- std does not say whether a reader must wait when a writer is waiting. -/
def MayWait (waits : CSys ι → ι → Prop) : Prop :=
  ∀ s i, waits s i → ∃ ty k, (s i).todo = .acq ty :: k ∧ ty.write = false ∧
    ∃ j ty' k', j ≠ i ∧ (s j).todo = .acq ty' :: k' ∧ ty'.write = true ∧ ty'.res = ty.res

/-- Steps of any threads in any order. -/
inductive Run (waits : CSys ι → ι → Prop) (s : CSys ι) : CSys ι → Prop
  | start : Run waits s s
  | step {s' s'' : CSys ι} {i : ι} : Run waits s s' → Step s' i s'' → ¬ waits s' i → Run waits s s''

/-- Threads about to run these programs. -/
def start (progs : ι → List CtxOp) : CSys ι := fun i => ⟨ctxActs (progs i) [], []⟩

end CSys
end V11
