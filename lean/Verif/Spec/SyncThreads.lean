import Verif.Model.SyncThreads

/-!
# What the history of calls says about libraries and registries
-/

namespace V11
variable {Ty : Type} {V : Ty → Type} {P : Type} {ι : Type}

/-- The registry that library `lib` has after these events: that of its last `sync_globals` that returned, or the one it started with. -/
def regOf (lib : Nat) (es : List (SyEv ι V)) : Nat :=
  es.foldl (fun r e => match e with | .synced _ l h => if l = lib then h else r | _ => r) lib

/-- A registry nobody has done anything with. -/
def Shelf.empty : Shelf V := { g := (World.empty : World Unit V).g, poisoned := false }

/-- What registry `r` is after these events: the writing sections made on it, one after another; it is poisoned if the last of them panicked. -/
def shelfOf (r : Nat) (es : List (SyEv ι V)) : Shelf V :=
  es.foldl (fun x e => match e with
    | .made _ _ r' true f => if r' = r then { g := (f x.g).1, poisoned := (f x.g).2 } else x
    | _ => x) Shelf.empty

/-- Library `lib` is shut out: one of its `sync_globals` panicked with the global locked. -/
def ShutOut (lib : Nat) (es : List (SyEv ι V)) : Prop := ∃ i h, .refused i lib h ∈ es

/-- The thread that an event is of. -/
def SyEv.who : SyEv ι V → ι
  | .began i _ => i
  | .cloned i _ _ => i
  | .made i _ _ _ _ => i
  | .synced i _ _ => i
  | .refused i _ _ => i
  | .failed i _ => i

/-- The last thing thread `i` did was to begin this call. -/
def BeganAt (es : List (SyEv ι V)) (i : ι) (op : SyOp V) : Prop :=
  ∃ a b, es = a ++ .began i op :: b ∧ ∀ e ∈ b, e.who ≠ i

/-- The last things thread `i` did were to begin this call and to get the handle of registry `r`, which was then its library's. -/
def ClonedAt (es : List (SyEv ι V)) (i : ι) (lib : Nat) (w : Bool) (f : LockedWork V) (r : Nat) : Prop :=
  ∃ a b, es = a ++ .cloned i lib r :: b ∧ (∀ e ∈ b, e.who ≠ i) ∧ BeganAt a i (.use lib w f) ∧ r = regOf lib a

/-- `sync_globals` is used as documented: with the handle of `main`, library 0, never in `main`, and once in each library. -/
def SyncedOnce (es : List (SyEv ι V)) : Prop :=
  ∀ pre post i lib h, es = pre ++ .began i (.sync lib h) :: post →
    h = 0 ∧ lib ≠ 0 ∧ ∀ j h', .began j (.sync lib h') ∉ pre

/-- And before anything else is called in the library. -/
def SyncedFirst (es : List (SyEv ι V)) : Prop :=
  ∀ pre post i lib w f, es = pre ++ .began i (.use lib w f) :: post → lib = 0 ∨ ∃ j, .synced j lib 0 ∈ pre

end V11
