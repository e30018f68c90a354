import Verif.Spec.Threads

/-!
# A table used as a mutex

Client code that does every piece of work while it has the write guard of one table, which it uses for nothing else.
-/

namespace V11
variable {T : Type} [DecidableEq T] {S : T → Schema}

/-- `a; b`. -/
def Script.andThen : Script S → Script S → Script S
  | .done, b => b
  | .write t k, b => .write t (k.andThen b)
  | .call t op k, b => .call t op (k.andThen b)
  | .look t k, b => .look t (fun x => (k x).andThen b)
  | .flush t ev k, b => .flush t ev (k.andThen b)
  | .liveFlush t ev k, b => .liveFlush t ev (k.andThen b)
  | .restore t sig own x ev k, b => .restore t sig own x ev (k.andThen b)
  | .close t k, b => .close t (k.andThen b)
  | .read t k, b => .read t (k.andThen b)
  | .unread t k, b => .unread t (k.andThen b)
  | .select t ev sel k, b => .select t ev sel (k.andThen b)
  | .tryWrite t yes no, b => .tryWrite t (yes.andThen b) (fun e => (no e).andThen b)
  | .tryRead t yes no, b => .tryRead t (yes.andThen b) (fun e => (no e).andThen b)

/-- The script itself never asks for a guard of `m`. -/
def Script.Spares (m : T) : Script S → Prop
  | .done => True
  | .write t k => t ≠ m ∧ k.Spares m
  | .call _ _ k => k.Spares m
  | .look _ k => ∀ x, (k x).Spares m
  | .flush _ _ k => k.Spares m
  | .liveFlush _ _ k => k.Spares m
  | .restore _ _ _ _ _ k => k.Spares m
  | .close _ k => k.Spares m
  | .read t k => t ≠ m ∧ k.Spares m
  | .unread _ k => k.Spares m
  | .select _ _ _ k => k.Spares m
  | .tryWrite t yes no => t ≠ m ∧ yes.Spares m ∧ ∀ e, (no e).Spares m
  | .tryRead t yes no => t ≠ m ∧ yes.Spares m ∧ ∀ e, (no e).Spares m

/-- A piece of work: starts and ends without guards, uses guards as the compiler demands, and does not ask for `m`. -/
def Script.Work (m : T) (b : Script S) : Prop := GuardedTo (fun h => h = []) [] b ∧ b.Spares m

/-- A thread that does these, one after another, each while it has the write guard of `m`. -/
def Script.each (m : T) : List (Script S) → Script S
  | [] => .done
  | b :: rest => .write m (b.andThen (.close m (Script.each m rest)))

/-- Pieces of work done one after another by one thread, with nobody else around: each of them returns. -/
inductive Serially {K : Type} [LinearOrder K] (key : (t : T) → Row (S t) → K) (cfg : Cfg S) (n : Nat) (u : Uni S) : List (Script S) → Uni S → Prop
  | nil : Serially key cfg n u [] u
  | snoc {l : List (Script S)} {b : Script S} {v w : Uni S} : Serially key cfg n u l v →
      (b.prog key cfg n (fun _ => none)).run v = .ok ((), w) → Serially key cfg n u (l ++ [b]) w

end V11
