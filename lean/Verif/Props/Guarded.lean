import Verif.Props.Threads
import Verif.Props.Serial

/-!
# No client program reaches an unchecked access out of bounds: C83
-/

set_option linter.unusedSectionVars false
set_option linter.unusedVariables false

namespace V11
variable {T : Type} [DecidableEq T] {S : T → Schema} [LS : ∀ t, LawfulSchema (S t)] {K : Type} [LinearOrder K]
  {key : (t : T) → Row (S t) → K} {cfg : Cfg S} {rank : T → Nat} {live : T → Bool} {ι : Type} [DecidableEq ι]
open Sys

/-- C83: any number of threads with any scripts (locks in any order, flushes, live flushes, restores, selections), any
foreign_auto graph (cyclic too), any remappings: in no state of any schedule has a thread reached an unchecked access out of bounds. -/
theorem C83_no_ub (scripts : ι → Script S) (ho : ∀ i, Guarded [] (scripts i)) (tbl : (t : T) → Tbl (S t))
    (ht : ∀ t, Reach (key t) false (tbl t)) (fl : T → FlushLock) (waits : Sys S ι → ι → Prop) (n : Nat) (s : Sys S ι)
    (hr : Run waits (startSys key cfg n tbl fl scripts) s) (i : ι) : (s.th i).prog ≠ .fail .ub := by
  intro e
  have := ((start_sound (cfg := cfg) n scripts ho tbl ht fl).run hr).careful i
  rw [e] at this
  exact this rfl

/-- C83: the same thread alone, in the universe of the single-threaded theorems, whatever guards the universe says it has
already (waiting for one of those counts as a deadlock); the tables are well formed when it returns. -/
theorem C83_alone (sc : Script S) (hs : Guarded [] sc) (n : Nat) (u : Uni S) (ht : ∀ t, Reach (key t) false (u.env.tbl t)) :
    (sc.prog key cfg n (fun _ => none)).run u ≠ .error .ub ∧
    ∀ a u', (sc.prog key cfg n (fun _ => none)).run u = .ok (a, u') → ∀ t, Reach (key t) false (u'.env.tbl t) :=
  careful_run _ [] u (cf_script n sc (fun _ => none) [] ⟨fun _ h => by (cases h), fun _ _ h => by (cases h), fun _ => Nat.zero_le _⟩ hs)
    ⟨fun _ h => by (cases h), fun _ => Nat.zero_le _, fun _ => Nat.zero_le _⟩ ht

theorem guarded_session (t : T) (ev : Event) (ops : List (LOp (S t))) (ha : ∀ op ∈ ops, op.Allowed (S t).kind) :
    Guarded [(t, .wr)] (Script.session t ev .done ops) := by
  induction ops with
  | nil => exact ⟨List.mem_cons_self, trivial⟩
  | cons op ops ih => exact ⟨List.mem_cons_self, ha op List.mem_cons_self, ih (fun op h => ha op (List.mem_cons_of_mem _ h))⟩

/-- C83: `write; calls; flush`, with all the cascades it causes, and `write; restore_extract`, whatever the extraction says. -/
theorem C83_session (n : Nat) (t : T) (ops : List (LOp (S t))) (ha : ∀ op ∈ ops, op.Allowed (S t).kind) (ev : Event) (env : Env S)
    (ht : ∀ t, Reach (key t) false (env.tbl t)) :
    session cfg n key t ops ev env ≠ .error .ub ∧
    ∀ env', session cfg n key t ops ev env = .ok env' → ∀ t, Reach (key t) false (env'.tbl t) := by
  have h := C83_alone (key := key) (cfg := cfg) (.write t (Script.session t ev .done ops)) (guarded_session t ev ops ha) n ⟨env, fun _ => .new⟩ ht
  rw [C64_session_alone] at h
  constructor
  · intro e
    rw [e, errBind] at h
    exact h.1 rfl
  · intro env' e
    rw [e, okBind] at h
    exact h.2 _ _ rfl

theorem C83_restore (n : Nat) (t : T) (sig : Sig) (own : List (Own S t)) (x : Extraction (S t)) (ev : Event) (u : Uni S)
    (ht : ∀ t, Reach (key t) false (u.env.tbl t)) :
    restore key cfg n t sig own x ev u ≠ .error .ub ∧
    ∀ a u', restore key cfg n t sig own x ev u = .ok (a, u') → ∀ t, Reach (key t) false (u'.env.tbl t) := by
  have hp : Careful (fun _ => True) key [] (do let w ← lockP t; restoreP key cfg n t sig own x ev w) (fun _ _ => True) := by
    refine Careful.bind cf_lockP ?_
    rintro h1 w ⟨rfl, hw, -⟩
    exact Careful.mono (cf_restoreP (h := [(.tbl t, .wr)]) List.mem_cons_self hw) (fun _ _ _ => trivial)
  have h := careful_run _ [] u hp ⟨fun _ h => by (cases h), fun _ => Nat.zero_le _, fun _ => Nat.zero_le _⟩ ht
  have e : (do let w ← lockP t; restoreP key cfg n t sig own x ev w : Prog S _).run u = restore key cfg n t sig own x ev u := by
    rw [Prog.run_bind, run_lockP, liftU_bind]
    unfold restore
    refine bindCongr (fun y hy => ?_)
    exact run_restoreP key cfg n sig own x ev _ _
  rw [e] at h
  exact h

theorem extractCol_safe {S : Schema} [LS : LawfulSchema S] {t : Tbl S} {L : List (Row S)} {d : Nat → Prop} (h : Aligned t L d)
    (j : Fin (S.n + 1)) (ids : List Nat) {s : (S.C j).σ} (hs : (LS.law j).Inv (fun _ => False) s)
    (hl : ((LS.law j).abs s).length + ids.length ≤ S.max + 1) :
    ids.foldlM (fun (s : (S.C j).σ) i => do
        let e ← t.cell j i
        (S.C j).push s e) s ≠ .error .ub := by
  induction ids generalizing s with
  | nil => intro e; cases e
  | cons i ids ih =>
    simp only [List.length_cons] at hl
    rw [List.foldlM_cons]
    by_cases hi : i < L.length
    · rw [h.cell j hi, okBind]
      obtain ⟨s1, a1, a2, a3⟩ := (LS.law j).push_ok (L[i] j) hs (by simp) (by omega)
      rw [a1, okBind]
      exact ih a2 (by rw [a3]; simp; omega)
    · unfold Tbl.cell
      rw [h.rep.colLen, if_pos (by omega), errBind, errBind]
      simp

/-- C83: `extract_selection` of any ids a caller lists, ids that are deleted, repeated or out of range too, as long as there
are not more of them than the table could have rows. -/
theorem C83_extract {S : Schema} [LS : LawfulSchema S] {key : Row S → K} (c : Bool) (t : Tbl S) (ht : Reach key c t) (sig : Sig)
    (sel : Select (List Nat)) (hl : ∀ ids, sel = .these ids → ids.length ≤ S.max + 1) :
    t.extractSelection sig sel ≠ .error .ub := by
  obtain ⟨L, d, h⟩ := ht.aligned
  have key : ∀ ids : List Nat, ids.length ≤ S.max + 1 → t.extractSelection sig (.these ids) ≠ .error .ub := by
    intro ids hl
    unfold Tbl.extractSelection
    simp only [okBind]
    refine bind_safe (seqFin_safe _ (fun j => ?_)) (fun _ _ => by simp)
    obtain ⟨n1, n2⟩ := (LS.law j).new_ok (fun _ => False)
    exact extractCol_safe h j ids n1 (by rw [n2]; simpa using hl)
  cases sel with
  | these ids => exact key ids (hl ids rfl)
  | all =>
    by_cases hm : L.length ≤ S.max
    · rw [extract_all h sig hm]
      refine key _ (le_trans (List.length_filter_le _ _) ?_)
      rw [List.length_range']
      omega
    · unfold Tbl.extractSelection
      simp only []
      rw [iterIds_full h (by omega), errBind]
      simp

/-! Scripts that take their locks in order are among these. -/

theorem Orderly.guarded {rank : T → Nat} {live : T → Bool} {h : List (T × Mode)} {sc : Script S} (ho : Orderly rank live h sc) : Guarded h sc := by
  induction sc generalizing h with
  | done => trivial
  | write t k ih => exact ih ho.2
  | call t op k ih => exact ⟨ho.1, ho.2.1, ih ho.2.2⟩
  | look t k ih => exact ⟨ho.1, fun x => ih x (ho.2 x)⟩
  | flush t ev k ih => exact ⟨ho.1, ih ho.2.2⟩
  | liveFlush t ev k ih => exact ⟨ho.1, ih ho.2.2.2⟩
  | restore t sig own x ev k ih => exact ⟨ho.1, ih ho.2.2.2.2⟩
  | close t k ih => exact ⟨ho.1, ih ho.2⟩
  | read t k ih => exact ih ho.2
  | unread t k ih => exact ⟨ho.1, ih ho.2⟩
  | select t ev sel k ih => exact ⟨ho.1, ih ho.2.2⟩
  | tryWrite t yes no ih1 ih2 => exact ⟨ih1 ho.1, fun e => ih2 e (ho.2 e)⟩
  | tryRead t yes no ih1 ih2 => exact ⟨ih1 ho.1, fun e => ih2 e (ho.2 e)⟩

/-- Two threads that lock the tables of the example universe against each other's order; one deletes parents, one restores children
from whatever extraction, with a foreign column. Children that reference themselves make the graph cyclic. -/
example (x : Extraction (UniS 1)) (waits : Sys UniS Bool → Bool → Prop) (fl : Fin 3 → FlushLock) (n : Nat) (s : Sys UniS Bool)
    (hr : Run waits (startSys uniKey { uniCfg with trackers := fun | 0 => [.auto uniFK01] | _ => [.auto uniFK12, .auto uniFK01] } n uniTbl fl
      (pair (.write 0 (.call 0 (.delete 0) (.call 0 (.delete 0) (.read 2 (.flush 0 evDelete .done)))))
        (.write 1 (.restore 1 (uniSig 1) [⟨0, 0, Equiv.refl Nat⟩] x evCreate (.write 1 (.write 0 .done)))))) s) (i : Bool) :
    (s.th i).prog ≠ .fail .ub := by
  refine C83_no_ub _ (fun i => ?_) uniTbl (fun t => (uniTbl_reach t).weaken) fl waits n s hr i
  cases i
  · exact ⟨List.mem_cons_self, trivial, List.mem_cons_self, trivial, by decide, trivial⟩
  · exact ⟨List.mem_cons_self, trivial⟩

/-- An unchecked access out of bounds is something the model can express: a `CheckedRowId` that outlived its row, kept by safe code
across a `clear` (C55), is outside the scripts. -/
example : (Tbl.new : Tbl (UniS 0)).cellChecked 0 0 = .error .ub := rfl

/-- Extracting ids that are deleted, repeated or out of range. -/
example (sig : Sig) : (uniTbl 0).extractSelection sig (.these [0, 0, 7]) ≠ .error .ub :=
  C83_extract true _ (uniTbl_reach 0) sig _ (by rintro ids h; injection h with h; subst h; decide)

end V11
