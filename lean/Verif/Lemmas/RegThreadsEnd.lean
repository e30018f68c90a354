import Verif.Lemmas.RegThreadsMore
import Mathlib.Data.Prod.Lex

/-!
# Calls of several threads: no call waits for ever, and every call ends
-/

set_option linter.unusedSimpArgs false
set_option linter.unusedSectionVars false
set_option linter.unusedVariables false

namespace V11

variable {Ty : Type} [DecidableEq Ty] {V : Ty → Type} {P : Type} [DecidableEq P] {decl : P → PropDecl V} {ι : Type} [DecidableEq ι]

section
variable {w0 : World P V} {progs : ι → List (ROp decl)} {s s' : RtSys ι decl} {i : ι} {op : ROp decl} {ph : RtPhase V} {see : Seen}

theorem build_some (hst : s.storing = none) (fin : Option Panic → List (MaybeDomain V) → R (Given V) × World P V) (u : List (MaybeDomain V)) (t : List (String ⊕ Reg)) :
    (s.build i op fin u t).isSome = true := by
  cases t with
  | nil => rfl
  | cons x t =>
    simp only [RtSys.build, hst, Option.isSome_none, Bool.false_eq_true, if_false]
    rcases s.w.buildOne u t x with ⟨_ | p, u', t'⟩ <;> rfl

theorem useProp_some (hst : s.storing = none) (k : Nat) (p : P) (hph : ph = .begun ∨ ph = .syncing ∨ ph = .resolved) : (s.useProp i see op k p ph).isSome = true := by
  rcases hph with rfl | rfl | rfl
  · simp only [RtSys.useProp, hst, Option.any_none, Bool.false_eq_true, if_false]
    cases s.w.idx p <;> rfl
  · simp only [RtSys.useProp, hst, Option.isSome_none, Bool.false_eq_true, if_false]
    rcases s.w.syncAlias decl p with ⟨_ | x, w⟩ <;> rfl
  · rfl

theorem useTable_some (hst : s.storing = none) {k : Nat} (hk : k < s.w.unis.length) (dom : String) (call : List (MaybeDomain V) → Nat → R Unit × List (MaybeDomain V))
    (hph : ph = .begun ∨ ∃ d, ph = .located d) : (s.useTable i op k dom call ph).isSome = true := by
  rcases hph with rfl | ⟨d, rfl⟩
  · simp only [RtSys.useTable, hst, Option.isSome_none, Bool.false_eq_true, if_false]
    cases s.w.getId dom <;> rfl
  · simp only [RtSys.useTable, List.getElem?_eq_getElem hk]
    rfl

theorem useNew_some (hst : s.storing = none) (ns : List String) (hph : ph = .begun ∨ ∃ u t, ph = .building u t) : (s.useNew i ns ph).isSome = true := by
  rcases hph with rfl | ⟨u, t, rfl⟩
  · simp only [RtSys.useNew, hst, Option.isSome_none, Bool.false_eq_true, if_false]
    split
    · rfl
    · cases s.w.g.getDomains (s.w.g.did2name.map .unset) ns <;> rfl
  · exact build_some hst _ u t

theorem useAdd_some (hst : s.storing = none) {k : Nat} (hk : k < s.w.unis.length) (n : String)
    (hph : ph = .begun ∨ ph = .synced ∨ (∃ d, ph = .located d) ∨ ∃ u t, ph = .building u t) : (s.useAdd i k n ph).isSome = true := by
  rcases hph with rfl | rfl | ⟨d, rfl⟩ | ⟨u, t, rfl⟩
  · simp only [RtSys.useAdd, hst, Option.isSome_none, Bool.false_eq_true, if_false, List.getElem?_eq_getElem hk]
    cases s.w.synced s.w.unis[k] <;> rfl
  · simp only [RtSys.useAdd, hst, Option.isSome_none, Bool.false_eq_true, if_false, List.getElem?_eq_getElem hk]
    cases e : s.w.getId n with
    | error e => rfl
    | ok did =>
      simp only []
      cases s.w.unis[k][did]? with
      | none => rfl
      | some m => simp only []; split <;> rfl
  · simp only [RtSys.useAdd, hst, Option.isSome_none, Bool.false_eq_true, if_false, List.getElem?_eq_getElem hk]
    split
    · rfl
    · cases s.w.g.instantiate n <;> rfl
  · exact build_some hst _ u t

/-- If nobody writes a static `Prop`, a thread can go on with its call. -/
theorem call_some (hst : s.storing = none) (hk : ∀ k, op.on = some k → k < s.w.unis.length) (hf : Fitting op ph) (hni : ph ≠ .idle) (hnd : ∀ o, ph ≠ .done o) :
    (s.call i see ph op).isSome = true := by
  cases op with
  | registerDomain n => simp [RtSys.call, hst]
  | registerTable n => simp [RtSys.call, hst]
  | addProperties n => simp [RtSys.call, hst]
  | registerProp p => simp [RtSys.call, RtSys.useReg, hst]
  | newUniverse ns =>
    refine useNew_some hst ns ?_
    cases ph <;> simp_all [Fitting, ROp.uses, ROp.tableDomain]
  | addDomain k n =>
    refine useAdd_some hst (hk k rfl) n ?_
    cases ph <;> simp_all [Fitting, ROp.uses, ROp.tableDomain]
  | get k p =>
    refine useProp_some hst k p ?_
    cases ph <;> simp_all [Fitting, ROp.uses, ROp.tableDomain]
  | set k p x =>
    refine useProp_some hst k p ?_
    cases ph <;> simp_all [Fitting, ROp.uses, ROp.tableDomain]
  | swap k p x =>
    refine useProp_some hst k p ?_
    cases ph <;> simp_all [Fitting, ROp.uses, ROp.tableDomain]
  | openTable k m b t =>
    refine useTable_some hst (hk k rfl) _ _ ?_
    cases ph <;> simp_all [Fitting, ROp.uses, ROp.tableDomain]
  | panicWriting k m t =>
    refine useTable_some hst (hk k rfl) _ _ ?_
    cases ph <;> simp_all [Fitting, ROp.uses, ROp.tableDomain]
  | registerTracker k r =>
    refine useTable_some hst (hk k rfl) _ _ ?_
    cases ph <;> simp_all [Fitting, ROp.uses, ROp.tableDomain]

/-- If nobody writes a static `Prop`, a thread that has something to do can. -/
theorem act_some (hst : s.storing = none) (ht : (s.th i).todo ≠ []) (hk : ∀ op k, s.inCall i op → op.on = some k → k < s.w.unis.length)
    (hf : ∀ op, s.inCall i op → Fitting op (s.th i).phase) (see : Seen) : (s.act i see).isSome = true := by
  unfold RtSys.act
  cases e : (s.th i).todo with
  | nil => exact absurd e ht
  | cons op rest =>
    simp only [hst, Option.any_none, Bool.false_eq_true, if_false]
    have hin : (s.th i).phase ≠ .idle → s.inCall i op := fun h => ⟨h, by rw [e]; rfl⟩
    cases ep : (s.th i).phase with
    | idle => rfl
    | done o => rfl
    | begun => exact call_some hst (fun k h => hk op k (hin (by rw [ep]; simp)) h) (by rw [← ep]; exact hf op (hin (by rw [ep]; simp))) (by simp) (by simp)
    | syncing => exact call_some hst (fun k h => hk op k (hin (by rw [ep]; simp)) h) (by rw [← ep]; exact hf op (hin (by rw [ep]; simp))) (by simp) (by simp)
    | resolved => exact call_some hst (fun k h => hk op k (hin (by rw [ep]; simp)) h) (by rw [← ep]; exact hf op (hin (by rw [ep]; simp))) (by simp) (by simp)
    | synced => exact call_some hst (fun k h => hk op k (hin (by rw [ep]; simp)) h) (by rw [← ep]; exact hf op (hin (by rw [ep]; simp))) (by simp) (by simp)
    | located d => exact call_some hst (fun k h => hk op k (hin (by rw [ep]; simp)) h) (by rw [← ep]; exact hf op (hin (by rw [ep]; simp))) (by simp) (by simp)
    | building u t => exact call_some hst (fun k h => hk op k (hin (by rw [ep]; simp)) h) (by rw [← ep]; exact hf op (hin (by rw [ep]; simp))) (by simp) (by simp)

theorem act_storing {j : ι} {p : P} (hst : s.storing = some (j, p)) (ht : (s.th j).todo ≠ []) (see : Seen) : s.act j see = some { s with storing := none } := by
  unfold RtSys.act
  cases e : (s.th j).todo with
  | nil => exact absurd e ht
  | cons op rest => simp [hst]

/-! ## Every call ends -/

/-- How much a thread has left to do. -/
def RtSys.rank (s : RtSys ι decl) (i : ι) : Nat ×ₗ Nat ×ₗ Nat ×ₗ Nat ×ₗ Nat :=
  toLex ((s.th i).todo.length, toLex ((s.th i).phase.left.1, toLex ((s.th i).phase.left.2.1, toLex ((s.th i).phase.left.2.2,
    if s.storing.any (fun x => decide (x.1 = i)) then 1 else 0))))

theorem rank_near {a b : Nat} {l l' : Nat × Nat × Nat} {x y : Nat} (hab : a = b) (h : Nearer l' l) :
    (toLex (a, toLex (l'.1, toLex (l'.2.1, toLex (l'.2.2, x)))) : Nat ×ₗ Nat ×ₗ Nat ×ₗ Nat ×ₗ Nat) < toLex (b, toLex (l.1, toLex (l.2.1, toLex (l.2.2, y)))) := by
  subst hab
  rcases h with h | ⟨h0, h | ⟨h1, h⟩⟩ <;> simp [Prod.Lex.toLex_lt_toLex, *]

theorem rank_act (h : s.act i see = some s') : s'.rank i < s.rank i ∧ ∀ j, j ≠ i → s'.rank j = s.rank j := by
  obtain ⟨op, rest, ht, ⟨hst, rfl⟩ | ⟨hst, ⟨hidle, rfl⟩ | ⟨out, hdone, rfl⟩ | ⟨hni, hnd, hc⟩⟩⟩ := act_cases h
  · refine ⟨?_, ?_⟩
    · unfold RtSys.rank
      simp [Prod.Lex.toLex_lt_toLex, hst]
    · intro j hj
      have : s.storing.any (fun x => decide (x.1 = j)) = false := by
        cases e : s.storing with
        | none => rfl
        | some x =>
          rw [e] at hst
          have hx : x.1 = i := by simpa using hst
          simp [hx, Ne.symm hj]
      unfold RtSys.rank
      simp [this]
  · refine ⟨?_, ?_⟩
    · unfold RtSys.rank
      refine rank_near (by rw [goto_todo]; rfl) ?_
      rw [goto_same, hidle]
      exact Or.inl (show 7 < 8 by decide)
    · intro j hj
      unfold RtSys.rank
      rw [goto_other _ hj]
      rfl
  · refine ⟨?_, ?_⟩
    · unfold RtSys.rank
      simp [Prod.Lex.toLex_lt_toLex, ht]
    · intro j hj
      unfold RtSys.rank
      simp only [Function.update_of_ne hj]
      rfl
  · obtain ⟨ph', evs, sh⟩ := call_shape hnd hc
    refine ⟨?_, ?_⟩
    · unfold RtSys.rank
      rw [sh.th]
      simp only [Function.update_self]
      exact rank_near rfl sh.near
    · intro j hj
      unfold RtSys.rank
      rw [sh.th]
      simp only [Function.update_of_ne hj]
      have : s'.storing.any (fun x => decide (x.1 = j)) = s.storing.any (fun x => decide (x.1 = j)) := by
        rcases sh.storing with h1 | ⟨h0, h1⟩ | ⟨h0, p', h1, -⟩
        · rw [h1]
        · rw [h0, h1]
        · rw [h0, h1]; simp [Ne.symm hj]
      rw [this]

/-- No thread can go on for ever. -/
theorem rt_ends (f : Nat → RtSys ι decl) (who : Nat → ι) (see : Nat → Seen) (hf : ∀ n, (f n).act (who n) (see n) = some (f (n + 1))) (i : ι) :
    ∃ N, ∀ n, N ≤ n → who n ≠ i := by
  have key : ∀ r : Nat ×ₗ Nat ×ₗ Nat ×ₗ Nat ×ₗ Nat, ∀ n0, (f n0).rank i = r → ∃ N, ∀ n, N ≤ n → who n ≠ i := by
    intro r
    induction r using WellFoundedLT.induction with
    | ind r ih =>
      intro n0 hr
      by_cases hx : ∃ d, who (n0 + d) = i
      · have hmin : ∀ d, (∀ d', d' < d → who (n0 + d') ≠ i) → (f (n0 + d)).rank i = r := by
          intro d
          induction d with
          | zero => intro _; exact hr
          | succ d ihd =>
            intro hd
            rw [← ihd (fun d' h => hd d' (by omega))]
            exact (rank_act (hf (n0 + d))).2 i (fun e => hd d (by omega) e.symm)
        have h1 := hmin (Nat.find hx) (fun d' h => Nat.find_min hx h)
        have h2 := (rank_act (hf (n0 + Nat.find hx))).1
        rw [Nat.find_spec hx, h1] at h2
        exact ih _ h2 _ rfl
      · refine ⟨n0, ?_⟩
        intro n hn e
        exact hx ⟨n - n0, by rw [Nat.add_sub_cancel' hn]; exact e⟩
  exact key _ 0 rfl

end
end V11
