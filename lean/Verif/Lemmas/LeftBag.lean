import Verif.Lemmas.Leftovers
import Verif.Props.Bag

/-!
# What a loop over a bag leaves when its body panics
-/

set_option linter.unusedSimpArgs false
set_option linter.unusedSectionVars false
set_option linter.unusedVariables false

namespace V11
variable {S : Schema} [LV : LeavesSchema S]

theorem CalmVisits.nil {A : Type} (f : List (Nat × A) → Nat → A → Bool × Bool) (done : List (Nat × A)) : CalmVisits f done [] := by
  intro pre v post h
  simp at h

theorem CalmVisits.cons {A : Type} {f : List (Nat × A) → Nat → A → Bool × Bool} {done new : List (Nat × A)} {v : Nat × A}
    (hv : (f done v.1 v.2).2 = false) (h : CalmVisits f (done ++ [v]) new) : CalmVisits f done (v :: new) := by
  intro pre w post e
  cases pre with
  | nil => simp at e; obtain ⟨rfl, rfl⟩ := e; simpa using hv
  | cons a pre =>
    simp at e
    obtain ⟨rfl, e⟩ := e
    have := h pre w post e
    simpa using this

theorem LastPanics.cons {A : Type} {f : List (Nat × A) → Nat → A → Bool × Bool} {done new : List (Nat × A)} {v : Nat × A}
    (hv : (f done v.1 v.2).2 = false) (h : LastPanics f (done ++ [v]) new) : LastPanics f done (v :: new) := by
  refine ⟨by simp, ?_⟩
  intro pre w post e
  cases pre with
  | nil =>
    simp at e; obtain ⟨rfl, rfl⟩ := e
    simp [hv, h.1]
  | cons a pre =>
    simp at e
    obtain ⟨rfl, e⟩ := e
    have := h.2 pre w post e
    simpa using this

theorem LastPanics.one {A : Type} {f : List (Nat × A) → Nat → A → Bool × Bool} {done : List (Nat × A)} {v : Nat × A}
    (hv : (f done v.1 v.2).2 = true) : LastPanics f done [v] := by
  refine ⟨by simp, ?_⟩
  intro pre w post e
  cases pre with
  | nil => simp at e; obtain ⟨rfl, rfl⟩ := e; simp [hv]
  | cons a pre => simp at e

/-- The two ways a loop can end, compared with a loop without panics. -/
def BagEnds (f : List (Nat × Row S) → Nat → Row S → Bool × Bool) (k : Nat) (it : BagIter S) (done : List (Nat × Row S))
    (x : Tbl S × R Unit) : Prop :=
  (Cr.outOf x = justTbl (BagIter.run (logBody (fun seen i r => (f seen i r).1)) k it done >>= fun p => .ok p.1) ∧
    ∀ t' vs, BagIter.run (logBody (fun seen i r => (f seen i r).1)) k it done = .ok (t', vs) → ∃ new, vs = done ++ new ∧ CalmVisits f done new) ∨
  (∃ k', k' ≤ k ∧ ∀ t' vs, BagIter.run (logBody (fun seen i r => (f seen i r).1)) k' it done = .ok (t', vs) →
    x = (t', .error .userPanic) ∧ ∃ new, vs = done ++ new ∧ LastPanics f done new)

theorem cr_bagLoop (f : List (Nat × Row S) → Nat → Row S → Bool × Bool) (k : Nat) (it : BagIter S) (done : List (Nat × Row S)) :
    BagEnds f k it done (Cr.bagLoop (S := S) (COp.seeing f) k it.i it.last it.delete done it.tbl) := by
  induction k generalizing it done with
  | zero =>
    left
    refine ⟨?_, ?_⟩
    · show (Cr.bagDrop (S := S) it.last it.delete).out it.tbl = _
      rw [out_bagDrop]
      unfold BagIter.run justTbl
      cases it.drop <;> rfl
    · intro t' vs h
      unfold BagIter.run at h
      cases hd : it.drop with
      | error p => rw [hd, errBind] at h; cases h
      | ok t1 =>
        rw [hd, okBind] at h; injection h with h; injection h with h1 h2
        exact ⟨[], by simp [h2], CalmVisits.nil f done⟩
  | succ k ih =>
    unfold Cr.bagLoop
    rw [cr_ok (x := Cr.look fun t : Tbl S => .ok t.len) (t1 := it.tbl) (a := it.tbl.len) rfl]
    by_cases hi : it.i ≥ it.tbl.len
    · have hnext : it.next = .ok (none, it) := by unfold BagIter.next; rw [if_pos hi]
      left
      refine ⟨?_, ?_⟩
      · show Cr.outOf ((if it.i ≥ it.tbl.len then _ else _ : Cr S Unit) it.tbl) = _
        rw [if_pos hi]
        show (Cr.bagDrop (S := S) it.last it.delete).out it.tbl = _
        rw [out_bagDrop]
        unfold BagIter.run justTbl
        rw [hnext, okBind]
        simp only []
        cases it.drop <;> rfl
      · intro t' vs h
        unfold BagIter.run at h
        rw [hnext, okBind] at h
        simp only [] at h
        cases hd : it.drop with
        | error p => rw [hd, errBind] at h; cases h
        | ok t1 =>
          rw [hd, okBind] at h; injection h with h; injection h with h1 h2
          exact ⟨[], by simp [h2], CalmVisits.nil f done⟩
    · -- a visit of `l0` by the iterator `it1`
      have visit : ∀ (it1 : BagIter S) (l0 : Nat), it1.last = some l0 →
          it.next = (fromUsize S.max l0 >>= fun l => .ok (some l, it1)) →
          BagEnds f (k + 1) it done ((do
            let l ← Cr.lift (fromUsize S.max l0)
            let r ← Cr.look (Tbl.getRow · l)
            let ((mark, panics), s) := COp.seeing f l r done
            if panics then do
              Cr.bagDrop (some l0) mark
              Cr.fail .userPanic
            else Cr.bagLoop (COp.seeing f) k it1.i (some l0) mark s : Cr S Unit) it1.tbl) := by
        intro it1 l0 hlast hnext
        cases hl : fromUsize S.max l0 with
        | error p =>
          left
          rw [hl, errBind] at hnext
          refine ⟨?_, ?_⟩
          · rw [cr_err (x := Cr.lift (S := S) (.error p)) (t1 := it1.tbl) (p := p) rfl]
            unfold BagIter.run
            rw [hnext, errBind]; rfl
          · intro t' vs h
            unfold BagIter.run at h
            rw [hnext, errBind] at h; cases h
        | ok l =>
          rw [hl, okBind] at hnext
          rw [cr_ok (x := Cr.lift (S := S) (.ok l)) (t1 := it1.tbl) (a := l) rfl]
          cases hr : it1.tbl.getRow l with
          | error p =>
            left
            refine ⟨?_, ?_⟩
            · rw [cr_err (x := Cr.look (S := S) (Tbl.getRow · l)) (t1 := it1.tbl) (p := p) (by simp [Cr.look, hr])]
              unfold BagIter.run
              rw [hnext, okBind]
              simp only []
              rw [hr, errBind]; rfl
            · intro t' vs h
              unfold BagIter.run at h
              rw [hnext, okBind] at h
              simp only [] at h
              rw [hr, errBind] at h; cases h
          | ok r =>
            rw [cr_ok (x := Cr.look (S := S) (Tbl.getRow · l)) (t1 := it1.tbl) (a := r) (by simp [Cr.look, hr])]
            have hrun : ∀ n, BagIter.run (logBody (fun seen i r => (f seen i r).1)) (n + 1) it done =
                BagIter.run (logBody (fun seen i r => (f seen i r).1)) n { it1 with delete := (f done l r).1 } (done ++ [(l, r)]) := by
              intro n
              conv_lhs => unfold BagIter.run
              rw [hnext, okBind]
              simp only []
              rw [hr, okBind]
              rfl
            show BagEnds f (k + 1) it done ((if (f done l r).2 = true then (Cr.bagDrop (some l0) (f done l r).1 >>= fun _ => Cr.fail .userPanic)
              else Cr.bagLoop (COp.seeing f) k it1.i (some l0) (f done l r).1 (done ++ [(l, r)]) : Cr S Unit) it1.tbl)
            by_cases hp : (f done l r).2 = true
            · rw [if_pos hp]
              right
              refine ⟨1, by omega, ?_⟩
              intro t' vs h
              rw [hrun 0] at h
              unfold BagIter.run at h
              cases hd : BagIter.drop { it1 with delete := (f done l r).1 } with
              | error p => rw [hd, errBind] at h; cases h
              | ok t1 =>
                rw [hd, okBind] at h; injection h with h; injection h with h1 h2
                subst h1 h2
                have := out_bagDrop ({ it1 with delete := (f done l r).1 } : BagIter S)
                rw [hd] at this
                simp only [hlast] at this
                have hd' : Cr.bagDrop (S := S) (some l0) (f done l r).1 it1.tbl = (t1, .ok ()) := out_ok.1 this
                refine ⟨?_, [(l, r)], rfl, LastPanics.one hp⟩
                rw [cr_ok hd']; rfl
            · rw [if_neg hp]
              have hp' : (f done l r).2 = false := by simpa using hp
              have IH := ih { it1 with delete := (f done l r).1 } (done ++ [(l, r)])
              simp only [hlast] at IH hrun
              rcases IH with ⟨a, b⟩ | ⟨k', hk', b⟩
              · left
                refine ⟨by rw [a, hrun], ?_⟩
                intro t' vs h
                rw [hrun] at h
                obtain ⟨new, e, q⟩ := b t' vs h
                exact ⟨(l, r) :: new, by simp [e], CalmVisits.cons hp' q⟩
              · right
                refine ⟨k' + 1, by omega, ?_⟩
                intro t' vs h
                rw [hrun] at h
                obtain ⟨e1, new, e, q⟩ := b t' vs h
                exact ⟨e1, (l, r) :: new, by simp [e], LastPanics.cons hp' q⟩
      show BagEnds f (k + 1) it done ((if it.i ≥ it.tbl.len then _ else _ : Cr S Unit) it.tbl)
      rw [if_neg hi]
      cases hdel : it.delete with
      | false =>
        have hnext : it.next = (fromUsize S.max it.i >>= fun l => .ok (some l, { it with delete := false, last := some it.i, i := it.i + 1 })) := by
          unfold BagIter.next
          rw [if_neg hi]
          simp only [hdel, Bool.false_eq_true, if_false, okBind]
        rw [cr_ok (x := Cr.bagStep (S := S) false it.last it.i) (t1 := it.tbl) (a := (it.i + 1, some it.i)) rfl]
        exact visit { it with delete := false, last := some it.i, i := it.i + 1 } it.i rfl hnext
      | true =>
        cases hlast : it.last with
        | none =>
          have hnext : it.next = .error .unwrapNone := by
            unfold BagIter.next
            rw [if_neg hi]
            simp only [hdel, hlast, if_true, errBind]
          left
          refine ⟨?_, ?_⟩
          · rw [cr_err (x := Cr.bagStep (S := S) true none it.i) (t1 := it.tbl) (p := .unwrapNone) rfl]
            unfold BagIter.run
            rw [hnext, errBind]; rfl
          · intro t' vs h
            unfold BagIter.run at h
            rw [hnext, errBind] at h; cases h
        | some l =>
          have hnext : it.next = (fromUsize S.max l >>= fun l' => BagIter.bagDelete it.tbl l' >>= fun t =>
              fromUsize S.max l >>= fun l'' => .ok (some l'', { it with tbl := t, delete := false })) := by
            unfold BagIter.next
            rw [if_neg hi]
            simp only [hdel, hlast, if_true, errBind, bindAssoc, okBind]
          have hstep : Cr.bagStep (S := S) true (some l) it.i = (do
              let l ← Cr.lift (fromUsize S.max l)
              Cr.bagDelete l
              Cr.ret (it.i, some l)) := rfl
          rw [hstep]
          have fails : ∀ (x : Cr S (Nat × Option Nat)) (t1 : Tbl S) (p : Panic) (g : Nat × Option Nat → Cr S Unit), x it.tbl = (t1, .error p) →
              it.next = .error p → BagEnds f (k + 1) it done ((x >>= g) it.tbl) := by
            intro x t1 p g hx hn
            left
            refine ⟨?_, ?_⟩
            · rw [cr_err hx]
              unfold BagIter.run
              rw [hn, errBind]; rfl
            · intro t' vs h
              unfold BagIter.run at h
              rw [hn, errBind] at h; cases h
          cases hu : fromUsize S.max l with
          | error p =>
            rw [hu] at hnext
            simp only [errBind] at hnext
            exact fails _ it.tbl p _ (cr_err rfl) hnext
          | ok l1 =>
            obtain ⟨rfl, -⟩ := fromUsize_le hu
            rw [hu, okBind] at hnext
            have ho := out_bagDelete l1 it.tbl
            cases hb : BagIter.bagDelete it.tbl l1 with
            | error p =>
              rw [hb] at hnext ho
              simp only [errBind] at hnext
              have hx : (Cr.bagDelete (S := S) l1 it.tbl).2 = .error p := out_err.1 (by rw [ho]; rfl)
              refine fails _ (Cr.bagDelete (S := S) l1 it.tbl).1 p _ ?_ hnext
              rw [cr_ok (x := Cr.lift (S := S) (.ok l1)) (t1 := it.tbl) (a := l1) rfl]
              exact cr_err (by rw [← hx])
            | ok t2 =>
              rw [hb] at hnext ho
              simp only [okBind, hlast] at hnext
              have hx : Cr.bagDelete (S := S) l1 it.tbl = (t2, .ok ()) := out_ok.1 (by rw [ho]; rfl)
              have hs : (do
                  let l ← Cr.lift (.ok l1)
                  Cr.bagDelete l
                  Cr.ret (it.i, some l) : Cr S (Nat × Option Nat)) it.tbl = (t2, .ok (it.i, some l1)) := by
                rw [cr_ok (x := Cr.lift (S := S) (.ok l1)) (t1 := it.tbl) (a := l1) rfl, cr_ok hx]; rfl
              rw [cr_ok hs]
              have := visit { it with tbl := t2, delete := false } l1 hlast (by
                rw [hnext, hu, okBind]
                simp only [hlast])
              exact this

end V11
