import Verif.Lemmas.Salvage

/-!
# Panics other than an overflow of the row id keep the columns aligned
-/

set_option linter.unusedSimpArgs false
set_option linter.unusedSectionVars false
set_option linter.unusedVariables false

namespace V11
variable {S : Schema} [LS : LawfulSchema S] [LV : LeavesSchema S]

/-- Some aligned contents. -/
def IsAligned (t : Tbl S) : Prop := ∃ L d, Aligned t L d

/-- From an aligned table satisfying `P` the call panics with an overflow or leaves an aligned table, and if it
returns `a` then `Q a` holds of the table. -/
def Keep {α : Type} (P : Tbl S → Prop) (x : Cr S α) (Q : α → Tbl S → Prop) : Prop :=
  ∀ t, IsAligned t → P t → ((x t).2 = .error .idxOverflow ∨ IsAligned (x t).1) ∧ ∀ a, (x t).2 = .ok a → Q a (x t).1

section
omit LV
variable {α β : Type} {P P' : Tbl S → Prop}

theorem Keep.bind {x : Cr S α} {f : α → Cr S β} {Q : α → Tbl S → Prop} {Q' : β → Tbl S → Prop} (hx : Keep P x Q)
    (hf : ∀ a, Keep (Q a) (f a) Q') : Keep P (x >>= f) Q' := by
  intro t ht hp
  obtain ⟨h1, h3⟩ := hx t ht hp
  have e : (x >>= f) t = match x t with | (t, .ok a) => f a t | (t, .error p) => (t, .error p) := rfl
  rw [e]
  cases hr : x t with
  | mk t' r =>
    rw [hr] at h1 h3
    cases r with
    | ok a =>
      rcases h1 with h1 | h1
      · cases h1
      · exact hf a t' h1 (h3 a rfl)
    | error p =>
      refine ⟨?_, fun a ha => nomatch ha⟩
      rcases h1 with h1 | h1
      · left; injection h1 with h1; rw [h1]
      · exact Or.inr h1

theorem Keep.ret {a : α} {Q : α → Tbl S → Prop} (h : ∀ t, P t → Q a t) : Keep P (Cr.ret a) Q :=
  fun t ht hp => ⟨Or.inr ht, fun b hb => by injection hb with hb; subst hb; exact h t hp⟩

theorem Keep.fail {p : Panic} {Q : α → Tbl S → Prop} : Keep P (Cr.fail p) Q :=
  fun t ht hp => ⟨Or.inr ht, fun b hb => nomatch hb⟩

theorem Keep.look {f : Tbl S → R α} {Q : α → Tbl S → Prop} (hq : ∀ t a, IsAligned t → P t → f t = .ok a → Q a t) : Keep P (Cr.look f) Q :=
  fun t ht hp => ⟨Or.inr ht, fun a ha => hq t a ht hp ha⟩

theorem Keep.lift {r : R α} {Q : α → Tbl S → Prop} (hq : ∀ t a, P t → r = .ok a → Q a t) : Keep P (Cr.lift r) Q :=
  fun t ht hp => ⟨Or.inr ht, fun a ha => hq t a hp ha⟩

theorem Keep.weaken {x : Cr S α} {Q Q' : α → Tbl S → Prop} (hx : Keep P x Q) (hp : ∀ t, P' t → P t)
    (hq : ∀ a t, Q a t → Q' a t) : Keep P' x Q' := by
  intro t ht h
  obtain ⟨h1, h3⟩ := hx t ht (hp t h)
  exact ⟨h1, fun a ha => hq a _ (h3 a ha)⟩

theorem Keep.ite {b : Prop} [Decidable b] {x y : Cr S α} {Q : α → Tbl S → Prop} (hx : b → Keep P x Q) (hy : ¬ b → Keep P y Q) :
    Keep P (if b then x else y) Q := by
  by_cases h : b
  · rw [if_pos h]; exact hx h
  · rw [if_neg h]; exact hy h

end

/-- From what the other model says. -/
theorem keep_of_out {α : Type} {P : Tbl S → Prop} {x : Cr S α} {Q : α → Tbl S → Prop}
    (h : ∀ t, IsAligned t → P t → x.out t = .error .idxOverflow ∨ ∃ t' a, x.out t = .ok (t', a) ∧ IsAligned t' ∧ Q a t') : Keep P x Q := by
  intro t ht hp
  rcases h t ht hp with h | ⟨t', a, h1, h2, h3⟩
  · have e := out_err.1 h
    exact ⟨Or.inl e, fun a ha => by rw [e] at ha; cases ha⟩
  · have e := out_ok.1 h1
    refine ⟨Or.inr (by rw [e]; exact h2), fun b hb => ?_⟩
    rw [e] at hb ⊢
    injection hb with hb
    subst hb
    exact h3

omit LV in
theorem Aligned.sub {t t' : Tbl S} {L L' : List (Row S)} {d d' : Nat → Prop} (h : Aligned t L d) (hr : Rep t' d' L')
    (hf : t'.free = t.free) (hd : S.kind ≠ .consistent → ∀ i, ¬ d' i) : Aligned t' L' d' :=
  ⟨hr, by rw [hf]; exact h.ok, fun hk => ⟨by rw [hf]; exact (h.kind hk).1, hd hk⟩⟩

theorem Keep.clearRaw : Keep Any (Cr.clearRaw (S := S)) (fun _ _ => True) := by
  refine keep_of_out (fun t ⟨L, d, h⟩ _ => Or.inr ?_)
  obtain ⟨t', e1, e2, e3⟩ := h.rep.clearRaw (fun _ => False)
  exact ⟨t', (), by rw [out_clearRaw, e1]; rfl, ⟨[], _, h.sub e2 e3 (fun _ _ => id)⟩, trivial⟩

theorem Keep.pushOnly (row : Row S) : Keep Any (Cr.pushOnly (S := S) row) (fun _ _ => True) := by
  refine keep_of_out (fun t ⟨L, d, h⟩ _ => ?_)
  rw [out_pushOnly]
  by_cases hl : L.length ≤ S.max
  · have hr : Rep t (fun i => d i ∧ i < L.length) L := h.rep.congr (fun i hi => by simp [hi])
    obtain ⟨t', e1, e2, e3⟩ := hr.pushOnly row (by simp) hl
    exact Or.inr ⟨t', _, e1, ⟨_, _, h.sub e2 e3 (fun hk i hi => (h.kind hk).2 i hi.1)⟩, trivial⟩
  · exact Or.inl (h.rep.pushOnly_full row (by have := h.rep.le; omega))

theorem Keep.truncate (n : Nat) : Keep Any (Cr.truncate (S := S) n) (fun _ _ => True) := by
  refine keep_of_out (fun t ⟨L, d, h⟩ _ => Or.inr ?_)
  obtain ⟨t', e1, e2, e3⟩ := h.rep.truncate n
  exact ⟨t', (), by rw [out_truncate, e1]; rfl, ⟨_, _, h.sub e2 e3 (fun hk => (h.kind hk).2)⟩, trivial⟩

theorem Keep.swapOutRow (i : Nat) (row : Row S) : Keep Any (Cr.swapOutRow (S := S) i row) (fun _ _ => True) := by
  intro t ht _
  obtain ⟨L, d, h⟩ := ht
  cases hc : t.check i with
  | error p =>
    have e : Cr.swapOutRow (S := S) i row t = (t, .error p) := by
      show Cr.andThen (Cr.look (Tbl.check · i)) (fun a => Cr.swapOutRaw a row) t = _
      simp only [Cr.andThen, Cr.look, hc]
    rw [e]
    exact ⟨Or.inr ⟨L, d, h⟩, fun _ h => nomatch h⟩
  | ok a =>
    obtain ⟨rfl, hi⟩ := check_ok hc
    rw [h.rep.len] at hi
    obtain ⟨t', e1, e2, e3⟩ := h.rep.swapOutRaw row hi
    have e : (Cr.swapOutRow (S := S) a row).out t = .ok (t', L[a]) := by
      rw [out_swapOutRow]; unfold Tbl.swapOutRow; rw [hc, okBind, e1]
    rw [out_ok.1 e]
    exact ⟨Or.inr ⟨_, _, h.sub e2 e3 (fun hk i hi => (h.kind hk).2 i hi.1)⟩, fun _ _ => trivial⟩

theorem Keep.deleteRaw (i n : Nat) : Keep (fun t => S.kind = .consistent → i < n ∧ n ≤ t.len) (Cr.deleteRaw (S := S) i)
    (fun _ t => S.kind = .consistent → n ≤ t.len) := by
  intro t ht hp
  obtain ⟨L, d, h⟩ := ht
  by_cases hk : S.kind = .consistent
  · obtain ⟨hi, hn⟩ := hp hk
    rw [h.rep.len] at hn
    have hle := h.rep.le
    obtain ⟨t', e1, e2, e3⟩ := h.rep.deletedCols (i := i) (by omega)
    have e : (Cr.deleteRaw (S := S) i).out t = .ok ({ t' with free := BSet.insert i t'.free }, ()) := by
      rw [out_deleteRaw]
      unfold Tbl.deleteRaw
      simp only [hk]
      rw [e1, okBind]
      have : fromUsize S.max i = .ok i := by unfold fromUsize; rw [if_pos (by omega)]
      rw [this, okBind]
      rfl
    rw [out_ok.1 e]
    refine ⟨Or.inr ⟨L, _, e2.free_irrel _, ?_, fun h => absurd hk h⟩, fun _ _ _ => ?_⟩
    · show BSet.Ok (BSet.insert i t'.free)
      rw [e3]; exact BSet.ok_insert h.ok
    · show n ≤ Tbl.len _
      rw [(e2.free_irrel _).len]; exact hn
  · refine ⟨?_, fun _ _ h => absurd h hk⟩
    by_cases hb : S.kind = .bag
    · have hw := h.wf hk
      have hf := (h.kind hk).1
      by_cases h0 : t.len = 0
      · have e : Cr.deleteRaw (S := S) i t = (t, .error .subOverflow) := by
          have e : (Cr.deleteRaw (S := S) i) = Cr.andThen (Cr.look fun t => .ok t.len) (fun len =>
              if len = 0 then Cr.fail .subOverflow
              else do
                if i < len - 1 then Cr.swapRaw i (len - 1) else Cr.ret ()
                Cr.truncate (len - 1)) := by
            unfold Cr.deleteRaw
            simp only [hb]
            rfl
          rw [e]
          simp only [Cr.andThen, Cr.look, h0, if_true]
          rfl
        rw [e]
        exact Or.inr ⟨L, d, h⟩
      · have hL := h0
        rw [h.rep.len] at hL
        have : ∃ t' L', t.deleteRaw i = .ok t' ∧ WF t' L' := by
          unfold Tbl.deleteRaw
          simp only [hb, if_neg h0]
          by_cases hi : i < t.len - 1
          · rw [if_pos hi]
            rw [hw.len] at hi ⊢
            obtain ⟨t1, e1, e2, e3⟩ := hw.rep.swapRaw (a := i) (b := L.length - 1) (by omega) (by omega) (by simp [hf]) (by simp [hf])
            rw [e1, okBind]
            have e2' : Rep t1 (· ∈ t1.free) ((L.set i L[L.length - 1]).set (L.length - 1) L[i]) := by rw [e3]; exact e2
            obtain ⟨t2, g1, g2, g3⟩ := e2'.truncate (L.length - 1)
            have g2' := g2
            rw [← g3] at g2'
            exact ⟨t2, _, g1, ⟨g2', by rw [g3, e3, hf]; exact BSet.ok_nil, by simp [g3, e3, hf], fun _ => by rw [g3, e3, hf]⟩⟩
          · rw [if_neg hi, okBind]
            obtain ⟨t2, g1, g2, g3⟩ := hw.rep.truncate (t.len - 1)
            have g2' := g2
            rw [← g3] at g2'
            exact ⟨t2, _, g1, ⟨g2', by rw [g3, hf]; exact BSet.ok_nil, by simp [g3, hf], fun _ => by rw [g3, hf]⟩⟩
        obtain ⟨t', L', e1, e2⟩ := this
        have e : (Cr.deleteRaw (S := S) i).out t = .ok (t', ()) := by rw [out_deleteRaw, e1]; rfl
        rw [out_ok.1 e]
        exact Or.inr ⟨_, _, e2.aligned⟩
    · have e : Cr.deleteRaw (S := S) i t = (t, .error .badDelete) := by
        unfold Cr.deleteRaw
        cases hkk : S.kind <;> simp_all [Cr.fail]
      rw [e]
      exact Or.inr ⟨L, d, h⟩

theorem Keep.deleteLoop (len : Nat) (rows : List Nat) :
    Keep (fun t => S.kind = .consistent → len ≤ t.len) (Cr.deleteLoop (S := S) len rows) (fun _ _ => True) := by
  induction rows with
  | nil => exact Keep.ret (fun _ _ => trivial)
  | cons r rs ih =>
    unfold Cr.deleteLoop
    refine Keep.ite (fun hr => ?_) (fun _ => Keep.fail)
    exact Keep.bind (Keep.weaken (Keep.deleteRaw r len) (fun t h hk => ⟨hr, h hk⟩) (fun _ _ h => h)) (fun _ => ih)

theorem Keep.removeSel (sel : Select (List Nat)) : Keep Any (Cr.removeSel (S := S) sel) (fun _ _ => True) := by
  cases sel with
  | all => exact Keep.clearRaw
  | these rows =>
    unfold Cr.removeSel
    refine Keep.bind (Q := fun len t => len = t.len)
      (Keep.look (fun t a _ _ h => by injection h with h; exact h.symm)) (fun len => ?_)
    exact Keep.weaken (Keep.deleteLoop len rows) (fun t h _ => le_of_eq h) (fun _ _ h => h)

theorem Keep.bagDelete (i : Nat) : Keep Any (Cr.bagDelete (S := S) i) (fun _ _ => True) := by
  unfold Cr.bagDelete
  refine Keep.bind (Q := fun a t => a = i ∧ i < t.len) (Keep.look (fun t a _ _ h => check_ok h)) (fun a => ?_)
  exact Keep.weaken (Keep.deleteRaw a (i + 1)) (fun t h _ => ⟨by omega, by omega⟩) (fun _ _ _ => trivial)

theorem Keep.setFree (g : List Nat → List Nat) (hg : ∀ l, BSet.Ok l → BSet.Ok (g l)) (h0 : S.kind ≠ .consistent → g [] = []) :
    Keep Any (Cr.setFree (S := S) g) (fun _ _ => True) := by
  rintro t ⟨L, d, h⟩ -
  refine ⟨Or.inr ⟨L, d, h.rep.free_irrel _, hg _ h.ok, fun hk => ⟨?_, (h.kind hk).2⟩⟩, fun _ _ => trivial⟩
  show g t.free = []
  rw [(h.kind hk).1]; exact h0 hk

theorem Keep.push (row : Row S) : Keep Any (Cr.push (S := S) row) (fun _ _ => True) := by
  unfold Cr.push
  refine Keep.bind (Q := fun _ _ => True) (Keep.look (fun _ _ _ _ _ => trivial)) (fun fr => ?_)
  cases fr with
  | nil => exact Keep.pushOnly row
  | cons old rest =>
    refine Keep.bind (Keep.setFree _ (fun l h => BSet.ok_erase h) (fun _ => rfl)) (fun _ => ?_)
    exact Keep.bind (Keep.swapOutRow old row) (fun _ => Keep.ret (fun _ _ => trivial))

theorem Keep.pushAll (rows : List (Option (Row S))) : Keep Any (Cr.pushAll (S := S) rows) (fun _ _ => True) := by
  induction rows with
  | nil => exact Keep.ret (fun _ _ => trivial)
  | cons r rs ih =>
    cases r with
    | none => exact Keep.fail
    | some r => exact Keep.bind (Keep.push r) (fun _ => ih)

theorem Keep.pushArrayLoop (rows : List (Option (Row S))) (last : Nat) :
    Keep Any (Cr.pushArrayLoop (S := S) last rows) (fun _ _ => True) := by
  induction rows generalizing last with
  | nil => exact Keep.ret (fun _ _ => trivial)
  | cons r rs ih =>
    cases r with
    | none => exact Keep.fail
    | some r => exact Keep.bind (Keep.pushOnly r) (fun _ => ih _)

theorem Keep.pushArray (rows : List (Option (Row S))) : Keep Any (Cr.pushArray (S := S) rows) (fun _ _ => True) := by
  cases rows with
  | nil => exact Keep.ret (fun _ _ => trivial)
  | cons r rs =>
    cases r with
    | none => exact Keep.fail
    | some r =>
      refine Keep.bind (Keep.pushOnly r) (fun _ => Keep.bind (Keep.pushArrayLoop rs _) (fun last => ?_))
      exact Keep.bind (Q := fun _ _ => True) (Keep.lift (fun _ _ _ _ => trivial)) (fun _ => Keep.ret (fun _ _ => trivial))

theorem Keep.setCell (j : Fin (S.n + 1)) (i : Nat) (v : S.E j) : Keep Any (Cr.setCell (S := S) j i v) (fun _ _ => True) := by
  rintro t ⟨L, d, h⟩ -
  unfold Cr.setCell
  cases hs : t.setCell j i v with
  | error p => exact ⟨Or.inr ⟨L, d, h⟩, fun _ _ => trivial⟩
  | ok t' =>
    refine ⟨Or.inr ?_, fun _ _ => trivial⟩
    by_cases hi : i < L.length
    · rcases h.rep.setCell j v hi with e | ⟨t1, e1, e2, e3⟩
      · rw [hs] at e; cases e
      · rw [hs] at e1; injection e1 with e1; subst e1
        exact ⟨_, _, h.sub e2 e3 (fun hk => (h.kind hk).2)⟩
    · rw [h.rep.setCell_oob j v (by omega)] at hs; cases hs

theorem Keep.bagDrop (last : Option Nat) (delete : Bool) : Keep Any (Cr.bagDrop (S := S) last delete) (fun _ _ => True) := by
  unfold Cr.bagDrop
  cases last with
  | none => exact Keep.ret (fun _ _ => trivial)
  | some l =>
    cases delete with
    | false => exact Keep.ret (fun _ _ => trivial)
    | true => exact Keep.bind (Q := fun _ _ => True) (Keep.lift (fun _ _ _ _ => trivial)) (fun a => Keep.bagDelete a)

theorem Keep.bagLoop {σ : Type} (f : Nat → Row S → σ → (Bool × Bool) × σ) (k i : Nat) (last : Option Nat) (delete : Bool) (s : σ) :
    Keep Any (Cr.bagLoop (S := S) f k i last delete s) (fun _ _ => True) := by
  induction k generalizing i last delete s with
  | zero => exact Keep.bagDrop last delete
  | succ k ih =>
    unfold Cr.bagLoop
    refine Keep.bind (Q := fun _ _ => True) (Keep.look (fun _ _ _ _ _ => trivial)) (fun len => ?_)
    refine Keep.ite (fun _ => Keep.bagDrop last delete) (fun _ => ?_)
    refine Keep.bind (Q := fun _ _ => True) ?_ (fun p => ?_)
    · unfold Cr.bagStep
      cases delete with
      | false => exact Keep.ret (fun _ _ => trivial)
      | true =>
        cases last with
        | none => exact Keep.fail
        | some l =>
          refine Keep.bind (Q := fun _ _ => True) (Keep.lift (fun _ _ _ _ => trivial)) (fun a => ?_)
          exact Keep.bind (Keep.bagDelete a) (fun _ => Keep.ret (fun _ _ => trivial))
    · obtain ⟨i', last'⟩ := p
      cases last' with
      | none => exact Keep.fail
      | some l =>
        refine Keep.bind (Q := fun _ _ => True) (Keep.lift (fun _ _ _ _ => trivial)) (fun a => ?_)
        refine Keep.bind (Q := fun _ _ => True) (Keep.look (fun _ _ _ _ _ => trivial)) (fun r => ?_)
        refine Keep.ite (fun _ => ?_) (fun _ => ih _ _ _ _)
        exact Keep.bind (Keep.bagDrop _ _) (fun _ => Keep.fail)

theorem Keep.fillGap (rug : Cr.CrRug S) (front k : Nat) : Keep Any (Cr.fillGap (S := S) rug front k) (fun _ _ => True) := by
  induction k generalizing rug front with
  | zero => exact Keep.ret (fun _ _ => trivial)
  | succ k ih =>
    unfold Cr.fillGap
    refine Keep.bind (Q := fun _ _ => True) (Keep.lift (fun _ _ _ _ => trivial)) (fun o => ?_)
    cases o with
    | none => exact Keep.ret (fun _ _ => trivial)
    | some p =>
      obtain ⟨row, rug'⟩ := p
      refine Keep.bind (Keep.swapOutRow front row) (fun _ => ?_)
      exact Keep.bind (Q := fun _ _ => True) (Keep.lift (fun _ _ _ _ => trivial)) (fun _ => ih _ _)

variable {σ : Type}

theorem Keep.scanLoop (f : Tbl S → Nat → σ → Option (Action (Option (Row S)) × σ)) (k : Nat) (rug : Cr.CrRug S)
    (front back : Nat) (stopped : Bool) (s : σ) :
    Keep Any (Cr.scanLoop (S := S) f rug front back stopped s k) (fun _ _ => True) := by
  induction k generalizing rug front back stopped s with
  | zero => exact Keep.ret (fun _ _ => trivial)
  | succ k ih =>
    unfold Cr.scanLoop
    refine Keep.bind (Q := fun _ _ => True) ?_ (fun p => ?_)
    · unfold Cr.ask
      exact Keep.ite (fun _ => Keep.ret (fun _ _ => trivial)) (fun _ => Keep.look (fun _ _ _ _ _ => trivial))
    obtain ⟨action, s'⟩ := p
    have tail : ∀ (rug' : Cr.CrRug S) (stopped' : Bool), Keep Any (do
        let back ← Cr.lift (nextId S.max back)
        let (rug, front) ← Cr.fillGap rug' front (back - front)
        Cr.scanLoop (S := S) f rug front back stopped' s' k) (fun _ _ => True) := by
      intro rug' stopped'
      refine Keep.bind (Q := fun _ _ => True) (Keep.lift (fun _ _ _ _ => trivial)) (fun b => ?_)
      refine Keep.bind (Keep.fillGap _ _ _) (fun q => ?_)
      obtain ⟨r', f'⟩ := q
      exact ih _ _ _ _ _
    cases action with
    | cont remove add =>
      simp only []
      refine Keep.bind (Q := fun _ _ => True) ?_ (fun rug' => tail (rug' ++ [.inr add]) stopped)
      unfold Cr.keepRow
      refine Keep.ite (fun _ => Keep.ret (fun _ _ => trivial)) (fun _ => ?_)
      exact Keep.bind (Q := fun _ _ => True) (Keep.look (fun _ _ _ _ _ => trivial)) (fun r => Keep.ret (fun _ _ => trivial))
    | brk =>
      simp only []
      refine Keep.ite (fun _ => Keep.ret (fun _ _ => trivial)) (fun _ => ?_)
      exact Keep.bind (Q := fun _ _ => True) (Keep.look (fun _ _ _ _ _ => trivial)) (fun r => tail (rug ++ [.inl r]) true)

theorem Keep.unrollRug (k : Nat) (rug : Cr.CrRug S) : Keep Any (Cr.unrollRug (S := S) rug k) (fun _ _ => True) := by
  induction k generalizing rug with
  | zero => exact Keep.fail
  | succ k ih =>
    unfold Cr.unrollRug
    refine Keep.bind (Q := fun _ _ => True) (Keep.lift (fun _ _ _ _ => trivial)) (fun o => ?_)
    cases o with
    | none => exact Keep.ret (fun _ _ => trivial)
    | some p => exact Keep.bind (Keep.pushOnly p.1) (fun _ => ih _)

theorem Keep.merge0 (f : Tbl S → Nat → σ → Option (Action (Option (Row S)) × σ)) (s : σ) :
    Keep Any (Cr.merge0 (S := S) f s) (fun _ _ => True) := by
  unfold Cr.merge0
  refine Keep.bind (Q := fun _ _ => True) (Keep.look (fun _ _ _ _ _ => trivial)) (fun len => ?_)
  refine Keep.bind (Keep.scanLoop f len [] 0 0 false s) (fun o => ?_)
  cases o with
  | none => exact Keep.ret (fun _ _ => trivial)
  | some p => exact Keep.bind (Keep.truncate _) (fun _ => Keep.unrollRug _ _)

variable {K : Type} [LinearOrder K] {τ : Type}

theorem Keep.mergeBump (key : Row S → K) (log : Tbl S → Nat → τ → Option τ) (st : Cr.MSt S τ) (c : Nat) :
    Keep Any (Cr.mergeBump (S := S) key log st c) (fun _ _ => True) := by
  unfold Cr.mergeBump
  refine Keep.bind (Q := fun _ _ => True) (Keep.lift (fun _ _ _ _ => trivial)) (fun o => ?_)
  rcases o with _ | _ | _
  · exact Keep.fail
  · cases st.rug with
    | nil => exact Keep.fail
    | cons v rug => exact Keep.bind (Keep.swapOutRow _ _) (fun _ => Keep.ret (fun _ _ => trivial))
  · rcases st.iter with _ | ⟨_ | v, iter⟩
    · exact Keep.fail
    · exact Keep.fail
    · exact Keep.bind (Keep.swapOutRow _ _) (fun _ => Keep.bind (Q := fun _ _ => True) (Keep.look (fun _ _ _ _ _ => trivial))
        (fun _ => Keep.ret (fun _ _ => trivial)))

theorem Keep.mergeBumps (key : Row S → K) (log : Tbl S → Nat → τ → Option τ) (cs : List Nat) (st : Cr.MSt S τ) :
    Keep Any (Cr.mergeBumps (S := S) key log cs st) (fun _ _ => True) := by
  induction cs generalizing st with
  | nil => exact Keep.ret (fun _ _ => trivial)
  | cons c cs ih => exact Keep.bind (Keep.mergeBump key log st c) (fun _ => ih _)

theorem Keep.mergeFlush (key : Row S → K) (log : Tbl S → Nat → τ → Option τ) (k : Nat) (st : Cr.MSt S τ) :
    Keep Any (Cr.mergeFlush (S := S) key log k st) (fun _ _ => True) := by
  induction k generalizing st with
  | zero => exact Keep.fail
  | succ k ih =>
    unfold Cr.mergeFlush
    refine Keep.bind (Q := fun _ _ => True) (Keep.lift (fun _ _ _ _ => trivial)) (fun o => ?_)
    rcases o with _ | _ | _
    · exact Keep.ret (fun _ _ => trivial)
    · cases st.rug with
      | nil => exact Keep.fail
      | cons v rug => exact Keep.bind (Keep.pushOnly _) (fun _ => ih _)
    · rcases st.iter with _ | ⟨_ | v, iter⟩
      · exact Keep.fail
      · exact Keep.fail
      · exact Keep.bind (Keep.pushOnly _) (fun _ => Keep.bind (Q := fun _ _ => True) (Keep.look (fun _ _ _ _ _ => trivial)) (fun _ => ih _))

theorem Keep.mergeLogged (key : Row S → K) (log : Tbl S → Nat → τ → Option τ) (rows : List (Option (Row S))) (l : τ) :
    Keep Any (Cr.mergeLogged (S := S) key log rows l) (fun _ _ => True) := by
  unfold Cr.mergeLogged
  refine Keep.bind (Q := fun _ _ => True) (Keep.lift (fun _ _ _ _ => trivial)) (fun o => ?_)
  cases o with
  | none => exact Keep.ret (fun _ _ => trivial)
  | some first =>
    refine Keep.bind (Q := fun _ _ => True) (Keep.look (fun _ _ _ _ _ => trivial)) (fun cursor => ?_)
    refine Keep.bind (Q := fun _ _ => True) (Keep.look (fun _ _ _ _ _ => trivial)) (fun e => ?_)
    refine Keep.bind (Q := fun _ _ => True) (Keep.lift (fun _ _ _ _ => trivial)) (fun ids => ?_)
    exact Keep.bind (Keep.mergeBumps key log ids _) (fun st => Keep.mergeFlush key log _ st)

theorem Keep.removeRows (hs : S.kind = .sorted) (ids : List Nat) : Keep Any (Cr.removeRows (S := S) ids) (fun _ _ => True) := by
  have hk : S.kind ≠ .consistent := by simp [hs]
  rintro t ⟨L, d, h⟩ -
  refine ⟨?_, fun _ _ => trivial⟩
  have hw := h.wf hk
  have hf := (h.kind hk).1
  obtain ⟨h1, h2, h3⟩ := removeRows_ok hw hf ids
  right
  by_cases hok : ids.Pairwise (· < ·) ∧ ∀ i ∈ ids, i < L.length
  · obtain ⟨t', e1, -, e3⟩ := h1 hok.1 hok.2
    have e : (Cr.removeRows (S := S) ids).out t = .ok (t', ()) := by rw [out_removeRows, e1]; rfl
    rw [out_ok.1 e]
    exact ⟨_, _, e3.aligned⟩
  · -- a refused list leaves the table as it was
    have herr : t.removeRows ids = .error .removeUnsorted ∨ t.removeRows ids = .error .removeOob := by
      by_cases hp : ids.Pairwise (· < ·)
      · exact Or.inr (h3 hp (fun hl => hok ⟨hp, hl⟩))
      · exact Or.inl (h2 hp)
    suffices e : (Cr.removeRows (S := S) ids t).1 = t by rw [e]; exact ⟨L, d, h⟩
    cases ids with
    | nil => rfl
    | cons r rs =>
      unfold Tbl.removeRows at herr
      simp only [] at herr
      unfold Cr.removeRows
      show ((Cr.lift (removeCheck 0 (if r = 0 then rs else r :: rs)) >>= _) t).1 = t
      cases hc : removeCheck 0 (if r = 0 then rs else r :: rs) with
      | error p => rfl
      | ok u =>
        rw [hc, okBind] at herr
        by_cases hl : ((r :: rs).getLast?).getD 0 < t.len
        · exfalso
          rw [if_pos hl] at herr
          -- the columns never panic that way
          have hpw : (r :: rs).Pairwise (· < ·) := by
            by_cases hr : r = 0
            · subst hr; simpa using removeCheck_pairwise hc
            · rw [if_neg hr] at hc; exact (List.pairwise_cons.1 (removeCheck_pairwise hc)).2
          apply hok
          refine ⟨hpw, fun i hi => ?_⟩
          have hlast : ∀ (l : List Nat), l.Pairwise (· < ·) → ∀ i ∈ l, i ≤ (l.getLast?).getD 0 := by
            intro l
            induction l with
            | nil => simp
            | cons x xs ih =>
              intro hp i hi
              rcases List.mem_cons.1 hi with rfl | hi
              · cases xs with
                | nil => simp
                | cons y ys =>
                  have := ih (List.pairwise_cons.1 hp).2 y (by simp)
                  have hxy := (List.pairwise_cons.1 hp).1 y (by simp)
                  rw [List.getLast?_cons_cons]
                  omega
              · cases xs with
                | nil => simp at hi
                | cons y ys =>
                  rw [List.getLast?_cons_cons]
                  exact ih (List.pairwise_cons.1 hp).2 i hi
          have := hlast _ hpw i hi
          rw [← hw.len]
          omega
        · show ((if ((r :: rs).getLast?).getD 0 < t.len then _ else Cr.fail .removeOob : Cr S Unit) t).1 = t
          rw [if_neg hl]; rfl

/-- Every call. -/
theorem Keep.run (key : Row S → K) (op : COp S) (ha : op.Allowed S) : Keep Any (op.run key) (fun _ _ => True) := by
  cases op with
  | push row => exact Keep.bind (Keep.push row) (fun _ => Keep.ret (fun _ _ => trivial))
  | pushAll rows => exact Keep.pushAll rows
  | pushArray rows => exact Keep.bind (Keep.pushArray rows) (fun _ => Keep.ret (fun _ _ => trivial))
  | set j i v => exact Keep.setCell j i v
  | remove sel => exact Keep.removeSel sel
  | bagDelete i => exact Keep.bagDelete i
  | bagLoop f k => exact Keep.bagLoop _ k 0 none false []
  | clearRaw => exact Keep.clearRaw
  | retain f => exact Keep.merge0 _ _
  | visit f => exact Keep.merge0 _ _
  | merge rows log => exact Keep.bind (Keep.mergeLogged key _ rows []) (fun _ => Keep.ret (fun _ _ => trivial))
  | removeRows ids => exact Keep.removeRows ha ids

end V11
