import Verif.Lemmas.Torn

/-!
# Every public call on a torn table
-/

set_option linter.unusedSimpArgs false
set_option linter.unusedSectionVars false
set_option linter.unusedVariables false

namespace V11
variable {S : Schema} [LV : LeavesSchema S] [LN : LenSchema S]

/-- Same column lengths. -/
theorem IsTorn.congr {t t' : Tbl S} (h : IsTorn t) (e : ∀ j, (S.C j).len (t'.cols j) = (S.C j).len (t.cols j)) : IsTorn t' := by
  obtain ⟨c, d, h⟩ := h
  exact ⟨c, d, fun j hj => (e j).trans (h.before j hj), fun j hj => (e j).trans (h.first j hj),
    fun j hj => (e j).trans (h.after j hj), h.le⟩

theorem Tri.deletedCols (i n : Nat) :
    Tri (fun t => i < n ∧ n ≤ t.len) (Cr.cols (S := S) fun j s => colStep ((S.C j).deleted s i) s) (fun _ t => n ≤ t.len) := by
  rintro t ⟨c, d, h⟩ ⟨hi, hn⟩
  have hi' : i < t.len := by omega
  have := h.seq (f := fun j s => colStep ((S.C j).deleted s i) s) (OK := i ≤ S.max) (c' := c) (d1 := d) (d2 := d)
    (fun j hj => by
      have hna : ¬ AfterIndex S j := fun ⟨k, hk, hx⟩ => hj k (le_of_lt hk) hx
      obtain ⟨s, e1, e2⟩ := (LN.law j).deleted (h.inRange hi' j (Or.inr hna)) (fun hx => absurd hx (hj j (le_refl j)))
      exact ⟨s, (), by simp only [colStep, e1], by rw [e2, h.before j hj]⟩)
    (fun hm j hj => by
      obtain ⟨s, e1, e2⟩ := (LN.law j).deleted (h.inRange hi' j (Or.inl hm)) (fun _ => hm)
      exact ⟨s, (), by simp only [colStep, e1], by rw [e2, h.first j hj]⟩)
    (fun hm j hj => by
      have hna : ¬ AfterIndex S j := fun ⟨k, hk, hx⟩ => hj.2 k hk hx
      have e1 := (LN.law j).deleted_err (h.inRange hi' j (Or.inr hna)) hj.1 (by omega)
      exact ⟨t.cols j, by simp only [colStep, e1], h.first j hj⟩)
    (fun hm j hj => by
      obtain ⟨s, e1, e2⟩ := (LN.law j).deleted (h.inRange hi' j (Or.inl hm)) (fun _ => hm)
      exact ⟨s, (), by simp only [colStep, e1], by rw [e2, h.after j hj]⟩)
    (fun _ => h.le) (fun _ => ⟨h.le, rfl⟩)
  obtain ⟨x, y⟩ := tri_cols ⟨this.1, this.2.imp (fun h => h.1) (fun h => h.2.2)⟩
  refine ⟨x, y, fun u hu => ?_⟩
  rcases seqTear_cases (α := fun _ => Unit) t.cols (fun j s => colStep ((S.C j).deleted s i) s) with
    ⟨z, h1, h2⟩ | ⟨k, p, h1, -⟩
  · have e0 := h2 0
    have hi0 : i < (S.C 0).len (t.cols 0) := hi'
    have : (S.C 0).len ((seqTear (S.n + 1) (α := fun _ => Unit) t.cols fun j s => colStep ((S.C j).deleted s i) s).1 0)
        = (S.C 0).len (t.cols 0) := by
      rw [e0.1]
      by_cases hx : Indexed (S.C 0) ∧ S.max < i
      · have e1 := (LN.law 0).deleted_err hi0 hx.1 hx.2
        simp only [colStep, e1]
      · obtain ⟨s, e1, e2⟩ := (LN.law 0).deleted hi0 (fun hix => by
          by_contra hm; exact hx ⟨hix, by omega⟩)
        simp only [colStep, e1]; exact e2
    have hl : (Cr.cols (S := S) (fun j s => colStep ((S.C j).deleted s i) s) t).1.len = t.len := this
    rw [hl]; exact hn
  · have hu' : ((seqTear (S.n + 1) (α := fun _ => Unit) t.cols fun j s => colStep ((S.C j).deleted s i) s).2.map
      fun _ => ()) = .ok u := hu
    rw [h1] at hu'; cases hu'

theorem Tri.deleteRaw (i n : Nat) : Tri (fun t => S.kind = .consistent → i < n ∧ n ≤ t.len) (Cr.deleteRaw (S := S) i)
    (fun _ t => S.kind = .consistent → n ≤ t.len) := by
  unfold Cr.deleteRaw
  generalize S.kind = kd
  cases kd with
  | consistent =>
    simp only []
    refine Tri.bind (Q := fun _ t => n ≤ t.len) (Tri.weaken (Tri.deletedCols i n) (fun t h => h trivial) (fun _ _ h => h)) (fun _ => ?_)
    refine Tri.bind (Q := fun _ t => n ≤ t.len) (Tri.lift (fromUsize_inBounds _ _) (fun _ _ h _ => h)) (fun a => ?_)
    intro t ht hp
    exact ⟨ht.congr (fun _ => rfl), InBounds.ok, fun _ _ _ => hp⟩
  | bag =>
    simp only []
    refine Tri.bind (P := _) (Q := fun len t => len = t.len)
      (Tri.look (fun _ _ _ => InBounds.ok) (fun t a _ _ h => by injection h with h; exact h.symm)) (fun len => ?_)
    refine Tri.ite (fun _ => Tri.fail (by simp) (by simp)) (fun h0 => ?_)
    have htr : Tri Any (Cr.truncate (S := S) (len - 1)) (fun _ t => Kind.bag = Kind.consistent → n ≤ t.len) :=
      Tri.weaken (Tri.truncate (len - 1)) (fun _ _ => trivial) (fun _ _ _ h => by cases h)
    refine Tri.ite (fun hi => ?_) (fun _ => ?_)
    · exact Tri.bind (Tri.weaken (Tri.swapRaw _ _) (fun t h => by subst h; omega) (fun _ _ h => h)) (fun _ => htr)
    · exact Tri.bind (Q := fun _ _ => True) (Tri.ret (fun _ _ => trivial)) (fun _ => htr)
  | append => exact Tri.fail (by simp) (by simp)
  | list => exact Tri.fail (by simp) (by simp)
  | sorted => exact Tri.fail (by simp) (by simp)

theorem Tri.deleteLoop (len : Nat) (rows : List Nat) :
    Tri (fun t => S.kind = .consistent → len ≤ t.len) (Cr.deleteLoop (S := S) len rows) (fun _ _ => True) := by
  induction rows with
  | nil => exact Tri.ret (fun _ _ => trivial)
  | cons r rs ih =>
    unfold Cr.deleteLoop
    refine Tri.ite (fun hr => ?_) (fun _ => Tri.fail (by simp) (by simp))
    exact Tri.bind (Tri.weaken (Tri.deleteRaw r len) (fun t h hk => ⟨hr, h hk⟩) (fun _ _ h => h)) (fun _ => ih)

theorem Tri.removeSel (sel : Select (List Nat)) : Tri Any (Cr.removeSel (S := S) sel) (fun _ _ => True) := by
  cases sel with
  | all => exact Tri.clearRaw
  | these rows =>
    unfold Cr.removeSel
    refine Tri.bind (Q := fun len t => len = t.len)
      (Tri.look (fun _ _ _ => InBounds.ok) (fun t a _ _ h => by injection h with h; exact h.symm)) (fun len => ?_)
    exact Tri.weaken (Tri.deleteLoop len rows) (fun t h _ => le_of_eq h) (fun _ _ h => h)

theorem Tri.bagDelete (i : Nat) : Tri Any (Cr.bagDelete (S := S) i) (fun _ _ => True) := by
  unfold Cr.bagDelete
  refine Tri.bind (P := Any) Tri.check (fun a => ?_)
  exact Tri.weaken (Tri.deleteRaw a (i + 1)) (fun t h _ => ⟨by omega, by omega⟩) (fun _ _ _ => trivial)

theorem Tri.push (row : Row S) : Tri Any (Cr.push (S := S) row) (fun _ _ => True) := by
  unfold Cr.push
  refine Tri.bind (Q := fun _ _ => True) (Tri.look (fun _ _ _ => InBounds.ok) (fun _ _ _ _ _ => trivial)) (fun fr => ?_)
  cases fr with
  | nil => exact Tri.pushOnly row
  | cons old rest =>
    refine Tri.bind (Q := fun _ _ => True) (fun t ht _ => ⟨ht.congr (fun _ => rfl), InBounds.ok, fun _ _ => trivial⟩) (fun _ => ?_)
    exact Tri.bind (Tri.swapOutRow old row) (fun _ => Tri.ret (fun _ _ => trivial))

theorem Tri.pushAll (rows : List (Option (Row S))) : Tri Any (Cr.pushAll (S := S) rows) (fun _ _ => True) := by
  induction rows with
  | nil => exact Tri.ret (fun _ _ => trivial)
  | cons r rs ih =>
    cases r with
    | none => exact Tri.fail (by simp) (by simp)
    | some r => exact Tri.bind (Tri.push r) (fun _ => ih)

theorem Tri.pushArrayLoop (rows : List (Option (Row S))) (last : Nat) :
    Tri Any (Cr.pushArrayLoop (S := S) last rows) (fun _ _ => True) := by
  induction rows generalizing last with
  | nil => exact Tri.ret (fun _ _ => trivial)
  | cons r rs ih =>
    cases r with
    | none => exact Tri.fail (by simp) (by simp)
    | some r => exact Tri.bind (Tri.pushOnly r) (fun _ => ih _)

theorem Tri.pushArray (rows : List (Option (Row S))) : Tri Any (Cr.pushArray (S := S) rows) (fun _ _ => True) := by
  cases rows with
  | nil => exact Tri.ret (fun _ _ => trivial)
  | cons r rs =>
    cases r with
    | none => exact Tri.fail (by simp) (by simp)
    | some r =>
      refine Tri.bind (Tri.pushOnly r) (fun _ => Tri.bind (Tri.pushArrayLoop rs _) (fun last => ?_))
      exact Tri.bind (Q := fun _ _ => True) (Tri.lift (nextId_inBounds _ _) (fun _ _ _ _ => trivial))
        (fun _ => Tri.ret (fun _ _ => trivial))

theorem Tri.setCell (j : Fin (S.n + 1)) (i : Nat) (v : S.E j) : Tri Any (Cr.setCell (S := S) j i v) (fun _ _ => True) := by
  intro t ht _
  unfold Cr.setCell Tbl.setCell
  by_cases hi : (S.C j).len (t.cols j) ≤ i
  · simp only [if_pos hi]
    exact ⟨ht, ⟨by simp, by simp⟩, fun _ _ => trivial⟩
  · simp only [if_neg hi]
    rcases (LN.law j).indexMut (s := t.cols j) (i := i) (by omega) with e | ⟨e0, put, e, hp⟩
    · rw [e, errBind]
      exact ⟨ht, ⟨by simp, by simp⟩, fun _ _ => trivial⟩
    · rw [e, okBind]
      refine ⟨ht.congr (fun k => ?_), InBounds.ok, fun _ _ => trivial⟩
      show (S.C k).len (Function.update t.cols j (put v) k) = _
      by_cases hk : k = j
      · subst hk; rw [Function.update_self, hp]
      · rw [Function.update_of_ne hk]

theorem Tri.getRow {i : Nat} (hm : i ≤ S.max) : Tri Any (Cr.look (S := S) (Tbl.getRow · i)) (fun _ _ => True) :=
  Tri.look (fun t ht _ => Torn.getRow ht hm) (fun _ _ _ _ _ => trivial)

/-! ## `iter_mut` of bags -/

theorem Tri.bagDrop (last : Option Nat) (delete : Bool) : Tri Any (Cr.bagDrop (S := S) last delete) (fun _ _ => True) := by
  unfold Cr.bagDrop
  cases last with
  | none => exact Tri.ret (fun _ _ => trivial)
  | some l =>
    cases delete with
    | false => exact Tri.ret (fun _ _ => trivial)
    | true =>
      exact Tri.bind (Q := fun _ _ => True) (Tri.lift (fromUsize_inBounds _ _) (fun _ _ _ _ => trivial)) (fun a => Tri.bagDelete a)

theorem Tri.bagLoop {σ : Type} (f : Nat → Row S → σ → (Bool × Bool) × σ) (k i : Nat) (last : Option Nat) (delete : Bool) (s : σ) :
    Tri Any (Cr.bagLoop (S := S) f k i last delete s) (fun _ _ => True) := by
  induction k generalizing i last delete s with
  | zero => exact Tri.bagDrop last delete
  | succ k ih =>
    unfold Cr.bagLoop
    refine Tri.bind (Q := fun _ _ => True) (Tri.look (fun _ _ _ => InBounds.ok) (fun _ _ _ _ _ => trivial)) (fun len => ?_)
    refine Tri.ite (fun _ => Tri.bagDrop last delete) (fun _ => ?_)
    refine Tri.bind (Q := fun _ _ => True) ?_ (fun p => ?_)
    · unfold Cr.bagStep
      cases delete with
      | false => exact Tri.ret (fun _ _ => trivial)
      | true =>
        cases last with
        | none => exact Tri.fail (by simp) (by simp)
        | some l =>
          refine Tri.bind (Q := fun _ _ => True) (Tri.lift (fromUsize_inBounds _ _) (fun _ _ _ _ => trivial)) (fun a => ?_)
          exact Tri.bind (Tri.bagDelete a) (fun _ => Tri.ret (fun _ _ => trivial))
    · obtain ⟨i', last'⟩ := p
      cases last' with
      | none => exact Tri.fail (by simp) (by simp)
      | some l =>
        refine Tri.bind (Q := fun a _ => a ≤ S.max) (Tri.lift (fromUsize_inBounds _ _)
          (fun _ a _ h => by obtain ⟨rfl, h⟩ := fromUsize_le h; exact h)) (fun a => ?_)
        by_cases ha : a ≤ S.max
        · refine Tri.bind (Tri.weaken (Tri.getRow ha) (fun _ _ => trivial) (fun _ _ h => h)) (fun r => ?_)
          refine Tri.ite (fun _ => ?_) (fun _ => ih _ _ _ _)
          exact Tri.bind (Tri.bagDrop _ _) (fun _ => Tri.fail (by simp) (by simp))
        · intro t ht h; exact absurd h ha

/-! ## `retain` and `visit` -/

omit LN in
theorem pullRug_inBounds (rug : Cr.CrRug S) : InBounds (Cr.pullRug rug) := by
  induction rug with
  | nil => exact InBounds.ok
  | cons x q ih =>
    rcases x with r | xs
    · exact InBounds.ok
    · rcases xs with _ | ⟨_ | x, xs⟩
      · exact ih
      · exact ⟨by simp [Cr.pullRug], by simp [Cr.pullRug]⟩
      · exact InBounds.ok

theorem Tri.fillGap (rug : Cr.CrRug S) (front k : Nat) : Tri Any (Cr.fillGap (S := S) rug front k) (fun _ _ => True) := by
  induction k generalizing rug front with
  | zero => exact Tri.ret (fun _ _ => trivial)
  | succ k ih =>
    unfold Cr.fillGap
    refine Tri.bind (Q := fun _ _ => True) (Tri.lift (pullRug_inBounds rug) (fun _ _ _ _ => trivial)) (fun o => ?_)
    cases o with
    | none => exact Tri.ret (fun _ _ => trivial)
    | some p =>
      obtain ⟨row, rug'⟩ := p
      refine Tri.bind (Tri.swapOutRow front row) (fun _ => ?_)
      exact Tri.bind (Q := fun _ _ => True) (Tri.lift (nextId_inBounds _ _) (fun _ _ _ _ => trivial)) (fun _ => ih _ _)

variable {σ : Type}

theorem Tri.ask (f : Tbl S → Nat → σ → Option (Action (Option (Row S)) × σ)) (stopped : Bool) (back : Nat) (s : σ) :
    Tri Any (Cr.ask (S := S) f stopped back s) (fun _ _ => True) := by
  unfold Cr.ask
  refine Tri.ite (fun _ => Tri.ret (fun _ _ => trivial)) (fun _ => Tri.look (fun t _ _ => ?_) (fun _ _ _ _ _ => trivial))
  cases f t back s with
  | none => exact ⟨by simp, by simp⟩
  | some a => exact InBounds.ok

theorem Tri.scanLoop (f : Tbl S → Nat → σ → Option (Action (Option (Row S)) × σ)) (k : Nat) (rug : Cr.CrRug S)
    (front back : Nat) (stopped : Bool) (s : σ) (hb : back ≤ S.max) :
    Tri Any (Cr.scanLoop (S := S) f rug front back stopped s k) (fun _ _ => True) := by
  induction k generalizing rug front back stopped s with
  | zero => exact Tri.ret (fun _ _ => trivial)
  | succ k ih =>
    unfold Cr.scanLoop
    refine Tri.bind (Tri.ask f stopped back s) (fun p => ?_)
    obtain ⟨action, s'⟩ := p
    have tail : ∀ (rug' : Nat → Cr.CrRug S) (stopped' : Bool), Tri Any (do
        let back ← Cr.lift (nextId S.max back)
        let (rug, front) ← Cr.fillGap (rug' back) front (back - front)
        Cr.scanLoop (S := S) f rug front back stopped' s' k) (fun _ _ => True) := by
      intro rug' stopped'
      refine Tri.bind (Q := fun b _ => b ≤ S.max) (Tri.lift (nextId_inBounds _ _) (fun _ b _ h => (nextId_le h).2)) (fun b => ?_)
      by_cases hb' : b ≤ S.max
      · refine Tri.weaken (P := Any) ?_ (fun _ _ => trivial) (fun _ _ h => h)
        refine Tri.bind (Tri.fillGap _ _ _) (fun q => ?_)
        obtain ⟨r', f'⟩ := q
        exact ih _ _ _ _ _ hb'
      · intro t ht h; exact absurd h hb'
    cases action with
    | cont remove add =>
      simp only []
      refine Tri.bind (Q := fun _ _ => True) ?_ (fun rug' => tail (fun _ => rug' ++ [.inr add]) stopped)
      unfold Cr.keepRow
      refine Tri.ite (fun _ => Tri.ret (fun _ _ => trivial)) (fun _ => ?_)
      exact Tri.bind (Tri.getRow hb) (fun r => Tri.ret (fun _ _ => trivial))
    | brk =>
      simp only []
      refine Tri.ite (fun _ => Tri.ret (fun _ _ => trivial)) (fun _ => ?_)
      exact Tri.bind (Tri.getRow hb) (fun r => tail (fun _ => rug ++ [.inl r]) true)

theorem Tri.unrollRug (k : Nat) (rug : Cr.CrRug S) : Tri Any (Cr.unrollRug (S := S) rug k) (fun _ _ => True) := by
  induction k generalizing rug with
  | zero => exact Tri.fail (by simp) (by simp)
  | succ k ih =>
    unfold Cr.unrollRug
    refine Tri.bind (Q := fun _ _ => True) (Tri.lift (pullRug_inBounds rug) (fun _ _ _ _ => trivial)) (fun o => ?_)
    cases o with
    | none => exact Tri.ret (fun _ _ => trivial)
    | some p => exact Tri.bind (Tri.pushOnly p.1) (fun _ => ih _)

theorem Tri.merge0 (f : Tbl S → Nat → σ → Option (Action (Option (Row S)) × σ)) (s : σ) :
    Tri Any (Cr.merge0 (S := S) f s) (fun _ _ => True) := by
  unfold Cr.merge0
  refine Tri.bind (Q := fun _ _ => True) (Tri.look (fun _ _ _ => InBounds.ok) (fun _ _ _ _ _ => trivial)) (fun len => ?_)
  refine Tri.bind (Tri.scanLoop f len [] 0 0 false s (Nat.zero_le _)) (fun o => ?_)
  cases o with
  | none => exact Tri.ret (fun _ _ => trivial)
  | some p => exact Tri.bind (Tri.truncate _) (fun _ => Tri.unrollRug _ _)

/-! ## `merge` -/

variable {K : Type} [LinearOrder K] {τ : Type}

omit LV LN in
theorem peek_inBounds (l : List (Option (Row S))) : InBounds (Cr.peek l) := by
  rcases l with _ | ⟨_ | r, l⟩
  · exact InBounds.ok
  · exact ⟨by simp [Cr.peek], by simp [Cr.peek]⟩
  · exact InBounds.ok

omit LV LN in
theorem choose_inBounds (key : Row S → K) (rug : List (Row S)) (l : List (Option (Row S))) :
    InBounds (Cr.chooseSide key rug l) := by
  unfold Cr.chooseSide
  have := peek_inBounds l
  cases h : Cr.peek l with
  | error p =>
    rw [h] at this
    rw [errBind]
    exact ⟨fun hh => this.1 (by injection hh with hh; rw [hh]), fun hh => this.2 (by injection hh with hh; rw [hh])⟩
  | ok o =>
    rw [okBind]
    cases rug <;> cases o <;> exact InBounds.ok

omit LN in
theorem Tri.callLog (log : Tbl S → Nat → τ → Option τ) (i : Nat) (l : τ) : Tri Any (Cr.callLog (S := S) log i l) (fun _ _ => True) := by
  refine Tri.look (fun t _ _ => ?_) (fun _ _ _ _ _ => trivial)
  cases log t i l with
  | none => exact ⟨by simp, by simp⟩
  | some a => exact InBounds.ok

theorem Tri.mergeBump (key : Row S → K) (log : Tbl S → Nat → τ → Option τ) (st : Cr.MSt S τ) (c : Nat) :
    Tri Any (Cr.mergeBump (S := S) key log st c) (fun _ _ => True) := by
  unfold Cr.mergeBump
  refine Tri.bind (Q := fun _ _ => True) (Tri.lift (choose_inBounds key _ _) (fun _ _ _ _ => trivial)) (fun o => ?_)
  rcases o with _ | _ | _
  · exact Tri.fail (by simp) (by simp)
  · cases st.rug with
    | nil => exact Tri.fail (by simp) (by simp)
    | cons v rug => exact Tri.bind (Tri.swapOutRow _ _) (fun _ => Tri.ret (fun _ _ => trivial))
  · rcases st.iter with _ | ⟨_ | v, iter⟩
    · exact Tri.fail (by simp) (by simp)
    · exact Tri.fail (by simp) (by simp)
    · exact Tri.bind (Tri.swapOutRow _ _) (fun _ => Tri.bind (Tri.callLog _ _ _) (fun _ => Tri.ret (fun _ _ => trivial)))

theorem Tri.mergeBumps (key : Row S → K) (log : Tbl S → Nat → τ → Option τ) (cs : List Nat) (st : Cr.MSt S τ) :
    Tri Any (Cr.mergeBumps (S := S) key log cs st) (fun _ _ => True) := by
  induction cs generalizing st with
  | nil => exact Tri.ret (fun _ _ => trivial)
  | cons c cs ih => exact Tri.bind (Tri.mergeBump key log st c) (fun _ => ih _)

theorem Tri.mergeFlush (key : Row S → K) (log : Tbl S → Nat → τ → Option τ) (k : Nat) (st : Cr.MSt S τ) :
    Tri Any (Cr.mergeFlush (S := S) key log k st) (fun _ _ => True) := by
  induction k generalizing st with
  | zero => exact Tri.fail (by simp) (by simp)
  | succ k ih =>
    unfold Cr.mergeFlush
    refine Tri.bind (Q := fun _ _ => True) (Tri.lift (choose_inBounds key _ _) (fun _ _ _ _ => trivial)) (fun o => ?_)
    rcases o with _ | _ | _
    · exact Tri.ret (fun _ _ => trivial)
    · cases st.rug with
      | nil => exact Tri.fail (by simp) (by simp)
      | cons v rug => exact Tri.bind (Tri.pushOnly _) (fun _ => ih _)
    · rcases st.iter with _ | ⟨_ | v, iter⟩
      · exact Tri.fail (by simp) (by simp)
      · exact Tri.fail (by simp) (by simp)
      · exact Tri.bind (Tri.pushOnly _) (fun _ => Tri.bind (Tri.callLog _ _ _) (fun _ => ih _))

theorem findCursor_inBounds (key : Row S → K) {t : Tbl S} (ht : IsTorn t) (first : Row S) (k c : Nat) (hc : c ≤ S.max) :
    InBounds (findCursor key t first c k) := by
  induction k generalizing c with
  | zero => exact InBounds.ok
  | succ k ih =>
    unfold findCursor
    have hg := Torn.getRow ht hc
    cases h : t.getRow c with
    | error p =>
      rw [h] at hg
      rw [errBind]
      exact ⟨fun hh => hg.1 (by injection hh with hh; rw [hh]), fun hh => hg.2 (by injection hh with hh; rw [hh])⟩
    | ok r =>
      rw [okBind]
      by_cases hlt : key r < key first
      · rw [if_pos hlt]
        unfold nextId
        by_cases hm : c + 1 ≤ S.max
        · rw [if_pos hm, okBind]; exact ih _ hm
        · rw [if_neg hm, errBind]; exact InBounds.overflow
      · rw [if_neg hlt]; exact InBounds.ok

omit LV LN in
theorem drain_inBounds (m k : Nat) (r : RowRange) : InBounds (drain (RowRange.next m) k r) := by
  induction k generalizing r with
  | zero => exact ⟨by simp [drain], by simp [drain]⟩
  | succ k ih =>
    unfold drain
    by_cases h : r.start ≥ r.stop
    · have hn : RowRange.next m r = .ok (none, r) := if_pos h
      rw [hn, okBind]; exact InBounds.ok
    · by_cases hm : r.start + 1 ≤ m
      · have hn : RowRange.next m r = .ok (some r.start, { r with start := r.start + 1 }) := by
          unfold RowRange.next nextId; rw [if_neg h, if_pos hm]; rfl
        rw [hn, okBind]
        have := ih { r with start := r.start + 1 }
        show InBounds (drain (RowRange.next m) k { r with start := r.start + 1 } >>= _)
        cases e : drain (RowRange.next m) k { r with start := r.start + 1 } with
        | ok l => rw [okBind]; exact InBounds.ok
        | error p =>
          rw [e] at this
          rw [errBind]
          exact ⟨fun hh => this.1 (by injection hh with hh; rw [hh]), fun hh => this.2 (by injection hh with hh; rw [hh])⟩
      · have hn : RowRange.next m r = .error .idxOverflow := by
          unfold RowRange.next nextId; rw [if_neg h, if_neg hm]; rfl
        rw [hn, errBind]; exact InBounds.overflow

theorem Tri.mergeLogged (key : Row S → K) (log : Tbl S → Nat → τ → Option τ) (rows : List (Option (Row S))) (l : τ) :
    Tri Any (Cr.mergeLogged (S := S) key log rows l) (fun _ _ => True) := by
  unfold Cr.mergeLogged
  refine Tri.bind (Q := fun _ _ => True) (Tri.lift (peek_inBounds _) (fun _ _ _ _ => trivial)) (fun o => ?_)
  cases o with
  | none => exact Tri.ret (fun _ _ => trivial)
  | some first =>
    refine Tri.bind (Q := fun _ _ => True)
      (Tri.look (fun t ht _ => findCursor_inBounds key ht first _ 0 (Nat.zero_le _)) (fun _ _ _ _ _ => trivial)) (fun cursor => ?_)
    refine Tri.bind (Q := fun _ _ => True) (Tri.look (fun t _ _ => fromUsize_inBounds _ _) (fun _ _ _ _ _ => trivial)) (fun e => ?_)
    refine Tri.bind (Q := fun _ _ => True) (Tri.lift (drain_inBounds _ _ _) (fun _ _ _ _ => trivial)) (fun ids => ?_)
    exact Tri.bind (Tri.mergeBumps key log ids _) (fun st => Tri.mergeFlush key log _ st)

/-! ## `remove_rows` -/

section Remove
variable {E : Type} {max : Nat} {C : TCol E} [Leaves C] [LL : LenLaws max C]

/-- The swaps of one column. -/
theorem removeLoop_len (k : Nat) (s : C.σ) (ids : List Nat) (bad ugly : Nat) (hbu : bad ≤ ugly) (hl : ugly + k ≤ C.len s) :
    ((Indexed C → C.len s ≤ max + 1) → ∃ s' b, Cr.removeLoop C s ids bad ugly k = (s', .ok b) ∧ C.len s' = C.len s ∧ b ≤ ugly + k) ∧
    ((∃ s' b, Cr.removeLoop C s ids bad ugly k = (s', .ok b) ∧ C.len s' = C.len s ∧ b ≤ ugly + k) ∨
      (∃ s', Cr.removeLoop C s ids bad ugly k = (s', .error .idxOverflow) ∧ C.len s' = C.len s)) := by
  induction k generalizing s ids bad ugly with
  | zero => exact ⟨fun _ => ⟨s, bad, rfl, rfl, by omega⟩, Or.inl ⟨s, bad, rfl, rfl, by omega⟩⟩
  | succ k ih =>
    unfold Cr.removeLoop
    by_cases hh : ids.head? = some ugly
    · rw [if_pos hh]
      have := ih s ids.tail bad (ugly + 1) (by omega) (by omega)
      have e : ugly + 1 + k = ugly + (k + 1) := by omega
      rw [e] at this
      exact this
    · rw [if_neg hh]
      have e : ugly + 1 + k = ugly + (k + 1) := by omega
      by_cases hb : bad = ugly
      · simp only [hb, ne_eq, not_true_eq_false, if_false]
        have := ih s ids (ugly + 1) (ugly + 1) (by omega) (by omega)
        rw [e] at this
        exact this
      · simp only [ne_eq, hb, not_false_eq_true, if_true]
        by_cases hok : Indexed C → bad ≤ max ∧ ugly ≤ max
        · obtain ⟨s1, e1, e2⟩ := LL.swap (s := s) (a := bad) (b := ugly) (by omega) (by omega) hok
          simp only [e1]
          have := ih s1 ids (bad + 1) (ugly + 1) (by omega) (by omega)
          rw [e, e2] at this
          exact this
        · have hix : Indexed C := by
            by_contra hx; exact hok (fun h => absurd h hx)
          have hov : max < bad ∨ max < ugly := by
            by_contra hx; exact hok (fun _ => by omega)
          have e1 := LL.swap_err (s := s) (a := bad) (b := ugly) (by omega) (by omega) hix hov
          simp only [e1]
          refine ⟨fun h => ?_, Or.inr ⟨s, rfl, rfl⟩⟩
          have := h hix
          omega

/-- The number of rows a column keeps does not depend on the column. -/
def keptCount (ids : List Nat) (bad ugly : Nat) : Nat → Nat
  | 0 => bad
  | k + 1 => if ids.head? = some ugly then keptCount ids.tail bad (ugly + 1) k else keptCount ids (bad + 1) (ugly + 1) k

theorem removeLoop_count (k : Nat) (s s' : C.σ) (ids : List Nat) (bad ugly b : Nat)
    (h : Cr.removeLoop C s ids bad ugly k = (s', .ok b)) : b = keptCount ids bad ugly k := by
  induction k generalizing s ids bad ugly with
  | zero => simp only [Cr.removeLoop] at h; injection h with _ h; injection h with h; exact h.symm
  | succ k ih =>
    unfold Cr.removeLoop at h
    unfold keptCount
    by_cases hh : ids.head? = some ugly
    · rw [if_pos hh] at h ⊢; exact ih s _ _ _ h
    · rw [if_neg hh] at h ⊢
      cases hs : (if bad ≠ ugly then C.swap s bad ugly else .ok s) with
      | ok s1 => rw [hs] at h; exact ih s1 _ _ _ h
      | error p => rw [hs] at h; injection h with _ h; cases h

theorem keptCount_le (ids : List Nat) (bad ugly k : Nat) : keptCount ids bad ugly k ≤ bad + k := by
  induction k generalizing ids bad ugly with
  | zero => exact le_refl _
  | succ k ih =>
    unfold keptCount
    split
    · have := ih ids.tail bad (ugly + 1); omega
    · have := ih ids (bad + 1) (ugly + 1); omega

theorem keptCount_lt (ids : List Nat) (bad ugly k : Nat) (hs : ids.Pairwise (· < ·)) (r : Nat) (rs : List Nat) (e : ids = r :: rs)
    (hr : ugly ≤ r) (hl : r < ugly + k) : keptCount ids bad ugly k < bad + k := by
  induction k generalizing bad ugly with
  | zero => omega
  | succ k ih =>
    unfold keptCount
    split
    · have := keptCount_le ids.tail bad (ugly + 1) k; omega
    · rename_i hh
      have : r ≠ ugly := by rintro rfl; exact hh (by rw [e]; rfl)
      have := ih (bad + 1) (ugly + 1) (by omega) (by omega)
      omega

end Remove

omit LV LN in
theorem removeCheck_pairwise {prev : Nat} {l : List Nat} (h : removeCheck prev l = .ok ()) : (prev :: l).Pairwise (· < ·) := by
  induction l generalizing prev with
  | nil => simp
  | cons r rs ih =>
    unfold removeCheck at h
    split at h
    · rename_i hlt
      have := ih h
      refine List.pairwise_cons.2 ⟨?_, this⟩
      intro x hx
      rcases List.mem_cons.1 hx with rfl | hx
      · exact hlt
      · exact lt_trans hlt ((List.pairwise_cons.1 this).1 x hx)
    · cases h

omit LV LN in
theorem removeCheck_inBounds (prev : Nat) (l : List Nat) : InBounds (removeCheck prev l) := by
  induction l generalizing prev with
  | nil => exact InBounds.ok
  | cons r rs ih =>
    unfold removeCheck
    split
    · exact ih r
    · exact ⟨by simp, by simp⟩

theorem Tri.removeRows (ids : List Nat) : Tri Any (Cr.removeRows (S := S) ids) (fun _ _ => True) := by
  cases ids with
  | nil => exact Tri.ret (fun _ _ => trivial)
  | cons r rs =>
    unfold Cr.removeRows
    refine Tri.bind (Q := fun _ _ => (r :: rs).Pairwise (· < ·)) (Tri.lift (removeCheck_inBounds _ _) ?_) (fun _ => ?_)
    · intro t a _ h
      by_cases hr : r = 0
      · subst hr; simpa using removeCheck_pairwise h
      · rw [if_neg hr] at h; exact (List.pairwise_cons.1 (removeCheck_pairwise h)).2
    refine Tri.bind (Q := fun len t => len = t.len ∧ (r :: rs).Pairwise (· < ·)) (Tri.look (fun _ _ _ => InBounds.ok)
      (fun t a _ hp h => ⟨by injection h with h; exact h.symm, hp⟩)) (fun len => ?_)
    refine Tri.ite (fun hlast => ?_) (fun _ => Tri.fail (by simp) (by simp))
    rintro t ⟨c, d, h⟩ ⟨rfl, hs⟩
    have hle := h.le
    have hld := h.len_le
    have hrl : r < t.len := by
      have hlast' : ((r :: rs).getLast?).getD 0 ∈ r :: rs := by
        rw [List.getLast?_eq_getLast_of_ne_nil (by simp : r :: rs ≠ [])]
        exact List.getLast_mem _
      rcases List.mem_cons.1 hlast' with e | e
      · rw [← e]; exact hlast
      · exact lt_trans ((List.pairwise_cons.1 hs).1 _ e) hlast
    have hk := keptCount_lt (r :: rs) 0 0 t.len hs r rs rfl (Nat.zero_le _) (by omega)
    set b := keptCount (r :: rs) 0 0 t.len with hb
    have ok : ∀ j, t.len ≤ (S.C j).len (t.cols j) → (Indexed (S.C j) → (S.C j).len (t.cols j) ≤ S.max + 1) →
        ∃ s x, (match Cr.removeLoop (S.C j) (t.cols j) (r :: rs) 0 0 t.len with
          | (s, .ok bad) => colStep ((S.C j).truncate s bad) (Leaves.truncate s bad)
          | (s, .error p) => (s, .error p)) = (s, .ok x) ∧ (S.C j).len s = b := by
      intro j hj hx
      obtain ⟨s, b', e1, e2, -⟩ := (removeLoop_len (max := S.max) t.len (t.cols j) (r :: rs) 0 0 (le_refl _) (by omega)).1 hx
      have := removeLoop_count _ _ _ _ _ _ _ e1
      rw [← hb] at this
      subst this
      obtain ⟨s2, g1, g2⟩ := (LN.law j).truncate (s := s) b (fun hix => by rw [e2]; exact Or.inl (hx hix))
      refine ⟨s2, (), by simp only [e1, colStep, g1], ?_⟩
      rw [g2, e2]; omega
    have := h.seq (f := fun j s => match Cr.removeLoop (S.C j) s (r :: rs) 0 0 t.len with
          | (s, .ok bad) => colStep ((S.C j).truncate s bad) (Leaves.truncate s bad)
          | (s, .error p) => (s, .error p)) (OK := d ≤ S.max + 1) (c' := min b c) (d1 := b) (d2 := d)
      (fun j hj => by
        have hc := h.len_before hj
        obtain ⟨s, x, e1, e2⟩ := ok j (by rw [h.before j hj, hc]) (fun hix => absurd hix (hj j (le_refl j)))
        exact ⟨s, x, e1, by rw [e2]; omega⟩)
      (fun hd j hj => by
        obtain ⟨s, x, e1, e2⟩ := ok j (by rw [h.first j hj]; exact hld) (fun _ => by rw [h.first j hj]; exact hd)
        exact ⟨s, x, e1, e2⟩)
      (fun hd j hj => by
        have hd' := h.first j hj
        rcases (removeLoop_len (max := S.max) t.len (t.cols j) (r :: rs) 0 0 (le_refl _) (by rw [hd']; omega)).2 with
          ⟨s, b', e1, e2, -⟩ | ⟨s, e1, e2⟩
        · have hbb := removeLoop_count _ _ _ _ _ _ _ e1
          rw [← hb] at hbb
          subst hbb
          obtain ⟨g1, g2⟩ := (LN.law j).truncate_err (s := s) b hj.1 (by rw [e2, hd']; omega) (by rw [e2, hd']; omega)
          exact ⟨Leaves.truncate s b, by simp only [e1, colStep, g1], by rw [g2, e2, hd']⟩
        · exact ⟨s, by simp only [e1], by rw [e2, hd']⟩)
      (fun hd j hj => by
        obtain ⟨s, x, e1, e2⟩ := ok j (by rw [h.after j hj]; omega) (fun _ => by rw [h.after j hj]; omega)
        exact ⟨s, x, e1, by rw [e2]; omega⟩)
      (fun _ => by omega) (fun _ => ⟨by omega, rfl⟩)
    obtain ⟨x, y⟩ := tri_cols ⟨this.1, this.2.imp (fun h => h.1) (fun h => h.2.2)⟩
    exact ⟨x, y, fun _ _ => trivial⟩

/-- Every call. -/
theorem Tri.run (key : Row S → K) (op : COp S) : Tri Any (op.run key) (fun _ _ => True) := by
  cases op with
  | push row => exact Tri.bind (Tri.push row) (fun _ => Tri.ret (fun _ _ => trivial))
  | pushAll rows => exact Tri.pushAll rows
  | pushArray rows => exact Tri.bind (Tri.pushArray rows) (fun _ => Tri.ret (fun _ _ => trivial))
  | set j i v => exact Tri.setCell j i v
  | remove sel => exact Tri.removeSel sel
  | bagDelete i => exact Tri.bagDelete i
  | bagLoop f k => exact Tri.bagLoop _ k 0 none false []
  | clearRaw => exact Tri.clearRaw
  | retain f => exact Tri.merge0 _ _
  | visit f => exact Tri.merge0 _ _
  | merge rows log => exact Tri.bind (Tri.mergeLogged key _ rows []) (fun _ => Tri.ret (fun _ _ => trivial))
  | removeRows ids => exact Tri.removeRows ids

theorem IsTorn.new : IsTorn (Tbl.new : Tbl S) :=
  ⟨0, 0, fun j _ => (LN.law j).new, fun j _ => (LN.law j).new, fun j _ => by rw [Nat.zero_min]; exact (LN.law j).new, le_refl _⟩

theorem Salvaged.torn {key : Row S → K} {t : Tbl S} (h : Salvaged key t) : IsTorn t := by
  induction h with
  | new => exact IsTorn.new
  | step _ _ ih => exact ((Tri.run key _) _ ih trivial).1

end V11
