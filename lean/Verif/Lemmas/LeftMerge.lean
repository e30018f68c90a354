import Verif.Lemmas.Leftovers
import Verif.Lemmas.Merge

/-!
# What `merge` leaves when the iterator or the log panics
-/

set_option linter.unusedSimpArgs false
set_option linter.unusedSectionVars false
set_option linter.unusedVariables false

namespace V11

section Lists
variable {A K : Type} [LinearOrder K]

theorem mergeUpTo_nil (key : A → K) (old : List A) : mergeUpTo key old [] = [] := by
  unfold mergeUpTo; cases old <;> rfl

theorem mergeUpTo_left (key : A → K) (new : List A) : mergeUpTo key [] new = new := by
  cases new with
  | nil => exact mergeUpTo_nil key []
  | cons b new => unfold mergeUpTo; rfl

theorem mergeUpTo_cons (key : A → K) (a b : A) (old new : List A) : mergeUpTo key (a :: old) (b :: new) =
    if key a ≤ key b then a :: mergeUpTo key old (b :: new) else b :: mergeUpTo key (a :: old) new := by
  conv_lhs => unfold mergeUpTo

/-- What is in place, and the old rows not yet reached, make up the merge. -/
theorem mergeUpTo_rest (key : A → K) (old new : List A) :
    new.length ≤ (mergeUpTo key old new).length ∧ (mergeUpTo key old new).length - new.length ≤ old.length ∧
    mergeUpTo key old new ++ old.drop ((mergeUpTo key old new).length - new.length) =
      List.merge old new (fun a b => key a ≤ key b) := by
  induction old generalizing new with
  | nil => simp [mergeUpTo_left]
  | cons a old ih =>
    induction new with
    | nil => simp [mergeUpTo_nil]
    | cons b new ih2 =>
      rw [mergeUpTo_cons, List.cons_merge_cons]
      by_cases h : key a ≤ key b
      · obtain ⟨h1, h2, h3⟩ := ih (b :: new)
        simp only [if_pos h, h, decide_true, if_true, List.length_cons] at h1 h2 h3 ⊢
        refine ⟨by omega, by omega, ?_⟩
        rw [← h3]
        have : (mergeUpTo key old (b :: new)).length + 1 - (new.length + 1) =
            (mergeUpTo key old (b :: new)).length - (new.length + 1) + 1 := by omega
        rw [this]
        simp
      · obtain ⟨h1, h2, h3⟩ := ih2
        simp only [if_neg h, h, decide_false, Bool.false_eq_true, if_false, List.length_cons] at h1 h2 h3 ⊢
        refine ⟨by omega, by omega, ?_⟩
        rw [← h3]
        simp

theorem mergePlaced_rest (key : A → K) (old new : List A) :
    new.length ≤ (mergePlaced key old new).length ∧ (mergePlaced key old new).length - new.length ≤ old.length ∧
    mergePlaced key old new ++ old.drop ((mergePlaced key old new).length - new.length) = mergeSpec key old new := by
  cases new with
  | nil => simp [mergePlaced, mergeSpec]
  | cons first rest =>
    simp only [mergePlaced, mergeSpec]
    obtain ⟨h1, h2, h3⟩ := mergeUpTo_rest key (old.dropWhile (fun r => key r < key first)) rest
    have hl : (old.takeWhile (fun r => decide (key r < key first))).length + (old.dropWhile (fun r => decide (key r < key first))).length = old.length := by
      rw [← List.length_append, List.takeWhile_append_dropWhile]
    simp only [List.length_append, List.length_cons]
    refine ⟨by omega, by omega, ?_⟩
    rw [← h3]
    have e : (old.takeWhile (fun r => decide (key r < key first))).length + ((mergeUpTo key (old.dropWhile (fun r => decide (key r < key first))) rest).length + 1) - (rest.length + 1)
      = (old.takeWhile (fun r => decide (key r < key first))).length + ((mergeUpTo key (old.dropWhile (fun r => decide (key r < key first))) rest).length - rest.length) := by omega
    rw [e]
    conv_lhs => rw [← List.takeWhile_append_dropWhile (p := fun r => decide (key r < key first)) (l := old)]
    rw [List.drop_append]
    simp

end Lists

variable {S : Schema} [LS : LawfulSchema S] [LV : LeavesSchema S] {K : Type} [LinearOrder K]

omit LS LV in
/-- The merge panics after it has placed exactly the rows `N`. -/
def Stops (log : Tbl S → Nat → List Nat → Bool) : List (Row S) → List (Option (Row S)) → List Nat → Prop
  | [], iter, _ => ∃ more, iter = none :: more
  | x :: N, iter, ids => ∃ iter', iter = some x :: iter' ∧
      ((N = [] ∧ ∀ t i, log t i ids = true) ∨ ((∀ t i, log t i ids = false) ∧ ∀ i, Stops log N iter' (ids ++ [i])))

variable (key : Row S → K) (log : Tbl S → Nat → List Nat → Bool)

theorem cr_mergeFlush (k : Nat) {t : Tbl S} {L : List (Row S)} (h : WF t L) (hf : t.free = []) (st : Cr.MSt S (List Nat))
    (N : List (Row S)) (hN : Stops log N st.iter st.log) (hk : st.rug.length + st.iter.length < k) :
    (L.length + (mergeUpTo key st.rug N).length ≤ S.max + 1 → ∃ t', Cr.mergeFlush key (COp.logging log) k st t = (t', .error .userPanic) ∧
      t'.free = [] ∧ WF t' (L ++ mergeUpTo key st.rug N)) ∧
    (S.max + 1 < L.length + (mergeUpTo key st.rug N).length → (Cr.mergeFlush key (COp.logging log) k st t).2 = .error .idxOverflow) := by
  induction k generalizing t L st N with
  | zero => omega
  | succ k ih =>
    obtain ⟨rug, iter, ids⟩ := st
    simp only [] at hN hk ⊢
    have hle := h.rep.le
    unfold Cr.mergeFlush
    simp only []
    cases N with
    | nil =>
      obtain ⟨more, rfl⟩ := hN
      rw [mergeUpTo_nil]
      have hc : Cr.lift (S := S) (Cr.chooseSide key rug (none :: more)) t = (t, .error .userPanic) := rfl
      refine ⟨fun _ => ⟨t, ?_, hf, by simpa using h⟩, fun hc => by simp at hc; omega⟩
      exact cr_err hc
    | cons x N =>
      obtain ⟨iter', rfl, hN⟩ := hN
      have full : ∀ r, S.max < L.length → (Cr.pushOnly (S := S) r t).2 = .error .idxOverflow := fun r hl =>
        out_err.1 (by rw [out_pushOnly]; exact h.rep.pushOnly_full r (by omega))
      -- the next new row is placed
      have new : (∀ W, x :: mergeUpTo key rug N = W → Cr.chooseSide key rug (some x :: iter') = .ok (some .iter) →
          (L.length + W.length ≤ S.max + 1 → ∃ t', (do
            match ← Cr.lift (Cr.chooseSide key rug (some x :: iter')) with
            | none => Cr.ret ids
            | some .rug =>
              match rug with
              | [] => Cr.fail .unwrapNone
              | v :: rug => do
                let _ ← Cr.pushOnly v
                Cr.mergeFlush key (COp.logging log) k { rug := rug, iter := some x :: iter', log := ids }
            | some .iter => do
              let cursor ← Cr.pushOnly x
              let l ← Cr.callLog (COp.logging log) cursor ids
              Cr.mergeFlush key (COp.logging log) k { rug := rug, iter := iter', log := l } : Cr S (List Nat)) t = (t', .error .userPanic) ∧
            t'.free = [] ∧ WF t' (L ++ W)) ∧
          (S.max + 1 < L.length + W.length → ((do
            match ← Cr.lift (Cr.chooseSide key rug (some x :: iter')) with
            | none => Cr.ret ids
            | some .rug =>
              match rug with
              | [] => Cr.fail .unwrapNone
              | v :: rug => do
                let _ ← Cr.pushOnly v
                Cr.mergeFlush key (COp.logging log) k { rug := rug, iter := some x :: iter', log := ids }
            | some .iter => do
              let cursor ← Cr.pushOnly x
              let l ← Cr.callLog (COp.logging log) cursor ids
              Cr.mergeFlush key (COp.logging log) k { rug := rug, iter := iter', log := l } : Cr S (List Nat)) t).2 = .error .idxOverflow)) := by
        intro W hW hch
        rw [cr_ok (x := Cr.lift (S := S) (Cr.chooseSide key rug (some x :: iter'))) (t1 := t) (a := some .iter) (by simp [Cr.lift, hch])]
        simp only []
        by_cases hl : L.length ≤ S.max
        · obtain ⟨t1, h1, h2, h3⟩ := cr_pushOnly h hf x hl
          rw [cr_ok h1]
          rcases hN with ⟨rfl, hlog⟩ | ⟨hlog, hN⟩
          · rw [cr_err (x := Cr.callLog (COp.logging log) L.length ids) (t1 := t1) (p := .userPanic)
              (by simp [Cr.callLog, Cr.look, COp.logging, hlog])]
            rw [mergeUpTo_nil] at hW
            subst hW
            exact ⟨fun _ => ⟨t1, rfl, h2, h3⟩, fun hc => by simp at hc; omega⟩
          · rw [cr_ok (x := Cr.callLog (COp.logging log) L.length ids) (t1 := t1) (a := ids ++ [L.length])
              (by simp [Cr.callLog, Cr.look, COp.logging, hlog])]
            obtain ⟨i1, i2⟩ := ih h3 h2 { rug := rug, iter := iter', log := ids ++ [L.length] } N (hN _)
              (by simp at hk ⊢; omega)
            subst hW
            constructor
            · intro hc
              obtain ⟨t', e1, e2, e3⟩ := i1 (by simp at hc ⊢; omega)
              exact ⟨t', e1, e2, by simpa using e3⟩
            · intro hc
              exact i2 (by simp at hc ⊢; omega)
        · refine ⟨fun hc => by rw [← hW] at hc; simp at hc; omega, fun _ => ?_⟩
          rw [cr_err (x := Cr.pushOnly x) (t1 := (Cr.pushOnly (S := S) x t).1) (p := .idxOverflow) (by rw [← full x (by omega)])]
      cases rug with
      | nil =>
        have := new (mergeUpTo key [] (x :: N)) (by rw [mergeUpTo_left, mergeUpTo_left]) rfl
        exact this
      | cons r rug =>
        by_cases hkey : key r ≤ key x
        · rw [mergeUpTo_cons, if_pos hkey]
          have hch : Cr.chooseSide key (r :: rug) (some x :: iter') = .ok (some .rug) := by
            simp [Cr.chooseSide, Cr.peek, okBind, hkey]
          rw [cr_ok (x := Cr.lift (S := S) (Cr.chooseSide key (r :: rug) (some x :: iter'))) (t1 := t) (a := some .rug) (by simp [Cr.lift, hch])]
          simp only []
          by_cases hl : L.length ≤ S.max
          · obtain ⟨t1, h1, h2, h3⟩ := cr_pushOnly h hf r hl
            rw [cr_ok h1]
            obtain ⟨i1, i2⟩ := ih h3 h2 { rug := rug, iter := some x :: iter', log := ids } (x :: N) ⟨iter', rfl, hN⟩
              (by simp at hk ⊢; omega)
            constructor
            · intro hc
              obtain ⟨t', e1, e2, e3⟩ := i1 (by simp at hc ⊢; omega)
              exact ⟨t', e1, e2, by simpa using e3⟩
            · intro hc
              exact i2 (by simp at hc ⊢; omega)
          · refine ⟨fun hc => by simp at hc; omega, fun _ => ?_⟩
            rw [cr_err (x := Cr.pushOnly r) (t1 := (Cr.pushOnly (S := S) r t).1) (p := .idxOverflow) (by rw [← full r (by omega)])]
        · have hch : Cr.chooseSide key (r :: rug) (some x :: iter') = .ok (some .iter) := by
            simp [Cr.chooseSide, Cr.peek, okBind, hkey]
          have := new (mergeUpTo key (r :: rug) (x :: N)) (by rw [mergeUpTo_cons, if_neg hkey]) hch
          exact this

/-- A bump that places `w` at the end of `done`. -/
theorem cr_bump_swap {t : Tbl S} {done q : List (Row S)} {x : Row S} (h : WF t (done ++ x :: q)) (hf : t.free = []) (w : Row S) :
    ∃ t', Cr.swapOutRow (S := S) done.length w t = (t', .ok x) ∧ t'.free = [] ∧ WF t' ((done ++ [w]) ++ q) := by
  obtain ⟨t', e1, e2, e3⟩ := cr_swapOutRow h hf w (i := done.length) (by simp)
  refine ⟨t', by simpa using e1, e2, ?_⟩
  have : (done ++ x :: q).set done.length w = (done ++ [w]) ++ q := by
    rw [List.set_append_right _ _ (le_refl _)]; simp
  rwa [this] at e3

theorem cr_mergeBumps (q : List (Row S)) {t : Tbl S} {done : List (Row S)} (st : Cr.MSt S (List Nat)) (h : WF t (done ++ q))
    (hf : t.free = []) (hr : st.rug ≠ []) (N : List (Row S)) (hN : Stops log N st.iter st.log) :
    (∃ t', Cr.mergeBumps key (COp.logging log) (List.range' done.length q.length) st t = (t', .error .userPanic) ∧ t'.free = [] ∧
      WF t' (done ++ mergeUpTo key (st.rug ++ q) N ++ q.drop (mergeUpTo key (st.rug ++ q) N).length)) ∨
    (∃ t' st' P N', Cr.mergeBumps key (COp.logging log) (List.range' done.length q.length) st t = (t', .ok st') ∧ t'.free = [] ∧
      WF t' (done ++ P) ∧ P.length = q.length ∧ Stops log N' st'.iter st'.log ∧
      mergeUpTo key (st.rug ++ q) N = P ++ mergeUpTo key st'.rug N') := by
  induction q generalizing t done st N with
  | nil => exact Or.inr ⟨t, st, [], N, rfl, hf, by simpa using h, rfl, hN, by simp⟩
  | cons y q ih =>
    obtain ⟨rug, iter, ids⟩ := st
    simp only [] at hr hN ⊢
    obtain ⟨r, rug, rfl⟩ : ∃ r rug', rug = r :: rug' := by
      cases rug with
      | nil => exact absurd rfl hr
      | cons r rug => exact ⟨r, rug, rfl⟩
    -- a step places `w`
    have step : ∀ (w : Row S) (rug' : List (Row S)) (iter' : List (Option (Row S))) (N' : List (Row S)) (ids' : List Nat) (t1 : Tbl S),
        rug' ≠ [] → Stops log N' iter' ids' → t1.free = [] → WF t1 ((done ++ [w]) ++ q) →
        Cr.mergeBump key (COp.logging log) { rug := r :: rug, iter := iter, log := ids } done.length t =
          (t1, .ok { rug := rug', iter := iter', log := ids' }) →
        mergeUpTo key (r :: rug ++ y :: q) N = w :: mergeUpTo key (rug' ++ q) N' →
        (∃ t', Cr.mergeBumps key (COp.logging log) (List.range' done.length (y :: q).length)
            { rug := r :: rug, iter := iter, log := ids } t = (t', .error .userPanic) ∧ t'.free = [] ∧
          WF t' (done ++ mergeUpTo key (r :: rug ++ y :: q) N ++ (y :: q).drop (mergeUpTo key (r :: rug ++ y :: q) N).length)) ∨
        (∃ t' st' P N', Cr.mergeBumps key (COp.logging log) (List.range' done.length (y :: q).length)
            { rug := r :: rug, iter := iter, log := ids } t = (t', .ok st') ∧ t'.free = [] ∧
          WF t' (done ++ P) ∧ P.length = (y :: q).length ∧ Stops log N' st'.iter st'.log ∧
          mergeUpTo key (r :: rug ++ y :: q) N = P ++ mergeUpTo key st'.rug N') := by
      intro w rug' iter' N' ids' t1 h1 h2 h3 h4 h5 h6
      rw [List.length_cons, List.range'_succ]
      unfold Cr.mergeBumps
      rw [cr_ok h5]
      have hl : (done ++ [w]).length = done.length + 1 := by simp
      rcases ih (done := done ++ [w]) { rug := rug', iter := iter', log := ids' } h4 h3 h1 N' h2 with
        ⟨t', e1, e2, e3⟩ | ⟨t', st', P, N'', e1, e2, e3, e4, e5, e6⟩
      · rw [hl] at e1
        refine Or.inl ⟨t', e1, e2, ?_⟩
        rw [h6]
        simpa using e3
      · rw [hl] at e1
        refine Or.inr ⟨t', st', w :: P, N'', e1, e2, by simpa using e3, by simp [e4], e5, ?_⟩
        rw [h6, e6]; simp
    cases N with
    | nil =>
      obtain ⟨more, rfl⟩ := hN
      refine Or.inl ⟨t, ?_, hf, by rw [mergeUpTo_nil]; simpa using h⟩
      rw [List.length_cons, List.range'_succ]
      unfold Cr.mergeBumps
      have hc : Cr.lift (S := S) (Cr.chooseSide key (r :: rug) (none :: more)) t = (t, .error .userPanic) := rfl
      exact cr_err (by unfold Cr.mergeBump; exact cr_err hc)
    | cons x N =>
      obtain ⟨iter', rfl, hN⟩ := hN
      by_cases hkey : key r ≤ key x
      · have hch : Cr.chooseSide key (r :: rug) (some x :: iter') = .ok (some .rug) := by
          simp [Cr.chooseSide, Cr.peek, okBind, hkey]
        obtain ⟨t1, h1, h2, h3⟩ := cr_bump_swap h hf r
        refine step r (rug ++ [y]) (some x :: iter') (x :: N) ids t1 (by simp) ⟨iter', rfl, hN⟩ h2 h3 ?_ ?_
        · unfold Cr.mergeBump
          rw [cr_ok (x := Cr.lift (S := S) (Cr.chooseSide key (r :: rug) (some x :: iter'))) (t1 := t) (a := some .rug) (by simp [Cr.lift, hch])]
          simp only []
          rw [cr_ok h1]
          rfl
        · rw [List.cons_append, mergeUpTo_cons, if_pos hkey]; simp
      · have hch : Cr.chooseSide key (r :: rug) (some x :: iter') = .ok (some .iter) := by
          simp [Cr.chooseSide, Cr.peek, okBind, hkey]
        obtain ⟨t1, h1, h2, h3⟩ := cr_bump_swap h hf x
        rcases hN with ⟨rfl, hlog⟩ | ⟨hlog, hN⟩
        · refine Or.inl ⟨t1, ?_, h2, ?_⟩
          · rw [List.length_cons, List.range'_succ]
            unfold Cr.mergeBumps
            refine cr_err ?_
            unfold Cr.mergeBump
            rw [cr_ok (x := Cr.lift (S := S) (Cr.chooseSide key (r :: rug) (some x :: iter'))) (t1 := t) (a := some .iter) (by simp [Cr.lift, hch])]
            simp only []
            rw [cr_ok h1, cr_err (x := Cr.callLog (COp.logging log) done.length ids) (t1 := t1) (p := .userPanic)
              (by simp [Cr.callLog, Cr.look, COp.logging, hlog])]
          · rw [List.cons_append, mergeUpTo_cons, if_neg hkey, mergeUpTo_nil]
            simpa using h3
        · refine step x (r :: rug ++ [y]) iter' N (ids ++ [done.length]) t1 (by simp) (hN _) h2 h3 ?_ ?_
          · unfold Cr.mergeBump
            rw [cr_ok (x := Cr.lift (S := S) (Cr.chooseSide key (r :: rug) (some x :: iter'))) (t1 := t) (a := some .iter) (by simp [Cr.lift, hch])]
            simp only []
            rw [cr_ok h1, cr_ok (x := Cr.callLog (COp.logging log) done.length ids) (t1 := t1) (a := ids ++ [done.length])
              (by simp [Cr.callLog, Cr.look, COp.logging, hlog])]
            rfl
          · rw [List.cons_append, mergeUpTo_cons, if_neg hkey]; simp

/-- `merge_logged` that panics after it has placed exactly the rows `N`. -/
theorem cr_mergeLogged {t : Tbl S} {L : List (Row S)} (h : WF t L) (hf : t.free = []) (hm : L.length ≤ S.max)
    (rows : List (Option (Row S))) (N : List (Row S)) (hN : Stops log N rows []) :
    ((mergePlaced key L N).length ≤ S.max + 1 → ∃ t', Cr.mergeLogged key (COp.logging log) rows [] t = (t', .error .userPanic) ∧
      t'.free = [] ∧ WF t' (putOver L (mergePlaced key L N))) ∧
    (S.max + 1 < (mergePlaced key L N).length → (Cr.mergeLogged key (COp.logging log) rows [] t).2 = .error .idxOverflow) := by
  unfold Cr.mergeLogged
  cases N with
  | nil =>
    obtain ⟨more, rfl⟩ := hN
    have hc : Cr.lift (S := S) (Cr.peek (none :: more)) t = (t, .error .userPanic) := rfl
    refine ⟨fun _ => ⟨t, cr_err hc, hf, by simpa [mergePlaced, putOver] using h⟩, fun hc => by simp [mergePlaced] at hc⟩
  | cons first N =>
    obtain ⟨iter', rfl, hN⟩ := hN
    have hpk : Cr.lift (S := S) (Cr.peek (some first :: iter')) t = (t, .ok (some first)) := rfl
    rw [cr_ok hpk]
    simp only []
    set p : Row S → Bool := fun r => decide (key r < key first) with hp
    set c := (L.takeWhile p).length with hcdef
    have hcl : c ≤ L.length := (List.takeWhile_prefix p).length_le
    have htake : L.takeWhile p = L.take c := List.prefix_iff_eq_take.1 (List.takeWhile_prefix p)
    have hdrop : L.dropWhile p = L.drop c := by
      have h1 : L.takeWhile p ++ L.dropWhile p = L.take c ++ L.drop c := by
        rw [List.takeWhile_append_dropWhile, List.take_append_drop]
      rw [htake] at h1
      exact List.append_cancel_left h1
    have htl : (L.take c).length = c := by simp; omega
    have hspec : mergePlaced key L (first :: N) = L.take c ++ first :: mergeUpTo key (L.drop c) N := by
      rw [mergePlaced]
      rw [← htake, ← hdrop]
    have hcur : findCursor key t first 0 L.length = .ok c := by
      have := findCursor_ok key h hf hm first L.length 0 (by omega)
      simpa [hcdef, hp] using this
    have hids : drain (RowRange.next S.max) (L.length - c + 1) ⟨c, L.length⟩ = .ok (List.range' c (L.length - c)) :=
      drain_range S.max _ _ _ hm (by omega)
    rw [cr_ok (x := Cr.look fun t => findCursor key t first 0 t.len) (t1 := t) (a := c) (by simp [Cr.look, h.len, hcur]),
      cr_ok (x := Cr.look fun t => fromUsize S.max t.len) (t1 := t) (a := L.length) (by simp [Cr.look, h.len, fromUsize_ok hm]),
      cr_ok (x := Cr.lift (S := S) (drain (RowRange.next S.max) (L.length - c + 1) ⟨c, L.length⟩)) (t1 := t) (a := List.range' c (L.length - c))
        (by simp [Cr.lift, hids])]
    rw [hspec]
    by_cases hc : c = L.length
    · have e0 : L.length - c = 0 := by omega
      rw [e0]
      rw [cr_ok (x := Cr.mergeBumps key (COp.logging log) (List.range' c 0) { rug := [], iter := some first :: iter', log := [] }) (t1 := t) rfl]
      obtain ⟨f1, f2⟩ := cr_mergeFlush key log
        (([] : List (Row S)).length + (some first :: iter').length + 1) h hf { rug := [], iter := some first :: iter', log := [] } (first :: N) ⟨iter', rfl, hN⟩ (by simp)
      have hd : L.drop c = [] := List.drop_eq_nil_of_le (by omega)
      have ht : L.take c = L := List.take_of_length_le (by omega)
      rw [hd, ht, mergeUpTo_left]
      simp only [mergeUpTo_left] at f1 f2
      constructor
      · intro hl
        obtain ⟨t', e1, e2, e3⟩ := f1 (by simpa using hl)
        refine ⟨t', e1, e2, ?_⟩
        rw [putOver, List.drop_eq_nil_of_le (by simp), List.append_nil]
        exact e3
      · intro hl
        exact f2 (by simpa using hl)
    · have hlt : c < L.length := by omega
      have hL : L = L.take c ++ L[c] :: L.drop (c + 1) := by
        rw [← List.drop_eq_getElem_cons hlt, List.take_append_drop]
      have h' := h
      rw [hL] at h'
      obtain ⟨t1, e1, e2, e3⟩ := cr_bump_swap h' hf first
      rw [htl] at e1
      have hlen : L.length - c = (L.length - (c + 1)) + 1 := by omega
      have hdl : (L.take c ++ [first]).length = c + 1 := by simp; omega
      have hcons : [L[c]] ++ L.drop (c + 1) = L.drop c := (List.drop_eq_getElem_cons hlt).symm
      have hch : Cr.chooseSide key [] (some first :: iter') = .ok (some .iter) := by
        simp [Cr.chooseSide, Cr.peek, okBind]
      have hputover : ∀ W : List (Row S), putOver L (L.take c ++ first :: W) = L.take c ++ [first] ++ W ++ (L.drop (c + 1)).drop W.length := by
        intro W
        rw [putOver, List.drop_drop]
        have : (L.take c ++ first :: W).length = c + 1 + W.length := by
          rw [List.length_append, htl, List.length_cons]; omega
        rw [this]; simp
      rcases hN with ⟨rfl, hlog⟩ | ⟨hlog, hN⟩
      · -- the log panics at the first new row
        have hb : Cr.mergeBumps key (COp.logging log) (List.range' c (L.length - c)) { rug := [], iter := some first :: iter', log := [] } t
            = (t1, .error .userPanic) := by
          rw [hlen, List.range'_succ]
          unfold Cr.mergeBumps
          refine cr_err ?_
          unfold Cr.mergeBump
          rw [cr_ok (x := Cr.lift (S := S) (Cr.chooseSide key [] (some first :: iter'))) (t1 := t) (a := some .iter) (by simp [Cr.lift, hch])]
          simp only []
          rw [cr_ok e1, cr_err (x := Cr.callLog (COp.logging log) c []) (t1 := t1) (p := .userPanic)
            (by simp [Cr.callLog, Cr.look, COp.logging, hlog])]
        rw [cr_err hb, mergeUpTo_nil]
        refine ⟨fun _ => ⟨t1, rfl, e2, ?_⟩, fun hl => ?_⟩
        · rw [hputover]; simpa using e3
        · simp at hl; omega
      · have hb : Cr.mergeBump key (COp.logging log) { rug := [], iter := some first :: iter', log := [] } c t
            = (t1, .ok { rug := [L[c]], iter := iter', log := [c] }) := by
          unfold Cr.mergeBump
          rw [cr_ok (x := Cr.lift (S := S) (Cr.chooseSide key [] (some first :: iter'))) (t1 := t) (a := some .iter) (by simp [Cr.lift, hch])]
          simp only []
          rw [cr_ok e1, cr_ok (x := Cr.callLog (COp.logging log) c []) (t1 := t1) (a := [c])
            (by simp [Cr.callLog, Cr.look, COp.logging, hlog])]
          rfl
        have hbs : ∀ (x : Tbl S × R (Cr.MSt S (List Nat))), Cr.mergeBumps key (COp.logging log) (List.range' (c + 1) (L.length - (c + 1)))
              { rug := [L[c]], iter := iter', log := [c] } t1 = x →
            Cr.mergeBumps key (COp.logging log) (List.range' c (L.length - c)) { rug := [], iter := some first :: iter', log := [] } t = x := by
          intro x hx
          rw [hlen, List.range'_succ, Cr.mergeBumps, cr_ok hb]
          exact hx
        have hB := cr_mergeBumps key log (L.drop (c + 1)) (done := L.take c ++ [first]) { rug := [L[c]], iter := iter', log := [c] } e3 e2
          (by simp) N (by simpa using hN c)
        simp only [hcons, hdl, List.length_drop] at hB
        rcases hB with ⟨t', g1, g2, g3⟩ | ⟨t', st', P, N', g1, g2, g3, g4, g5, g6⟩
        · rw [cr_err (hbs _ g1)]
          refine ⟨fun _ => ⟨t', rfl, g2, by rw [hputover]; exact g3⟩, fun hl => ?_⟩
          have := g3.rep.le
          simp only [List.length_append, List.length_cons, List.length_nil] at this hl
          omega
        · rw [cr_ok (hbs _ g1)]
          obtain ⟨f1, f2⟩ := cr_mergeFlush key log (st'.rug.length + st'.iter.length + 1) g3 g2 st' N' g5 (by omega)
          have hW : L.take c ++ first :: mergeUpTo key (L.drop c) N = L.take c ++ [first] ++ P ++ mergeUpTo key st'.rug N' := by
            rw [g6]; simp
          rw [hW]
          have hPl : (L.take c ++ [first] ++ P).length = L.length := by
            rw [List.length_append, hdl, g4]; omega
          constructor
          · intro hl
            obtain ⟨t'', k1, k2, k3⟩ := f1 (by rw [← List.length_append]; exact hl)
            refine ⟨t'', k1, k2, ?_⟩
            rw [putOver, List.drop_eq_nil_of_le (by rw [List.length_append, hPl]; omega), List.append_nil]
            exact k3
          · intro hl
            exact f2 (by rw [← List.length_append]; exact hl)

end V11
