import Verif.Model.Iter
import Verif.Lemmas.Write

/-!
# What the row iterators yield
-/

set_option linter.unusedSimpArgs false
set_option linter.unusedSectionVars false

namespace V11

theorem rangeNext_done {max a e : Nat} (h : e ≤ a) : RowRange.next max ⟨a, e⟩ = .ok (none, ⟨a, e⟩) := by
  unfold RowRange.next; rw [if_pos h]

theorem rangeNext_step {max a e : Nat} (h : a < e) (he : e ≤ max) :
    RowRange.next max ⟨a, e⟩ = .ok (some a, ⟨a + 1, e⟩) := by
  unfold RowRange.next
  simp only [ge_iff_le]
  rw [if_neg (by omega)]
  have h1 : nextId max a = .ok (a + 1) := by unfold nextId; rw [if_pos (by omega)]
  rw [h1]; rfl

theorem drain_range (max : Nat) (fuel a e : Nat) (he : e ≤ max) (hf : e - a < fuel) :
    drain (RowRange.next max) fuel ⟨a, e⟩ = .ok (List.range' a (e - a)) := by
  induction fuel generalizing a with
  | zero => omega
  | succ n ih =>
    unfold drain
    by_cases h : e ≤ a
    · rw [rangeNext_done h, okBind]
      have : e - a = 0 := by omega
      rw [this]; rfl
    · rw [rangeNext_step (by omega) he, okBind]
      simp only []
      rw [ih (a + 1) (by omega), okBind]
      have : e - a = (e - (a + 1)) + 1 := by omega
      rw [this, List.range'_succ]

/-- What one `join` returns, on an ascending right side. -/
theorem joinStep_spec {A : Type} [LinearOrder A] (l : A) {right : List A} (h : right.Pairwise (· ≤ ·)) :
    joinStep l right =
      (if l ∈ right then .hit l else if ∀ r ∈ right, r < l then .stop else .next, right.dropWhile (· < l)) := by
  induction right with
  | nil => simp [joinStep]
  | cons r rs ih =>
    have hr := (List.pairwise_cons.1 h).1
    unfold joinStep
    by_cases h1 : l < r
    · have hnm : l ∉ r :: rs := by
        intro hm
        rcases List.mem_cons.1 hm with e | hm
        · exact absurd h1 (by rw [e]; exact lt_irrefl _)
        · exact absurd (hr l hm) (not_le.2 h1)
      rw [if_pos h1, if_neg hnm, if_neg (by intro hc; exact absurd (hc r (by simp)) (not_lt.2 (le_of_lt h1)))]
      rw [List.dropWhile_cons_of_neg (by simpa using le_of_lt h1)]
    · by_cases h2 : l = r
      · subst h2
        simp
      · have hlt : r < l := lt_of_le_of_ne (not_lt.1 h1) (Ne.symm h2)
        rw [if_neg h1, if_neg h2, ih (List.pairwise_cons.1 h).2]
        rw [List.dropWhile_cons_of_pos (by simpa using hlt)]
        simp [h2, hlt]

theorem filter_congr_mem {A : Type} {l : List A} {p q : A → Bool} (h : ∀ x ∈ l, p x = q x) : l.filter p = l.filter q := by
  induction l with
  | nil => rfl
  | cons x xs ih =>
    simp only [List.filter_cons, h x (by simp)]
    rw [ih (fun y hy => h y (by simp [hy]))]

/-- Ids in `a..e` outside `del`. -/
def liveIds (a e : Nat) (del : List Nat) : List Nat := (List.range' a (e - a)).filter (· ∉ del)

theorem liveIds_done {a e : Nat} (del : List Nat) (h : e ≤ a) : liveIds a e del = [] := by
  unfold liveIds
  have : e - a = 0 := by omega
  rw [this]; rfl

theorem liveIds_step {a e : Nat} (del : List Nat) (h : a < e) :
    liveIds a e del = if a ∈ del then liveIds (a + 1) e del else a :: liveIds (a + 1) e del := by
  unfold liveIds
  have : e - a = (e - (a + 1)) + 1 := by omega
  rw [this, List.range'_succ, List.filter_cons]
  by_cases h : a ∈ del <;> simp [h]

theorem liveIds_dropWhile {a e : Nat} {del : List Nat} (hd : BSet.Ok del) :
    liveIds (a + 1) e (del.dropWhile (· < a)) = liveIds (a + 1) e del := by
  unfold liveIds
  apply filter_congr_mem
  intro x hx
  have hxa : a < x := by simp [List.mem_range'] at hx; omega
  have : x ∈ del.dropWhile (fun y => decide (y < a)) ↔ x ∈ del := by
    constructor
    · intro hm; exact (List.dropWhile_sublist _).subset hm
    · intro hm
      have hsplit := List.takeWhile_append_dropWhile (p := fun y => decide (y < a)) (l := del)
      rw [← hsplit] at hm
      rcases List.mem_append.1 hm with hm | hm
      · have := List.all_takeWhile (p := fun y => decide (y < a)) (l := del)
        have := List.all_eq_true.1 this x hm
        simp at this; omega
      · exact hm
  simp [this]

theorem nextLoop_ok (max k : Nat) {a e : Nat} {del : List Nat} (he : e ≤ max) (hk : e - a < k) (hd : BSet.Ok del) :
    (∃ it, LiveIter.nextLoop max k ⟨⟨a, e⟩, del⟩ = .ok (none, it) ∧ liveIds a e del = []) ∨
    (∃ x del', LiveIter.nextLoop max k ⟨⟨a, e⟩, del⟩ = .ok (some x, ⟨⟨x + 1, e⟩, del'⟩) ∧ a ≤ x ∧ x < e ∧
      BSet.Ok del' ∧ liveIds a e del = x :: liveIds (x + 1) e del') := by
  induction k generalizing a del with
  | zero => omega
  | succ k ih =>
    unfold LiveIter.nextLoop
    by_cases h : e ≤ a
    · left
      rw [rangeNext_done h, okBind]
      exact ⟨_, rfl, liveIds_done _ h⟩
    · rw [rangeNext_step (by omega) he, okBind]
      simp only []
      have hj := joinStep_spec a (right := del) (hd.imp (fun h => le_of_lt h))
      have hd' : BSet.Ok (del.dropWhile (· < a)) := List.Pairwise.sublist (List.dropWhile_sublist _) hd
      rw [hj]
      by_cases hm : a ∈ del
      · simp only [hm, if_true]
        rw [liveIds_step del (by omega), if_pos hm, ← liveIds_dropWhile hd]
        rcases ih (a := a + 1) (by omega) hd' with ⟨it, h1, h2⟩ | ⟨x, del', h1, h2, h3, h4, h5⟩
        · exact Or.inl ⟨it, h1, h2⟩
        · exact Or.inr ⟨x, del', h1, by omega, h3, h4, h5⟩
      · right
        refine ⟨a, del.dropWhile (· < a), ?_, le_refl _, by omega, hd', ?_⟩
        · simp only [hm, if_false]
          by_cases hs : ∀ r ∈ del, r < a
          · simp only [if_pos hs]
          · simp only [if_neg hs]
        · rw [liveIds_step del (by omega), if_neg hm, ← liveIds_dropWhile hd]

theorem drain_live (max fuel a e : Nat) {del : List Nat} (he : e ≤ max) (hf : e - a < fuel) (hd : BSet.Ok del) :
    drain (LiveIter.next max) fuel ⟨⟨a, e⟩, del⟩ = .ok (liveIds a e del) := by
  induction fuel generalizing a del with
  | zero => omega
  | succ n ih =>
    unfold drain LiveIter.next
    rcases nextLoop_ok max (e - a + 1) (a := a) he (by omega) hd with ⟨it, h1, h2⟩ | ⟨x, del', h1, h2, h3, h4, h5⟩
    · simp only []
      rw [h1, okBind, h2]
    · simp only []
      rw [h1, okBind]
      have := ih (x + 1) (by omega) h4
      unfold LiveIter.next at this
      simp only []
      rw [this, okBind, h5]

variable {S : Schema} [LS : LawfulSchema S]

/-- `table.range(r)` on a table whose free list is ascending: the live ids of the range. -/
theorem rangeIds_ok {t : Tbl S} {L : List (Row S)} {d : Nat → Prop} (h : Aligned t L d) (r : RowRange)
    (hr : r.start < L.length ∨ r.start = r.stop) (he : r.stop ≤ L.length) (hm : r.stop ≤ S.max) :
    t.rangeIds r = .ok (liveIds r.start r.stop t.free) := by
  have hc : t.rangeChecked r = .ok r := by
    unfold Tbl.rangeChecked; rw [h.rep.len, if_pos hr, if_pos he]
  unfold Tbl.rangeIds
  by_cases hk : S.kind = .consistent
  · rw [if_pos hk]
    unfold Tbl.rangeLive
    rw [hc]
    simp only [okBind]
    exact drain_live S.max _ _ _ hm (by omega) h.ok
  · rw [if_neg hk, hc, okBind, drain_range S.max _ _ _ hm (by omega)]
    unfold liveIds
    rw [(h.kind hk).1]
    simp [List.filter_eq_self.2]

theorem iterIds_ok {t : Tbl S} {L : List (Row S)} {d : Nat → Prop} (h : Aligned t L d) (hm : L.length ≤ S.max) :
    t.iterIds = .ok (liveIds 0 L.length t.free) := by
  unfold Tbl.iterIds Tbl.rowRange
  rw [h.rep.len, fromUsize_ok hm]
  simp only [okBind]
  rw [rangeIds_ok h ⟨0, L.length⟩ (by simp only []; omega) (le_refl _) hm]

theorem iterIds_full {t : Tbl S} {L : List (Row S)} {d : Nat → Prop} (h : Aligned t L d) (hm : S.max < L.length) :
    t.iterIds = .error .idxOverflow := by
  unfold Tbl.iterIds Tbl.rowRange
  rw [h.rep.len, fromUsize_err hm]
  rfl

theorem editIds_ok {t : Tbl S} {L : List (Row S)} {d : Nat → Prop} (h : Aligned t L d) (hm : L.length ≤ S.max) :
    t.editIds = .ok (liveIds 0 L.length t.free) := by
  unfold Tbl.editIds Tbl.rowRange
  rw [h.rep.len, fromUsize_ok hm]
  simp only [okBind]
  exact drain_live S.max _ _ _ hm (by omega) h.ok

end V11
