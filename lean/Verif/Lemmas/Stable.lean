import Verif.Lemmas.Merge
import Verif.Lemmas.Remove

/-!
# Where `merge` puts old and new rows with equal keys
-/

set_option linter.unusedSimpArgs false

namespace V11
variable {A K : Type} [LinearOrder K]

/-- New before old only with a smaller key. -/
def NewBelow (key : A → K) (l : List (Bool × A)) : Prop :=
  l.Pairwise (fun a b => a.1 = true → b.1 = false → key a.2 < key b.2)

theorem newBelow_false (key : A → K) (l : List A) : NewBelow key (l.map (Prod.mk false)) := by
  induction l with
  | nil => simp [NewBelow]
  | cons x xs ih =>
    refine List.pairwise_cons.2 ⟨?_, ih⟩
    intro b _ h; cases h

theorem newBelow_true (key : A → K) (l : List A) : NewBelow key (l.map (Prod.mk true)) := by
  unfold NewBelow
  rw [List.pairwise_map]
  exact List.pairwise_of_forall (fun _ _ _ h => by cases h)

theorem newBelow_merge (key : A → K) (old new : List A) (ho : SortedBy key old) :
    NewBelow key (List.merge (old.map (Prod.mk false)) (new.map (Prod.mk true)) (fun a b => key a.2 ≤ key b.2)) := by
  induction old generalizing new with
  | nil => simpa [List.merge] using newBelow_true key new
  | cons r rs ih =>
    induction new with
    | nil => simpa using newBelow_false key (r :: rs)
    | cons i is ih2 =>
      simp only [List.map_cons, List.cons_merge_cons]
      have hs := (List.pairwise_cons.1 ho)
      split
      · refine List.pairwise_cons.2 ⟨?_, ?_⟩
        · intro b _ h; cases h
        · exact ih (i :: is) hs.2
      · rename_i hlt
        refine List.pairwise_cons.2 ⟨?_, ih2⟩
        rintro ⟨b, x⟩ hb _ hf
        subst hf
        simp only [decide_eq_true_eq, not_le] at hlt
        rcases List.mem_merge.1 hb with hb | hb
        · rcases List.mem_cons.1 hb with e | hb
          · injection e with _ e; subst e; exact hlt
          · simp only [List.mem_map, Prod.mk.injEq, true_and, exists_eq_right] at hb
            exact lt_of_lt_of_le hlt (hs.1 x hb)
        · simp at hb

theorem mem_trueIdx (off : Nat) (l : List (Bool × A)) (i : Nat) :
    i ∈ trueIdx off l ↔ ∃ j x, i = off + j ∧ l[j]? = some (true, x) := by
  induction l generalizing off with
  | nil => simp [trueIdx]
  | cons p ps ih =>
    rcases p with ⟨b, a⟩
    have key : (∃ j x, i = off + j ∧ ((b, a) :: ps)[j]? = some (true, x)) ↔
        (i = off ∧ b = true) ∨ ∃ j x, i = off + 1 + j ∧ ps[j]? = some (true, x) := by
      constructor
      · rintro ⟨j, x, e, h⟩
        cases j with
        | zero => left; simp at h; exact ⟨by omega, h.1⟩
        | succ j => right; exact ⟨j, x, by omega, by simpa using h⟩
      · rintro (⟨e, h⟩ | ⟨j, x, e, h⟩)
        · exact ⟨0, a, by omega, by simp [h]⟩
        · exact ⟨j + 1, x, by omega, by simpa using h⟩
    rw [key, ← ih]
    cases b <;> simp [trueIdx]

theorem trueIdx_head (key : A → K) (old : List A) (first : A) (rest : List A) :
    ∃ tl, trueIdx 0 (mergeTags key old first rest) =
      (old.takeWhile (fun r => key r < key first)).length :: tl := by
  rw [mergeTags, trueIdx_append, trueIdx_false]
  simp only [trueIdx, List.nil_append, List.length_map, Nat.zero_add]
  exact ⟨_, rfl⟩

theorem takeWhile_sorted (key : A → K) (old : List A) (ho : SortedBy key old) (k : K) :
    old.takeWhile (fun r => key r < k) = old.filter (fun r => key r < k) := by
  induction old with
  | nil => rfl
  | cons r rs ih =>
    have hs := List.pairwise_cons.1 ho
    by_cases h : key r < k
    · simp [h, ih hs.2]
    · have : rs.filter (fun r => key r < k) = [] := by
        rw [List.filter_eq_nil_iff]
        intro x hx
        simp only [decide_eq_true_eq, not_lt]
        exact le_trans (not_lt.1 h) (hs.1 x hx)
      simp [h, this]

/-- In the merged list, an old row with the same key as a new row other than the first comes before it. -/
theorem old_before_later_new (key : A → K) (old : List A) (first : A) (rest : List A) (ho : SortedBy key old)
    (p q : Nat) (x y : A) (hp : (mergeSpec key old (first :: rest))[p]? = some x)
    (hq : (mergeSpec key old (first :: rest))[q]? = some y)
    (hpn : p ∉ trueIdx 0 (mergeTags key old first rest)) (hqn : q ∈ trueIdx 0 (mergeTags key old first rest))
    (hq0 : q ≠ (old.takeWhile (fun r => key r < key first)).length) (he : key x = key y) : p < q := by
  rw [← mergeTags_snd] at hp hq
  simp only [List.getElem?_map, Option.map_eq_some_iff] at hp hq
  obtain ⟨⟨bp, x'⟩, hp, rfl⟩ := hp
  obtain ⟨⟨bq, y'⟩, hq, rfl⟩ := hq
  simp only at he
  have hbp : bp = false := by
    by_contra h
    apply hpn
    rw [mem_trueIdx]
    exact ⟨p, x', by omega, by rw [hp]; simpa using h⟩
  have hbq : bq = true := by
    obtain ⟨j, z, e, h⟩ := (mem_trueIdx 0 _ q).1 hqn
    rw [show j = q by omega, hq] at h
    simp at h; exact h.1
  subst hbp hbq
  by_contra hlt
  rcases Nat.lt_or_ge q p with hqp | hqp
  swap
  · have : p = q := by omega
    subst this; rw [hp] at hq; simp at hq
  -- `q` lies strictly after the first new row
  set c := (old.takeWhile (fun r => key r < key first)).length with hc
  have hsorted : SortedBy key (old.dropWhile (fun r => key r < key first)) :=
    ho.sublist (List.dropWhile_sublist _)
  have hM := newBelow_merge key _ rest hsorted
  unfold mergeTags at hp hq
  have hqc : c < q := by
    rcases Nat.lt_trichotomy q c with h | h | h
    · rw [List.getElem?_append_left (by simpa using h)] at hq
      simp at hq
    · exact absurd h hq0
    · exact h
  rw [List.getElem?_append_right (by simp; omega)] at hp hq
  simp only [List.length_map, ← hc] at hp hq
  obtain ⟨q', rfl⟩ : ∃ q', q = c + 1 + q' := ⟨q - c - 1, by omega⟩
  obtain ⟨p', rfl⟩ : ∃ p', p = c + 1 + p' := ⟨p - c - 1, by omega⟩
  rw [show c + 1 + q' - c = q' + 1 by omega, List.getElem?_cons_succ] at hq
  rw [show c + 1 + p' - c = p' + 1 by omega, List.getElem?_cons_succ] at hp
  obtain ⟨hq1, hq2⟩ := List.getElem?_eq_some_iff.1 hq
  obtain ⟨hp1, hp2⟩ := List.getElem?_eq_some_iff.1 hp
  have := List.pairwise_iff_getElem.1 hM q' p' hq1 hp1 (by omega)
  rw [hp2, hq2] at this
  have := this rfl rfl
  simp only at this
  exact absurd he (ne_of_gt this)

end V11
