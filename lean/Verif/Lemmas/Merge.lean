import Verif.Lemmas.Sorted
import Mathlib.Data.List.Sort

/-!
# `merge_logged` as a whole
-/

set_option linter.unusedSimpArgs false
set_option linter.unusedSectionVars false

namespace V11

section Lists
variable {A K : Type} [LinearOrder K]

theorem merge_map_snd {B : Type} (key : A → K) (a b : List (B × A)) :
    (List.merge a b (fun x y => key x.2 ≤ key y.2)).map Prod.snd =
      List.merge (a.map Prod.snd) (b.map Prod.snd) (fun x y => key x ≤ key y) := by
  induction a generalizing b with
  | nil => simp
  | cons x xs ih =>
    induction b with
    | nil => simp
    | cons y ys ih2 =>
      simp only [List.cons_merge_cons, List.map_cons]
      by_cases h : key x.2 ≤ key y.2
      · simp only [h, decide_true, if_true, List.map_cons, ih]
      · simp only [h, decide_false, Bool.false_eq_true, if_false, List.map_cons, ih2]

/-- Elements with the given tag, in order. -/
def tagged (b : Bool) (l : List (Bool × A)) : List A := (l.filter (fun p => p.1 = b)).map Prod.snd

theorem merge_tagged (key : A → K) (old new : List A) :
    tagged false (List.merge (old.map (Prod.mk false)) (new.map (Prod.mk true)) (fun a b => key a.2 ≤ key b.2)) = old ∧
    tagged true (List.merge (old.map (Prod.mk false)) (new.map (Prod.mk true)) (fun a b => key a.2 ≤ key b.2)) = new := by
  induction old generalizing new with
  | nil => simp [tagged, List.filter_map, Function.comp_def]
  | cons x xs ih =>
    induction new with
    | nil => simp [tagged, List.filter_map, Function.comp_def]
    | cons y ys ih2 =>
      simp only [List.map_cons, List.cons_merge_cons]
      by_cases h : key x ≤ key y
      · have := ih (y :: ys)
        simp only [h, decide_true, if_true, tagged, List.filter_cons] at this ⊢
        simpa using this
      · simp only [h, decide_false, tagged, List.filter_cons] at ih2 ⊢
        simpa using ih2

theorem trueIdx_ge (off : Nat) (l : List (Bool × A)) : ∀ i ∈ trueIdx off l, off ≤ i ∧ i < off + l.length := by
  induction l generalizing off with
  | nil => simp [trueIdx]
  | cons x xs ih =>
    intro i hi
    rcases x with ⟨⟨⟩, a⟩
    · have := ih (off + 1) i hi
      simp; omega
    · rcases List.mem_cons.1 hi with rfl | hi
      · simp
      · have := ih (off + 1) i hi
        simp; omega

theorem trueIdx_sorted (off : Nat) (l : List (Bool × A)) : (trueIdx off l).Pairwise (· < ·) := by
  induction l generalizing off with
  | nil => simp [trueIdx]
  | cons x xs ih =>
    rcases x with ⟨⟨⟩, a⟩
    · exact ih (off + 1)
    · refine List.pairwise_cons.2 ⟨?_, ih (off + 1)⟩
      intro i hi
      have := trueIdx_ge (off + 1) xs i hi
      omega

theorem trueIdx_get (pre : List A) (l : List (Bool × A)) :
    (trueIdx pre.length l).map (fun i => (pre ++ l.map Prod.snd)[i]?) = (tagged true l).map some := by
  induction l generalizing pre with
  | nil => simp [trueIdx, tagged]
  | cons x xs ih =>
    rcases x with ⟨b, a⟩
    have := ih (pre ++ [a])
    simp only [List.length_append, List.length_cons, List.length_nil, List.append_assoc, List.cons_append,
      List.nil_append] at this
    cases b
    · simpa [trueIdx, tagged] using this
    · simp only [trueIdx, List.map_cons, tagged, List.filter_cons]
      simp only [tagged] at this
      simp [this]

theorem trueIdx_rest (off : Nat) (l : List (Bool × A)) (p : Nat → Bool) (hp : ∀ i, off ≤ i → (p i = true ↔ i ∉ trueIdx off l)) :
    (((l.map Prod.snd).zipIdx off).filter (fun q => p q.2)).map Prod.fst = tagged false l := by
  induction l generalizing off with
  | nil => simp [tagged]
  | cons x xs ih =>
    rcases x with ⟨b, a⟩
    simp only [List.map_cons, List.zipIdx_cons, List.filter_cons, tagged]
    have hrest : (((xs.map Prod.snd).zipIdx (off + 1)).filter (fun q => p q.2)).map Prod.fst = tagged false xs := by
      apply ih
      intro i hi
      rw [hp i (by omega)]
      cases b
      · simp [trueIdx]
      · simp [trueIdx]; omega
    have h0 := hp off (le_refl _)
    cases b
    · have : p off = true := by
        rw [h0]; intro hm; have := trueIdx_ge (off + 1) xs off hm; omega
      simp only [tagged] at hrest
      simp [this, hrest]
    · have : p off = false := by
        rw [← Bool.not_eq_true, h0]; simp [trueIdx]
      simp only [tagged] at hrest
      simp [this, hrest]

/-- `trueIdx` positions place the new elements. -/
theorem placed_trueIdx (l : List (Bool × A)) :
    Placed (l.map Prod.snd) (tagged false l) (tagged true l) (trueIdx 0 l) := by
  refine ⟨trueIdx_sorted 0 l, ?_, ?_⟩
  · simpa using trueIdx_get [] l
  · exact trueIdx_rest 0 l (fun i => i ∉ trueIdx 0 l) (by simp)

/-- The tagged version of `mergeSpec`. -/
def mergeTags (key : A → K) (old : List A) (first : A) (rest : List A) : List (Bool × A) :=
  (old.takeWhile (fun r => key r < key first)).map (Prod.mk false) ++ (true, first) ::
    List.merge ((old.dropWhile (fun r => key r < key first)).map (Prod.mk false)) (rest.map (Prod.mk true))
      (fun a b => key a.2 ≤ key b.2)

theorem mergeTags_snd (key : A → K) (old : List A) (first : A) (rest : List A) :
    (mergeTags key old first rest).map Prod.snd = mergeSpec key old (first :: rest) := by
  simp [mergeTags, mergeSpec, merge_map_snd, Function.comp_def]

theorem tagged_append (b : Bool) (l m : List (Bool × A)) : tagged b (l ++ m) = tagged b l ++ tagged b m := by
  simp [tagged]

theorem mergeTags_tagged (key : A → K) (old : List A) (first : A) (rest : List A) :
    tagged false (mergeTags key old first rest) = old ∧ tagged true (mergeTags key old first rest) = first :: rest := by
  have h := merge_tagged key (old.dropWhile (fun r => key r < key first)) rest
  simp only [mergeTags, tagged_append]
  constructor
  · rw [show ∀ l : List (Bool × A), tagged false ((true, first) :: l) = tagged false l from fun l => by simp [tagged], h.1]
    simp [tagged, List.filter_map, Function.comp_def, List.takeWhile_append_dropWhile]
  · rw [show ∀ l : List (Bool × A), tagged true ((true, first) :: l) = first :: tagged true l from fun l => by simp [tagged], h.2]
    simp [tagged, List.filter_map, Function.comp_def]

theorem placed_mergeTags (key : A → K) (old : List A) (first : A) (rest : List A) :
    Placed (mergeSpec key old (first :: rest)) old (first :: rest) (trueIdx 0 (mergeTags key old first rest)) := by
  have := placed_trueIdx (mergeTags key old first rest)
  rwa [mergeTags_snd, (mergeTags_tagged key old first rest).1, (mergeTags_tagged key old first rest).2] at this

theorem trueIdx_false (off : Nat) (l : List A) : trueIdx off (l.map (Prod.mk false)) = [] := by
  induction l generalizing off with
  | nil => rfl
  | cons x xs ih => simp [trueIdx, ih]

end Lists

variable {S : Schema} [LS : LawfulSchema S] {K : Type} [LinearOrder K]

theorem findCursor_full (key : Row S → K) {t : Tbl S} {L : List (Row S)} (h : WF t L) (hf : t.free = [])
    (first : Row S) (k c : Nat) (hc : c + k = L.length) :
    (∃ c', findCursor key t first c k = .ok c') ∨ findCursor key t first c k = .error .idxOverflow := by
  induction k generalizing c with
  | zero => exact Or.inl ⟨c, rfl⟩
  | succ k ih =>
    unfold findCursor
    rw [h.getRow (i := c) (by omega) (by simp [hf]), okBind]
    by_cases hlt : key L[c] < key first
    · rw [if_pos hlt]
      unfold nextId
      by_cases hm : c + 1 ≤ S.max
      · rw [if_pos hm, okBind]; exact ih (c + 1) (by omega)
      · rw [if_neg hm, errBind]; exact Or.inr rfl
    · rw [if_neg hlt]; exact Or.inl ⟨c, rfl⟩

/-- `merge_logged` on a non-empty input: `mergeSpec`, with the positions of the new rows; or the id type
overflows. -/
theorem mergeLogged_cons (key : Row S → K) {t : Tbl S} {L : List (Row S)} (h : WF t L) (hf : t.free = [])
    (first : Row S) (rest : List (Row S)) :
    (L.length ≤ S.max → L.length + (rest.length + 1) ≤ S.max + 1 →
      ∃ t', t.mergeLogged key (first :: rest) = .ok (t', trueIdx 0 (mergeTags key L first rest)) ∧ t'.free = [] ∧
        WF t' (mergeSpec key L (first :: rest))) ∧
    (S.max < L.length ∨ S.max + 1 < L.length + (rest.length + 1) →
      t.mergeLogged key (first :: rest) = .error .idxOverflow) := by
  by_cases hm : L.length ≤ S.max
  swap
  · refine ⟨fun h' => absurd h' hm, fun _ => ?_⟩
    unfold Tbl.mergeLogged
    simp only []
    rw [h.len, fromUsize_err (by omega)]
    rcases findCursor_full key h hf first L.length 0 (by omega) with ⟨c, hc⟩ | hc
    · rw [hc, okBind, errBind]
    · rw [hc, errBind]
  set p : Row S → Bool := fun r => decide (key r < key first) with hp
  set c := (L.takeWhile p).length with hcdef
  have hcl : c ≤ L.length := (List.takeWhile_prefix p).length_le
  have htake : L.takeWhile p = L.take c := by
    exact List.prefix_iff_eq_take.1 (List.takeWhile_prefix p)
  have hdrop : L.dropWhile p = L.drop c := by
    have h1 : L.takeWhile p ++ L.dropWhile p = L.take c ++ L.drop c := by
      rw [List.takeWhile_append_dropWhile, List.take_append_drop]
    rw [htake] at h1
    exact List.append_cancel_left h1
  have htl : (L.take c).length = c := by simp; omega
  have hcur : findCursor key t first 0 L.length = .ok c := by
    have := findCursor_ok key h hf hm first L.length 0 (by omega)
    simpa [hcdef, hp] using this
  have hids : drain (RowRange.next S.max) (L.length - c + 1) ⟨c, L.length⟩ = .ok (List.range' c (L.length - c)) :=
    drain_range S.max _ _ _ hm (by omega)
  -- the state after stage 2
  have stage2 : ∃ st done, (List.range' c (L.length - c)).foldlM (mergeBump key)
        { tbl := t, rug := [], iter := first :: rest, log := [] } = .ok st ∧ st.tbl.free = [] ∧
      WF st.tbl done ∧ done.length = L.length ∧
      done ++ (tagMerge key st.rug st.iter).map Prod.snd = mergeSpec key L (first :: rest) ∧
      st.rug.length + st.iter.length = rest.length + 1 ∧
      st.log ++ trueIdx L.length (tagMerge key st.rug st.iter) = trueIdx 0 (mergeTags key L first rest) := by
    have hspec : mergeSpec key L (first :: rest)
        = L.take c ++ first :: (tagMerge key (L.drop c) rest).map Prod.snd := by
      unfold mergeSpec tagMerge
      simp only []
      rw [merge_map_snd, ← htake, ← hdrop]
      simp [Function.comp_def, hp]
    have hlog : trueIdx 0 (mergeTags key L first rest) = c :: trueIdx (c + 1) (tagMerge key (L.drop c) rest) := by
      unfold mergeTags
      rw [trueIdx_append, trueIdx_false]
      simp only [List.nil_append, List.length_map, Nat.zero_add, trueIdx]
      rw [← hp, ← hcdef, hdrop]; rfl
    by_cases hc : c = L.length
    · refine ⟨{ tbl := t, rug := [], iter := first :: rest, log := [] }, L, ?_, hf, h, rfl, ?_, by simp, ?_⟩
      · have : L.length - c = 0 := by omega
        rw [this]; rfl
      · rw [hspec, hc]; simp [tagMerge_nil_left, Function.comp_def]
      · rw [hlog, hc]; simp [tagMerge_nil_left, trueIdx]
    · have hlt : c < L.length := by omega
      obtain ⟨t1, e1, e2, e3⟩ := h.swapOutRow first hlt hf
      have hL : L.set c first = (L.take c ++ [first]) ++ L.drop (c + 1) := by
        rw [List.set_eq_take_append_cons_drop]; simp [hlt]
      rw [hL] at e3
      have hdl : (L.take c ++ [first]).length = c + 1 := by simp; omega
      obtain ⟨st', g1, g2, g3, g4, g5⟩ := mergeBump_loop key (L.drop (c + 1))
        (st := { tbl := t1, rug := [L[c]], iter := rest, log := [c] }) (done := L.take c ++ [first]) e3 e2 (by simp)
      have hcons : [L[c]] ++ L.drop (c + 1) = L.drop c := (List.drop_eq_getElem_cons hlt).symm
      simp only [hcons, hdl, List.length_drop] at g1 g3 g4 g5
      set M := tagMerge key (L.drop c) rest with hM
      have hMlen : M.length = (L.length - c) + rest.length := by rw [hM, tagMerge_length]; simp
      refine ⟨st', (L.take c ++ [first]) ++ (M.take (L.length - (c + 1))).map Prod.snd, ?_, g2, g3, ?_, ?_, ?_, ?_⟩
      · have : L.length - c = (L.length - (c + 1)) + 1 := by omega
        rw [this, List.range'_succ, List.foldlM_cons]
        have hb : mergeBump key { tbl := t, rug := [], iter := first :: rest, log := [] } c
            = .ok { tbl := t1, rug := [L[c]], iter := rest, log := [c] } := by
          unfold mergeBump
          simp only [chooseSide]
          rw [e1, okBind]
          simp
        rw [hb, okBind, g1]
      · rw [List.length_append, hdl, List.length_map, List.length_take, hMlen]; omega
      · rw [g4, hspec, List.append_assoc, ← List.map_append, List.take_append_drop]; simp
      · have := congrArg List.length g4
        rw [tagMerge_length, List.length_drop, hMlen] at this
        omega
      · rw [g5, g4, hlog]
        have : M = M.take (L.length - (c + 1)) ++ M.drop (L.length - (c + 1)) := (List.take_append_drop _ _).symm
        conv_rhs => rw [this, trueIdx_append]
        rw [List.length_take, hMlen]
        have e : c + 1 + min (L.length - (c + 1)) (L.length - c + rest.length) = L.length := by omega
        rw [e]; simp
  obtain ⟨st, done, s1, s2, s3, s4, s5, s6, s7⟩ := stage2
  have hfl := mergeFlush_ok key (st.rug.length + st.iter.length + 1) s3 s2 (by omega)
  have hrun : t.mergeLogged key (first :: rest) =
      (mergeFlush key (st.rug.length + st.iter.length + 1) st >>= fun st => .ok (st.tbl, st.log)) := by
    unfold Tbl.mergeLogged
    simp only []
    rw [h.len, hcur, okBind, fromUsize_ok hm, okBind, hids, okBind, s1, okBind]
  constructor
  · intro _ htot
    obtain ⟨st', f1, f2, f3, f4⟩ := hfl.1 (by omega)
    refine ⟨st'.tbl, ?_, f2, by rw [← s5]; exact f3⟩
    rw [hrun, f1, okBind, f4, s4, s7]
  · intro htot
    rw [hrun, hfl.2 (by omega), errBind]

theorem mergeLogged_nil (key : Row S → K) (t : Tbl S) : t.mergeLogged key [] = .ok (t, []) := rfl

end V11
