import Verif.Props.Crash
import Verif.Props.Sorted
import Verif.Lemmas.LeftMerge
import Verif.Lemmas.LeftBag

/-!
# What exactly a panic of the caller's code leaves (C71)
-/

set_option linter.unusedSimpArgs false
set_option linter.unusedSectionVars false
set_option linter.unusedVariables false

namespace V11
variable {S : Schema} [LS : LawfulSchema S] [LV : LeavesSchema S] {K : Type} [LinearOrder K] {key : Row S → K}

theorem Survived.wf_of_holds {t : Tbl S} {L : List (Row S)} (h : Survived key t) (hk : S.kind ≠ .consistent)
    (hL : Holds t L) : WF t L ∧ t.free = [] := by
  obtain ⟨L', d, ha⟩ := h.aligned
  have hw := ha.wf hk
  rw [hL.unique (hw.holds' hk)]
  exact ⟨hw, (ha.kind hk).1⟩

/-! ## `visit` and `retain` -/

/-- C71: a `visit` in which the closure, or an iterator it returned, may panic: what the table then holds. -/
theorem C71_visit (t : Tbl S) (ht : Survived key t) (hk : S.kind ≠ .consistent) (L : List (Row S)) (hL : Holds t L)
    (hm : t.len ≤ S.max) {σ : Type} (f : Nat → Row S → σ → Option (Action (Option (Row S)) × σ)) (s : σ)
    (hfit : (visitPlaced f 0 [] L s).1.length ≤ S.max + 1) :
    ∃ t', Cr.visit (onRowC f) s t = (t', if (visitPlaced f 0 [] L s).2 then .error .userPanic else .ok ()) ∧
      Holds t' (if (visitPlaced f 0 [] L s).2 then putOver L (visitPlaced f 0 [] L s).1 else (visitPlaced f 0 [] L s).1) := by
  obtain ⟨hw, hf⟩ := ht.wf_of_holds hk hL
  obtain ⟨t', e1, e2, e3⟩ := (cr_merge0 hw hf (by rw [← hL.1]; exact hm) f s).1 hfit
  exact ⟨t', e1, e3.holds' hk⟩

section Lists
variable {A σ : Type}

/-- A closure that never breaks, and panics when it is asked about row `k`. -/
def panicsAt (k : Nat) (f : Nat → A → σ → (Bool × List A) × σ) : Nat → A → σ → Option (Action (Option A) × σ) := fun i r s =>
  if i = k then none else some (.cont (f i r s).1.1 ((f i r s).1.2.map some), (f i r s).2)

/-- The same closure without the panic. -/
def calmly (f : Nat → A → σ → (Bool × List A) × σ) : Nat → A → σ → Action A × σ := fun i r s =>
  (.cont (f i r s).1.1 (f i r s).1.2, (f i r s).2)

theorem visitPlaced_panicsAt (k : Nat) (f : Nat → A → σ → (Bool × List A) × σ) (rest : List A) (i : Nat) (O : List A) (s : σ)
    (hi : i ≤ k) (hk : k < i + rest.length) :
    visitPlaced (panicsAt k f) i (O.map some) rest s =
      ((O ++ (visitRows (calmly f) i (rest.take (k - i)) s).1).take k, true) := by
  induction rest generalizing i O s with
  | nil => simp at hk; omega
  | cons r rest ih =>
    simp only [visitPlaced, panicsAt]
    by_cases h : i = k
    · subst h
      simp [visitRows, ← List.map_take, okPrefix_map]
    · rw [if_neg h]
      simp only []
      have e : k - i = (k - (i + 1)) + 1 := by omega
      rw [e, List.take_succ_cons]
      simp only [visitRows, calmly]
      have e2 : O.map some ++ (if (f i r s).1.1 = true then [] else [some r]) ++ (f i r s).1.2.map some =
          (O ++ (if (f i r s).1.1 = true then [] else [r]) ++ (f i r s).1.2).map some := by
        cases (f i r s).1.1 <;> simp
      rw [e2, okPrefix_map]
      simp only [List.length_map, lt_self_iff_false, false_and, if_false]
      rw [ih (i + 1) _ _ (by omega) (by simp at hk; omega)]
      simp

/-- `visitPlaced` when nothing panics is `visitRows`. -/
theorem visitPlaced_calm (f : Nat → A → σ → Action A × σ) (rest : List A) (i : Nat) (O : List A) (s : σ) :
    visitPlaced (fun i r s => some ((match (f i r s).1 with | .brk => .brk | .cont rm add => .cont rm (add.map some)), (f i r s).2))
      i (O.map some) rest s = (O ++ (visitRows f i rest s).1, false) := by
  induction rest generalizing i O s with
  | nil => simp [visitPlaced, visitRows, okPrefix_map]
  | cons r rest ih =>
    simp only [visitPlaced, visitRows]
    rcases hf : f i r s with ⟨a, s'⟩
    cases a with
    | brk =>
      simp only []
      rw [← List.map_append, okPrefix_map, okPrefix_map]
      simp
    | cont rm add =>
      simp only []
      have e2 : O.map some ++ (if rm = true then [] else [some r]) ++ add.map some =
          (O ++ (if rm = true then [] else [r]) ++ add).map some := by
        cases rm <;> simp
      rw [e2, okPrefix_map]
      simp only [List.length_map, lt_self_iff_false, false_and, if_false]
      rw [ih]
      simp

theorem visitPlaced_retain (f : Nat → A → σ → Option (Bool × σ)) (rest : List A) (i : Nat) (O : List A) (s : σ) (hO : O.length ≤ i) :
    visitPlaced (fun i r s => (f i r s).map fun x => (.cont (!x.1) [], x.2)) i (O.map some) rest s =
      (O ++ (retainPlaced f i rest s).1, (retainPlaced f i rest s).2) := by
  induction rest generalizing i O s with
  | nil => simp [visitPlaced, retainPlaced, okPrefix_map]
  | cons r rest ih =>
    simp only [visitPlaced, retainPlaced]
    cases hf : f i r s with
    | none =>
      simp only [Option.map_none]
      rw [List.take_of_length_le (by simpa using hO), okPrefix_map]
      simp
    | some x =>
      obtain ⟨b, s'⟩ := x
      simp only [Option.map_some]
      have e2 : O.map some ++ (if (!b) = true then [] else [some r]) ++ [] = (O ++ (if b then [r] else [])).map some := by
        cases b <;> simp
      rw [e2, okPrefix_map]
      simp only [List.length_map, lt_self_iff_false, false_and, if_false]
      rw [ih (i + 1) _ s' (by cases b <;> simp <;> omega)]
      cases b <;> simp

theorem retainPlaced_length (f : Nat → A → σ → Option (Bool × σ)) (rest : List A) (i : Nat) (s : σ) :
    (retainPlaced f i rest s).1.length ≤ rest.length := by
  induction rest generalizing i s with
  | nil => simp [retainPlaced]
  | cons r rest ih =>
    simp only [retainPlaced]
    cases f i r s with
    | none => simp
    | some x =>
      have := ih (i + 1) x.2
      simp only []
      split <;> simp <;> omega

theorem retainPlaced_split (p : A → Option Bool) (B C : List A) (x : A) (i : Nat) (hB : ∀ a ∈ B, p a ≠ none) (hx : p x = none) :
    retainPlaced (fun _ r (s : Unit) => (p r).map fun b => (b, s)) i (B ++ x :: C) () = (B.filter (fun a => p a = some true), true) := by
  induction B generalizing i with
  | nil => simp [retainPlaced, hx]
  | cons a B ih =>
    have ha := hB a (by simp)
    cases hp : p a with
    | none => exact absurd hp ha
    | some b =>
      simp only [List.cons_append, retainPlaced, hp, Option.map_some]
      rw [ih (i + 1) (fun a h => hB a (by simp [h]))]
      cases b <;> simp [List.filter_cons, hp]

end Lists

/-- C71: if the closure of `visit` panics when it is asked about row `k`, the table holds the first `k` of the rows that
came out of the rows before `k`, and behind them the old rows from that position on. So what had come out beyond the
first `k` rows is lost. -/
theorem C71_visit_closure_panics (t : Tbl S) (ht : Survived key t) (hk : S.kind ≠ .consistent) (L : List (Row S)) (hL : Holds t L)
    (hm : t.len ≤ S.max) {σ : Type} (f : Nat → Row S → σ → (Bool × List (Row S)) × σ) (s : σ) (k : Nat) (hkl : k < L.length)
    (out : List (Row S)) (hout : out = (visitRows (calmly f) 0 (L.take k) s).1) :
    ∃ t', Cr.visit (onRowC (panicsAt k f)) s t = (t', .error .userPanic) ∧
      Holds t' (out.take k ++ L.drop (min k out.length)) := by
  have e := visitPlaced_panicsAt k f L 0 [] s (by omega) (by omega)
  simp only [List.map_nil, List.nil_append, Nat.sub_zero, ← hout] at e
  have hLm : L.length ≤ S.max := by rw [← hL.1]; exact hm
  obtain ⟨t', e1, e2⟩ := C71_visit t ht hk L hL hm (panicsAt k f) s (by rw [e]; simp; omega)
  rw [e] at e1 e2
  refine ⟨t', by simpa using e1, ?_⟩
  simpa [putOver] using e2

/-- C71: what `retain` leaves when its closure panics: the rows kept so far, and behind them the old rows from that
position on. -/
theorem C71_retain (t : Tbl S) (ht : Survived key t) (hk : S.kind ≠ .consistent) (L : List (Row S)) (hL : Holds t L)
    (hm : t.len ≤ S.max) {σ : Type} (f : Nat → Row S → σ → Option (Bool × σ)) (s : σ) :
    ∃ t', Cr.retain (onRowC f) s t = (t', if (retainPlaced f 0 L s).2 then .error .userPanic else .ok ()) ∧
      Holds t' (if (retainPlaced f 0 L s).2 then putOver L (retainPlaced f 0 L s).1 else (retainPlaced f 0 L s).1) := by
  have e := visitPlaced_retain f L 0 [] s (by simp)
  simp only [List.map_nil, List.nil_append] at e
  have hLm : L.length ≤ S.max := by rw [← hL.1]; exact hm
  have hl := retainPlaced_length f L 0 s
  obtain ⟨t', e1, e2⟩ := C71_visit t ht hk L hL hm (fun i r s => (f i r s).map fun x => (.cont (!x.1) [], x.2)) s
    (by rw [e]; simp only []; omega)
  rw [e] at e1 e2
  refine ⟨t', ?_, e2⟩
  rw [← e1]
  unfold Cr.retain Cr.visit
  congr 1
  funext t i s
  unfold onRowC
  cases t.getRow i with
  | error p => rfl
  | ok r => cases f i r s <;> rfl

/-- C71: for a predicate that panics at the row `x` first: the rows it accepted are at the front, every row it was not
asked about is still there, and so is `x`; between them are the old rows at those positions, so a rejected row may still be
there and an accepted one be there twice. No accepted row is lost. -/
theorem C71_retain_predicate (t : Tbl S) (ht : Survived key t) (hk : S.kind ≠ .consistent) (B C : List (Row S)) (x : Row S)
    (hL : Holds t (B ++ x :: C)) (hm : t.len ≤ S.max) (p : Row S → Option Bool) (hB : ∀ a ∈ B, p a ≠ none) (hx : p x = none) :
    ∃ t' kept, kept = B.filter (fun a => p a = some true) ∧
      Cr.retain (onRowC fun _ r (s : Unit) => (p r).map fun b => (b, s)) () t = (t', .error .userPanic) ∧
      Holds t' (kept ++ B.drop kept.length ++ x :: C) := by
  obtain ⟨t', e1, e2⟩ := C71_retain t ht hk _ hL hm (fun _ r (s : Unit) => (p r).map fun b => (b, s)) ()
  rw [retainPlaced_split p B C x 0 hB hx] at e1 e2
  refine ⟨t', _, rfl, by simpa using e1, ?_⟩
  have hl := List.length_filter_le (fun a => decide (p a = some true)) B
  simp only [if_true, putOver] at e2
  rw [List.drop_append_of_le_length hl, ← List.append_assoc] at e2
  exact e2

/-! ## `push_all` and `push_array` -/

omit LS in
/-- C71: `push_all` of an iterator that panics after the rows `N` leaves, for every kind, what `push_all` of `N` leaves. -/
theorem C71_push_all (t : Tbl S) (w : W S) (N : List (Row S)) (more : List (Option (Row S)))
    (h : (W.lock t).pushAll N = .ok w) : Cr.pushAll (N.map some ++ none :: more) t = (w.tbl, .error .userPanic) := by
  have h1 : Cr.pushAll (N.map some) t = (w.tbl, .ok ()) := by
    apply out_ok.1
    have := out_pushAll N (W.lock t)
    rw [h] at this
    exact this
  clear h
  induction N generalizing t with
  | nil => simp [Cr.pushAll, Cr.ret, Cr.fail] at h1 ⊢; exact h1
  | cons r N ih =>
    have h2 : (Cr.push r >>= fun _ => Cr.pushAll (N.map some)) t = (w.tbl, .ok ()) := h1
    show (Cr.push r >>= fun _ => Cr.pushAll (N.map some ++ none :: more)) t = _
    rcases hp : Cr.push r t with ⟨t1, x⟩
    cases x with
    | error p => rw [cr_err hp] at h2; simp at h2
    | ok a =>
      rw [cr_ok hp] at h2 ⊢
      exact ih t1 h2

theorem cr_pushArrayLoop {t : Tbl S} {L : List (Row S)} (h : WF t L) (hf : t.free = []) (last : Nat) (N : List (Row S))
    (more : List (Option (Row S))) (hl : L.length + N.length ≤ S.max + 1) :
    ∃ t', Cr.pushArrayLoop (S := S) last (N.map some ++ none :: more) t = (t', .error .userPanic) ∧ t'.free = [] ∧ WF t' (L ++ N) := by
  induction N generalizing t L last with
  | nil => exact ⟨t, rfl, hf, by simpa using h⟩
  | cons r N ih =>
    simp only [List.length_cons] at hl
    obtain ⟨t1, e1, e2, e3⟩ := cr_pushOnly h hf r (by omega)
    obtain ⟨t', d1, d2, d3⟩ := ih e3 e2 L.length (by simp; omega)
    refine ⟨t', ?_, d2, by simpa using d3⟩
    show (Cr.pushOnly r >>= fun i => Cr.pushArrayLoop i (N.map some ++ none :: more)) t = _
    rw [cr_ok e1]; exact d1

/-- C71: `push_array` of an iterator that panics after the rows `N` leaves the old rows and `N`; so does `push_all`. -/
theorem C71_push_array (t : Tbl S) (ht : Survived key t) (hk : S.kind ≠ .consistent) (L : List (Row S)) (hL : Holds t L)
    (N : List (Row S)) (more : List (Option (Row S))) (hl : L.length + N.length ≤ S.max + 1) :
    (∃ t', Cr.pushArray (N.map some ++ none :: more) t = (t', .error .userPanic) ∧ Holds t' (L ++ N)) ∧
    (∃ t', Cr.pushAll (N.map some ++ none :: more) t = (t', .error .userPanic) ∧ Holds t' (L ++ N)) := by
  obtain ⟨hw, hf⟩ := ht.wf_of_holds hk hL
  constructor
  · cases N with
    | nil => exact ⟨t, rfl, by simpa using hL⟩
    | cons r N =>
      simp only [List.length_cons] at hl
      obtain ⟨t1, e1, e2, e3⟩ := cr_pushOnly hw hf r (by omega)
      obtain ⟨t', d1, d2, d3⟩ := cr_pushArrayLoop e3 e2 L.length N more (by simp; omega)
      refine ⟨t', ?_, by simpa using d3.holds' hk⟩
      show (Cr.pushOnly r >>= fun start => Cr.pushArrayLoop start (N.map some ++ none :: more) >>= fun last =>
        Cr.lift (nextId S.max last) >>= fun e => Cr.ret (start, e)) t = _
      rw [cr_ok e1, cr_err d1]
  · clear hL ht
    induction N generalizing t L with
    | nil => exact ⟨t, rfl, by simpa using hw.holds' hk⟩
    | cons r N ih =>
      simp only [List.length_cons] at hl
      obtain ⟨t1, e1, e2, e3⟩ := cr_pushOnly hw hf r (by omega)
      obtain ⟨t', d1, d2⟩ := ih t1 (L ++ [r]) (by simp; omega) e3 e2
      refine ⟨t', ?_, by simpa using d2⟩
      have hp : Cr.push r t = (t1, .ok L.length) := by
        unfold Cr.push
        rw [cr_ok (x := Cr.look fun t : Tbl S => .ok t.free) (t1 := t) (a := t.free) rfl, hf]
        exact e1
      show (Cr.push r >>= fun _ => Cr.pushAll (N.map some ++ none :: more)) t = _
      rw [cr_ok hp]; exact d1

/-! ## `merge` -/

/-- `L'` is what the panic leaves of the rows `L` after the new rows `N` have been put in place: `front`, the first rows of
the merge of `L` and `N` up to the last of `N`, and behind it the old rows `L`, except that as many as there are new
rows are missing between. -/
def MergeLeft (key : Row S → K) (L N L' : List (Row S)) : Prop :=
  ∃ front i, mergeSpec key L N = front ++ L.drop i ∧ front.Perm (L.take i ++ N) ∧ front.getLast? = N.getLast? ∧
    L' = front ++ L.drop (i + N.length)

theorem mergeUpTo_last {A : Type} (key : A → K) (old new : List A) : (mergeUpTo key old new).getLast? = new.getLast? := by
  induction old generalizing new with
  | nil => rw [mergeUpTo_left]
  | cons a old ih =>
    induction new with
    | nil => rw [mergeUpTo_nil]
    | cons b new ih2 =>
      rw [mergeUpTo_cons]
      split
      · have := ih (b :: new)
        rw [List.getLast?_cons, this]
        simp [List.getLast?_cons]
      · rw [List.getLast?_cons, ih2, List.getLast?_cons]

omit LS LV in
theorem mergeLeft_placed (key : Row S → K) (L N : List (Row S)) : MergeLeft key L N (putOver L (mergePlaced key L N)) := by
  obtain ⟨h1, h2, h3⟩ := mergePlaced_rest key L N
  refine ⟨mergePlaced key L N, (mergePlaced key L N).length - N.length, h3.symm, ?_, ?_, ?_⟩
  · have hp := mergeSpec_perm key L N
    rw [← h3] at hp
    have h4 : (L ++ N).Perm (L.take ((mergePlaced key L N).length - N.length) ++ N ++ L.drop ((mergePlaced key L N).length - N.length)) := by
      conv_lhs => rw [← List.take_append_drop ((mergePlaced key L N).length - N.length) L]
      rw [List.append_assoc, List.append_assoc]
      exact List.Perm.append_left _ List.perm_append_comm
    exact (List.perm_append_right_iff _).1 (hp.trans h4)
  · cases N with
    | nil => rfl
    | cons first rest =>
      simp only [mergePlaced]
      rw [List.getLast?_append, List.getLast?_cons, mergeUpTo_last, List.getLast?_cons]
      simp
  · unfold putOver
    rw [show (mergePlaced key L N).length - N.length + N.length = (mergePlaced key L N).length by omega]

/-- Such a table is still sorted, and has lost exactly as many old rows as new ones were placed, if there were that many
behind the last new one. -/
theorem MergeLeft.sorted {L N L' : List (Row S)} (h : MergeLeft key L N L') (hL : SortedBy key L) (hN : SortedBy key N) :
    SortedBy key L' := by
  obtain ⟨front, i, e, -, -, rfl⟩ := h
  have := mergeSpec_sorted key L N hL hN
  rw [e] at this
  refine List.Pairwise.sublist ?_ this
  exact List.Sublist.append (List.Sublist.refl _) (by rw [← List.drop_drop]; exact List.drop_sublist _ _)

omit LS LV in
theorem stops_iter (log : Tbl S → Nat → List Nat → Bool) (hlog : ∀ t i ids, log t i ids = false) (N : List (Row S))
    (more : List (Option (Row S))) (ids : List Nat) : Stops log N (N.map some ++ none :: more) ids := by
  induction N generalizing ids with
  | nil => exact ⟨more, rfl⟩
  | cons x N ih => exact ⟨_, rfl, Or.inr ⟨fun t i => hlog t i ids, fun i => ih _⟩⟩

omit LS LV in
theorem stops_log (log : Tbl S → Nat → List Nat → Bool) (n : Nat) (hlog : ∀ t i ids, log t i ids = true ↔ ids.length + 1 = n)
    (N : List (Row S)) (hN : N ≠ []) (more : List (Option (Row S))) (ids : List Nat) (hn : ids.length + N.length = n) :
    Stops log N (N.map some ++ more) ids := by
  induction N generalizing ids with
  | nil => exact absurd rfl hN
  | cons x N ih =>
    refine ⟨_, rfl, ?_⟩
    simp only [List.length_cons] at hn
    cases N with
    | nil => exact Or.inl ⟨rfl, fun t i => (hlog t i ids).2 (by simpa using hn)⟩
    | cons y N =>
      refine Or.inr ⟨fun t i => ?_, fun i => ?_⟩
      · rw [← Bool.not_eq_true, hlog]; simp at hn; omega
      · exact ih (by simp) _ (by simp at hn ⊢; omega)

/-- C71: `merge` of an iterator that panics after the rows `N`. -/
theorem C71_merge_iterator_panics (t : Tbl S) (ht : Survived key t) (hk : S.kind = .sorted) (L : List (Row S)) (hL : Holds t L)
    (N : List (Row S)) (more : List (Option (Row S))) (log : Tbl S → Nat → List Nat → Bool) (hlog : ∀ t i ids, log t i ids = false)
    (hfit : L.length + N.length ≤ S.max) :
    ∃ t' L', (COp.merge (N.map some ++ none :: more) log).run key t = (t', .error .userPanic) ∧
      Holds t' L' ∧ MergeLeft key L N L' := by
  have hk' := sorted_ne hk
  obtain ⟨hw, hf⟩ := ht.wf_of_holds hk' hL
  have hs := stops_iter log hlog N more []
  have hb := mergePlaced_rest key L N
  obtain ⟨t', e1, e2, e3⟩ := (cr_mergeLogged key log hw hf (by omega) _ N hs).1 (by omega)
  exact ⟨t', _, cr_err e1, e3.holds' hk', mergeLeft_placed key L N⟩

/-- C71: `merge_logged` whose `log` panics when it is told of the last of `N`, whatever the iterator still had. -/
theorem C71_merge_log_panics (t : Tbl S) (ht : Survived key t) (hk : S.kind = .sorted) (L : List (Row S)) (hL : Holds t L)
    (N : List (Row S)) (hN : N ≠ []) (more : List (Option (Row S))) (log : Tbl S → Nat → List Nat → Bool)
    (hlog : ∀ t i ids, log t i ids = true ↔ ids.length + 1 = N.length) (hfit : L.length + N.length ≤ S.max) :
    ∃ t' L', (COp.merge (N.map some ++ more) log).run key t = (t', .error .userPanic) ∧
      Holds t' L' ∧ MergeLeft key L N L' := by
  have hk' := sorted_ne hk
  obtain ⟨hw, hf⟩ := ht.wf_of_holds hk' hL
  have hs := stops_log log N.length hlog N hN more [] (by simp)
  have hb := mergePlaced_rest key L N
  obtain ⟨t', e1, e2, e3⟩ := (cr_mergeLogged key log hw hf (by omega) _ N hs).1 (by omega)
  exact ⟨t', _, cr_err e1, e3.holds' hk', mergeLeft_placed key L N⟩

/-! ## loops over a bag -/

/-- C71: a loop over `iter_mut()` of a bag whose body may panic: every visited row that was not marked and every row not
visited is still there, the marked ones are gone, including one marked just before the panic. -/
theorem C71_bag_loop (t : Tbl S) (ht : Survived key t) (hk : S.kind = .bag) (L : List (Row S)) (hL : Holds t L)
    (f : List (Nat × Row S) → Nat → Row S → Bool × Bool) (k : Nat) :
    ∃ t' visits left L', ((COp.bagLoop f k).run key t).1 = t' ∧ (visits.map Prod.snd ++ left).Perm L ∧
      Holds t' L' ∧ L'.Perm (keptVisits (fun seen i r => (f seen i r).1) [] visits ++ left) ∧
      ((((COp.bagLoop f k).run key t).2 = .ok () ∧ CalmVisits f [] visits ∧ visits.length = min k L.length) ∨
       (((COp.bagLoop f k).run key t).2 = .error .userPanic ∧ LastPanics f [] visits)) := by
  have hne : S.kind ≠ .consistent := by simp [hk]
  obtain ⟨hw, hf⟩ := ht.wf_of_holds hne hL
  have run : ∀ k, ∃ t' visits left L',
      BagIter.run (logBody (fun seen i r => (f seen i r).1)) k (BagIter.new t) [] = .ok (t', visits) ∧
      (visits.map Prod.snd ++ left).Perm L ∧ visits.length = min k L.length ∧
      Holds t' L' ∧ L'.Perm (keptVisits (fun seen i r => (f seen i r).1) [] visits ++ left) := by
    intro k
    obtain ⟨t', vs, left, L', e1, e2, e3, e4, e5⟩ := bagRun_ok (logBody (fun seen i r => (f seen i r).1)) hk k []
      (it := BagIter.new t) (kept := []) (pend := none) (rest := L) (by simpa [BagIter.new] using hw) rfl rfl (by simp)
    obtain ⟨d1, d2⟩ := decisions_log (fun seen i r => (f seen i r).1) vs []
    rw [d1] at e1
    rw [d2] at e5
    simp only [List.nil_append] at e1 e5
    exact ⟨t', vs, left, L', e1, e2, e3, e4.holds' hne, e5⟩
  rcases cr_bagLoop f k (BagIter.new t) [] with ⟨a, b⟩ | ⟨k', hk', b⟩
  · obtain ⟨t', vs, left, L', e1, e2, e3, e4, e5⟩ := run k
    obtain ⟨new, en, q⟩ := b t' vs e1
    rw [e1] at a
    have hx : (COp.bagLoop f k).run key t = (t', .ok ()) := out_ok.1 a
    simp only [List.nil_append] at en
    subst en
    exact ⟨t', vs, left, L', by rw [hx], e2, e4, e5, Or.inl ⟨by rw [hx], q, e3⟩⟩
  · obtain ⟨t', vs, left, L', e1, e2, e3, e4, e5⟩ := run k'
    obtain ⟨hx, new, en, q⟩ := b t' vs e1
    have hx : (COp.bagLoop f k).run key t = (t', .error .userPanic) := hx
    simp only [List.nil_append] at en
    subst en
    exact ⟨t', vs, left, L', by rw [hx], e2, e4, e5, Or.inr ⟨by rw [hx], q⟩⟩

/-! ## Examples -/

theorem bagSurvived : Survived demoKey bagTbl := (C70_reach (c := true) _ bagTbl_reach).2
theorem sortedSurvived : Survived demoKey sortedTbl := (C70_reach (c := true) _ sortedTbl_reach).2

/-- Adding a row after row 0 and panicking on row 2 loses a row: rows 0, 77, 1 came out, of which two are in place. -/
example : (fun x : Tbl (Demo .bag) × R Unit => (demoDump x.1, x.2)) (Cr.visit (onRowC (panicsAt 2 fun i r (s : Unit) =>
      ((false, if i = 0 then [demoRow 77 true 7] else []), s))) () bagTbl) =
    (.ok [(3, true, 0), (77, true, 7), (5, true, 2), (9, false, 3)], .error .userPanic) := by decide
example : ∃ t', Cr.visit (onRowC (panicsAt 2 fun i r (s : Unit) => ((false, if i = 0 then [demoRow 77 true 7] else []), s))) () bagTbl =
    (t', .error .userPanic) := by
  obtain ⟨t', h, -⟩ := C71_visit_closure_panics bagTbl bagSurvived (by decide) bagRows bagTbl_holds (by decide)
    (fun i r (s : Unit) => ((false, if i = 0 then [demoRow 77 true 7] else []), s)) () 2 (by decide) _ rfl
  exact ⟨t', h⟩

/-- An iterator that panics after two rows. -/
example : (fun x : Tbl (Demo .bag) × R (Nat × Nat) => (demoDump x.1, x.2.toOption)) (Cr.pushArray [some (demoRow 1 true 1), none] bagTbl) =
    (.ok [(3, true, 0), (5, false, 1), (5, true, 2), (9, false, 3), (1, true, 1)], none) := by decide

/-- Merging 4 and 6 into 3, 5, 5, 9, with a panic at the third row: both 5s fall to 6's left, then 9 is lost. -/
example : (fun x : Tbl (Demo .sorted) × R Unit => (demoDump x.1, x.2))
      ((COp.merge [some (demoRow 4 true 10), some (demoRow 6 true 11), none] fun _ _ _ => false).run demoKey sortedTbl) =
    (.ok [(3, true, 0), (4, true, 10), (5, false, 1), (5, true, 2), (6, true, 11)], .error .userPanic) := by decide
/-- The same when `log` panics at the second row: nothing else changes. -/
example : (fun x : Tbl (Demo .sorted) × R Unit => (demoDump x.1, x.2))
      ((COp.merge [some (demoRow 4 true 10), some (demoRow 6 true 11), some (demoRow 8 true 12)] fun _ _ ids => ids.length = 1).run demoKey sortedTbl) =
    (.ok [(3, true, 0), (4, true, 10), (5, false, 1), (5, true, 2), (6, true, 11)], .error .userPanic) := by decide
/-- A panic right after the first new row loses the old row in whose place it was put. -/
example : (fun x : Tbl (Demo .sorted) × R Unit => (demoDump x.1, x.2))
      ((COp.merge [some (demoRow 4 true 10), none] fun _ _ _ => false).run demoKey sortedTbl) =
    (.ok [(3, true, 0), (4, true, 10), (5, true, 2), (9, false, 3)], .error .userPanic) := by decide
example : ∃ t' L', (COp.merge ([demoRow 4 true 10].map some ++ [none]) fun _ _ _ => false).run demoKey sortedTbl = (t', .error .userPanic) ∧
    Holds t' L' ∧ SortedBy demoKey L' := by
  obtain ⟨t', L', h1, h2, h3⟩ := C71_merge_iterator_panics sortedTbl sortedSurvived rfl sortedRows sortedTbl_holds [demoRow 4 true 10] []
    (fun _ _ _ => false) (fun _ _ _ => rfl) (by decide)
  exact ⟨t', L', h1, h2, h3.sorted sortedRows_sorted (by simp [SortedBy])⟩

/-- A body that marks every row with key 5 and panics right after it marked the second. -/
example : (fun x : Tbl (Demo .bag) × R Unit => (demoDump x.1, x.2))
      ((COp.bagLoop (fun seen _ r => (demoKey r = 5, seen.length = 3)) 9).run demoKey bagTbl) =
    (.ok [(3, true, 0), (9, false, 3)], .error .userPanic) := by decide

end V11
