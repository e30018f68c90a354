import Verif.Props.Bag
import Verif.Spec.Deletable
import Mathlib.Data.List.Induction

/-!
# C57 in general: which rows an iteration over a bag deletes when `Deletable`s are kept
-/

set_option linter.unusedSimpArgs false
set_option linter.unusedSectionVars false
set_option linter.unusedVariables false

namespace V11
variable {S : Schema} [LS : LawfulSchema S] {K : Type} [LinearOrder K] {key : Row S → K} {c : Bool}

theorem BagLoop.acts_append (l : BagLoop S) (a b : List LoopOp) : l.acts (a ++ b) = (l.acts a >>= fun l => l.acts b) := by
  induction a generalizing l with
  | nil => rfl
  | cons op a ih =>
    simp only [List.cons_append, BagLoop.acts]
    cases l.step op with
    | error p => rfl
    | ok l' => exact ih l'

theorem hit_snoc {ops : List LoopOp} {op : LoopOp} {N n : Nat} :
    Hit (ops ++ [op]) N n ↔ Hit ops N n ∨ (∃ j, op = .delete j ∧ j ≤ n ∧ min (ops.count .next) N = n + 1) := by
  constructor
  · rintro ⟨pre, j, post, h, hj, hc⟩
    rcases List.eq_nil_or_concat post with hp | ⟨post', x, hp⟩
    · subst hp
      have h' := List.append_inj' h rfl
      right
      refine ⟨j, by simpa using h'.2, hj, by rw [h'.1]; exact hc⟩
    · rw [List.concat_eq_append] at hp
      subst hp
      left
      have h2 : ops ++ [op] = (pre ++ .delete j :: post') ++ [x] := by simpa using h
      exact ⟨pre, j, post', (List.append_inj' h2 rfl).1, hj, hc⟩
  · rintro (⟨pre, j, post, h, hj, hc⟩ | ⟨j, h, hj, hc⟩)
    · exact ⟨pre, j, post ++ [op], by simp [h], hj, hc⟩
    · exact ⟨ops, j, [], by simp [h], hj, hc⟩

theorem not_hit_nil {N n : Nat} : ¬ Hit [] N n := by
  rintro ⟨pre, j, post, h, -⟩
  simp at h

theorem hit_below {ops : List LoopOp} {N n : Nat} (h : Hit ops N n) : n < min (ops.count .next) N := by
  obtain ⟨pre, j, post, rfl, -, hc⟩ := h
  simp only [List.count_append]
  omega

theorem spared_congr {A : Type} {ops ops' : List LoopOp} {N : Nat} {vs : List (Nat × A)}
    (h : ∀ n < vs.length, Hit ops N n ↔ Hit ops' N n) : spared ops N vs = spared ops' N vs := by
  unfold spared
  congr 1
  apply List.filter_congr
  intro v hv
  have hlt : v.2 < vs.length := by simpa using List.snd_lt_of_mem_zipIdx hv
  rw [decide_eq_decide]
  exact not_congr (h _ hlt)

open Classical in
theorem spared_snoc {A : Type} {ops : List LoopOp} {N : Nat} (vs : List (Nat × A)) (v : Nat × A) :
    spared ops N (vs ++ [v]) = spared ops N vs ++ if Hit ops N vs.length then [] else [v.2] := by
  unfold spared
  rw [List.zipIdx_append, List.filter_append, List.map_append]
  congr 1
  by_cases h : Hit ops N vs.length <;> simp [h]

/-- The state of an iteration over the rows `L` after the actions `ops`. -/
structure LoopInv (L : List (Row S)) (ops : List LoopOp) (l : BagLoop S) (vs : List (Nat × Row S)) (rest : List (Row S)) : Prop where
  got : l.got = vs.map Prod.fst
  count : vs.length = min (ops.count .next) L.length
  perm : (vs.map Prod.snd ++ rest).Perm L
  zero : vs = [] → WF l.it.tbl rest ∧ l.it.i = 0 ∧ l.it.delete = false ∧ l.it.last = none
  more : ∀ vs0 v, vs = vs0 ++ [v] → ∃ kept, WF l.it.tbl (kept ++ v.2 :: rest) ∧ v.1 = kept.length ∧
    l.it.i = kept.length + 1 ∧ l.it.last = some kept.length ∧ (l.it.delete = true ↔ Hit ops L.length vs0.length) ∧
    kept.Perm (spared ops L.length vs0)

theorem LoopInv.next {L : List (Row S)} {ops : List LoopOp} {l : BagLoop S} {vs : List (Nat × Row S)} {rest : List (Row S)}
    (hk : S.kind = .bag) (h : LoopInv L ops l vs rest) :
    ∃ l' vs' rest', l.step .next = .ok l' ∧ LoopInv L (ops ++ [.next]) l' vs' rest' ∧ ∃ x, vs' = vs ++ x := by
  have hlen := h.perm.length_eq
  simp only [List.length_append, List.length_map] at hlen
  have hcount := h.count
  have hsame : ∀ n, Hit (ops ++ [LoopOp.next]) L.length n ↔ Hit ops L.length n := by
    intro n
    rw [hit_snoc]
    constructor
    · rintro (h | ⟨j, h, -⟩)
      · exact h
      · cases h
    · exact Or.inl
  have hsp : ∀ vs : List (Nat × Row S), spared (ops ++ [LoopOp.next]) L.length vs = spared ops L.length vs :=
    fun vs => spared_congr (fun n _ => hsame n)
  by_cases hr : rest = []
  · -- nothing is left
    subst hr
    simp only [List.length_nil, Nat.add_zero] at hlen
    refine ⟨l, vs, [], ?_, ?_, [], by simp⟩
    · have hend : l.it.i ≥ l.it.tbl.len := by
        rcases List.eq_nil_or_concat vs with hv | ⟨vs0, v, hv⟩
        · obtain ⟨w, hi, -⟩ := h.zero hv
          rw [w.len, hi]; simp
        · rw [List.concat_eq_append] at hv
          obtain ⟨kept, w, -, hi, -⟩ := h.more vs0 v hv
          rw [w.len, hi]; simp
      unfold BagLoop.step BagIter.next
      rw [if_pos hend, okBind]
      simp
    · refine ⟨h.got, ?_, h.perm, h.zero, ?_⟩
      · simp only [List.count_append, List.count_singleton_self]; omega
      · intro vs0 v hv
        obtain ⟨kept, a, b, c, d, e, f⟩ := h.more vs0 v hv
        exact ⟨kept, a, b, c, d, e.trans (hsame _).symm, by rw [hsp]; exact f⟩
  · -- a new row is reached
    have hpos : 0 < rest.length := List.length_pos_iff.2 hr
    have hmore : vs.length + 1 = min ((ops ++ [LoopOp.next]).count .next) L.length := by
      simp only [List.count_append, List.count_singleton_self]; omega
    -- the general case: the iterator yields `row` at position `kept.length`
    have reach : ∀ (it' : BagIter S) (kept : List (Row S)) (row : Row S) (rest' : List (Row S)),
        l.it.next = .ok (some kept.length, it') → WF it'.tbl (kept ++ row :: rest') → it'.i = kept.length + 1 →
        it'.last = some kept.length → it'.delete = false → (row :: rest').Perm rest →
        kept.Perm (spared ops L.length vs) →
        ∃ l' vs' rest', l.step .next = .ok l' ∧ LoopInv L (ops ++ [.next]) l' vs' rest' ∧ ∃ x, vs' = vs ++ x := by
      intro it' kept row rest' hn hw hi hla hd hp hkp
      refine ⟨⟨it', l.got ++ [kept.length]⟩, vs ++ [(kept.length, row)], rest', ?_, ?_, _, rfl⟩
      · unfold BagLoop.step
        rw [hn, okBind]
        simp
      · refine ⟨by simp [h.got], by simpa using hmore, ?_, by simp, ?_⟩
        · have : (vs.map Prod.snd ++ row :: rest').Perm L := (List.Perm.append_left _ hp).trans h.perm
          simpa using this
        · intro vs0 v hv
          have hv' := List.append_inj' hv rfl
          obtain ⟨h1, h2⟩ := hv'
          simp only [List.cons.injEq, and_true] at h2
          subst h1; subst h2
          refine ⟨kept, hw, rfl, hi, hla, ?_, by rw [hsp]; exact hkp⟩
          rw [hd]
          simp only [Bool.false_eq_true, false_iff]
          rw [hsame]
          intro hh
          have := hit_below hh
          omega
    rcases List.eq_nil_or_concat vs with hv | ⟨vs0, v, hv⟩
    · -- the first row
      obtain ⟨w, hi, hd, hla⟩ := h.zero hv
      obtain ⟨row, rest', rfl⟩ : ∃ row rest', rest = row :: rest' := List.exists_cons_of_ne_nil hr
      refine reach { l.it with last := some l.it.i, i := l.it.i + 1 } [] row rest' ?_ (by simpa using w) (by simp [hi]) (by simp [hi]) hd
        (List.Perm.refl _) (by rw [hv]; simp [spared])
      unfold BagIter.next
      rw [w.len, hi, if_neg (by simp), hd]
      simp only [Bool.false_eq_true, if_false, okBind]
      rw [fromUsize_ok (by omega), okBind]
      simp [hd]
    · rw [List.concat_eq_append] at hv
      obtain ⟨kept, w, hid, hi, hla, hd, hkp⟩ := h.more vs0 v hv
      have hle := w.rep.le
      simp only [List.length_append, List.length_cons] at hle
      by_cases hhit : Hit ops L.length vs0.length
      · -- the row reached before is deleted and the last row takes its place
        rcases List.eq_nil_or_concat rest with hx | ⟨rest', x, hx⟩
        · exact absurd hx hr
        rw [List.concat_eq_append] at hx
        subst hx
        obtain ⟨t', d1, d2⟩ := bagDelete_ok w hk (i := kept.length) (by simp)
        rw [bagRemove_mid] at d2
        refine reach { l.it with tbl := t', delete := false } kept x rest' ?_ d2 hi hla rfl
          (by simpa using (List.perm_append_comm (l₁ := [x]) (l₂ := rest'))) ?_
        · unfold BagIter.next
          rw [w.len, hi, if_neg (by simp), hd.2 hhit, hla]
          simp only [if_true]
          rw [fromUsize_ok (by omega), okBind, d1, okBind, okBind]
          simp only []
          rw [fromUsize_ok (by omega), okBind]
          simp [hi, hla]
        · rw [hv, spared_snoc, if_pos hhit]
          simpa using hkp
      · obtain ⟨row, rest', rfl⟩ : ∃ row rest', rest = row :: rest' := List.exists_cons_of_ne_nil hr
        have hd' : l.it.delete = false := by
          cases hx : l.it.delete with
          | false => rfl
          | true => exact absurd (hd.1 hx) hhit
        simp only [List.length_cons] at hle
        refine reach { l.it with last := some l.it.i, i := l.it.i + 1 } (kept ++ [v.2]) row rest' ?_ (by simpa using w) (by simp [hi])
          (by simp [hi]) hd' (List.Perm.refl _) ?_
        · unfold BagIter.next
          rw [w.len, hi, if_neg (by simp), hd']
          simp only [Bool.false_eq_true, if_false, okBind]
          rw [fromUsize_ok (by omega), okBind]
          simp [hd']
        · rw [hv, spared_snoc, if_neg hhit]
          exact hkp.append_right _

theorem LoopInv.delete {L : List (Row S)} {ops : List LoopOp} {l : BagLoop S} {vs : List (Nat × Row S)} {rest : List (Row S)}
    (h : LoopInv L ops l vs rest) (j : Nat) :
    ∃ l', l.step (.delete j) = .ok l' ∧ LoopInv L (ops ++ [.delete j]) l' vs rest := by
  have hcount := h.count
  have hgot : l.got.length = vs.length := by rw [h.got]; simp
  have hcnt : (ops ++ [LoopOp.delete j]).count .next = ops.count .next := by simp [List.count_append]
  have hsame : ∀ n < vs.length - 1, Hit (ops ++ [LoopOp.delete j]) L.length n ↔ Hit ops L.length n := by
    intro n hn
    rw [hit_snoc]
    constructor
    · rintro (h | ⟨_, -, -, h⟩)
      · exact h
      · omega
    · exact Or.inl
  have hsp : ∀ vs0 : List (Nat × Row S), vs0.length + 1 = vs.length →
      spared (ops ++ [LoopOp.delete j]) L.length vs0 = spared ops L.length vs0 :=
    fun vs0 h0 => spared_congr (fun n hn => hsame n (by omega))
  by_cases hj : j < l.got.length
  · refine ⟨⟨l.it.mark, l.got⟩, by simp [BagLoop.step, hj], h.got, by rw [hcnt]; exact hcount, h.perm, ?_, ?_⟩
    · intro hv
      subst hv
      simp at hgot
      simp [hgot] at hj
    · intro vs0 v hv
      obtain ⟨kept, a, b, c, d, e, f⟩ := h.more vs0 v hv
      have hl : vs0.length + 1 = vs.length := by rw [hv]; simp
      refine ⟨kept, a, b, c, d, ?_, by rw [hsp vs0 hl]; exact f⟩
      simp only [BagIter.mark, true_iff]
      rw [hit_snoc]
      exact Or.inr ⟨j, rfl, by omega, by omega⟩
  · refine ⟨l, by simp [BagLoop.step, hj], h.got, by rw [hcnt]; exact hcount, h.perm, h.zero, ?_⟩
    intro vs0 v hv
    obtain ⟨kept, a, b, c, d, e, f⟩ := h.more vs0 v hv
    have hl : vs0.length + 1 = vs.length := by rw [hv]; simp
    refine ⟨kept, a, b, c, d, ?_, by rw [hsp vs0 hl]; exact f⟩
    rw [e, hit_snoc]
    constructor
    · exact Or.inl
    · rintro (h | ⟨j', h1, h2, h3⟩)
      · exact h
      · cases h1; omega

theorem LoopInv.acts {L : List (Row S)} (hk : S.kind = .bag) {t : Tbl S} (hw : WF t L) (ops : List LoopOp) :
    ∃ l vs rest, (BagLoop.start t).acts ops = .ok l ∧ LoopInv L ops l vs rest := by
  induction ops using List.reverseRecOn with
  | nil =>
    refine ⟨BagLoop.start t, [], L, rfl, rfl, by simp, by simp, fun _ => ⟨hw, rfl, rfl, rfl⟩, ?_⟩
    intro vs0 v h
    simp at h
  | append_singleton ops op ih =>
    obtain ⟨l, vs, rest, e, hi⟩ := ih
    rw [BagLoop.acts_append, e, okBind]
    cases op with
    | next =>
      obtain ⟨l', vs', rest', e', hi', -⟩ := hi.next hk
      exact ⟨l', vs', rest', by simp only [BagLoop.acts]; rw [e', okBind], hi'⟩
    | delete j =>
      obtain ⟨l', e', hi'⟩ := hi.delete j
      exact ⟨l', vs, rest, by simp only [BagLoop.acts]; rw [e', okBind], hi'⟩

/-- C57: any program that iterates over a bag with `iter_mut()`, keeps the `Deletable`s as long as it likes and calls
`delete` on any of them at any time. It reaches `min` (calls of `next`, rows) different rows; a row is deleted exactly if,
while it was the row reached last, `delete` was called on some `Deletable`, of whatever row. The others stay. -/
theorem C57_any_deletable (t : Tbl S) (ht : Reach key c t) (hk : S.kind = .bag) (L : List (Row S)) (hL : Holds t L)
    (ops : List LoopOp) :
    ∃ t' visits left L', BagLoop.run t ops = .ok (t', visits.map Prod.fst) ∧
      visits.length = min (ops.count .next) L.length ∧ (visits.map Prod.snd ++ left).Perm L ∧
      Holds t' L' ∧ L'.Perm (spared ops L.length visits ++ left) := by
  obtain ⟨hw, -⟩ := ht.wf_of_holds (by simp [hk]) hL
  obtain ⟨l, vs, rest, e, hi⟩ := LoopInv.acts hk hw ops
  have done : ∀ t' L', l.it.drop = .ok t' → WF t' L' → L'.Perm (spared ops L.length vs ++ rest) →
      ∃ t' visits left L', BagLoop.run t ops = .ok (t', visits.map Prod.fst) ∧
      visits.length = min (ops.count .next) L.length ∧ (visits.map Prod.snd ++ left).Perm L ∧
      Holds t' L' ∧ L'.Perm (spared ops L.length visits ++ left) := by
    intro t' L' hd hw' hp
    refine ⟨t', vs, rest, L', ?_, hi.count, hi.perm, hw'.holds (hw'.kind (by simp [hk])), hp⟩
    unfold BagLoop.run
    rw [e, okBind, hd, okBind, hi.got]
  rcases List.eq_nil_or_concat vs with hv | ⟨vs0, v, hv⟩
  · obtain ⟨w, hi0, hd, hla⟩ := hi.zero hv
    refine done l.it.tbl rest ?_ w (by rw [hv]; simp [spared])
    unfold BagIter.drop
    rw [hla]
  · rw [List.concat_eq_append] at hv
    obtain ⟨kept, w, hid, hi0, hla, hd, hkp⟩ := hi.more vs0 v hv
    have hle := w.rep.le
    simp only [List.length_append, List.length_cons] at hle
    by_cases hhit : Hit ops L.length vs0.length
    · obtain ⟨t', d1, d2⟩ := bagDelete_ok w hk (i := kept.length) (by simp)
      have hdrop : l.it.drop = .ok t' := by
        unfold BagIter.drop
        rw [hd.2 hhit, hla]
        simp only []
        rw [fromUsize_ok (by omega), okBind, d1]
      rcases List.eq_nil_or_concat rest with hx | ⟨rest', x, hx⟩
      · subst hx
        rw [bagRemove_last] at d2
        refine done t' kept hdrop d2 ?_
        rw [hv, spared_snoc, if_pos hhit]
        simpa using hkp
      · rw [List.concat_eq_append] at hx
        subst hx
        rw [bagRemove_mid] at d2
        refine done t' _ hdrop d2 ?_
        rw [hv, spared_snoc, if_pos hhit]
        simp only [List.append_nil]
        refine hkp.append ?_
        simpa using (List.perm_append_comm (l₁ := [x]) (l₂ := rest'))
    · have hd' : l.it.delete = false := by
        cases hx : l.it.delete with
        | false => rfl
        | true => exact absurd (hd.1 hx) hhit
      refine done l.it.tbl _ ?_ w ?_
      · unfold BagIter.drop
        rw [hd', hla]
      · rw [hv, spared_snoc, if_neg hhit]
        simpa using hkp.append_right (v.2 :: rest)

/-- C57: so `delete` called at once, before another `next`, deletes the row the `Deletable` was made for; and if the
program calls `next` between, and that reaches another row, its own row stays (unless hit by another call). -/
theorem C57_own_row (N k : Nat) (hk : k < N) (pre : List LoopOp) (hpre : pre.count .next = k + 1) (hq : ∀ op ∈ pre, op = .next) :
    Hit (pre ++ [.delete k]) N k ∧
    (k + 1 < N → Hit (pre ++ [.next, .delete k]) N (k + 1) ∧ ¬ Hit (pre ++ [.next, .delete k]) N k) := by
  refine ⟨⟨pre, k, [], rfl, le_refl k, by omega⟩, fun h1 => ⟨⟨pre ++ [.next], k, [], by simp, by omega, ?_⟩, ?_⟩⟩
  · simp [List.count_append]; omega
  · have hn : ¬ Hit pre N k := by
      rintro ⟨a, j, b, h, -⟩
      have := hq (.delete j) (by rw [h]; simp)
      cases this
    rw [show pre ++ [LoopOp.next, .delete k] = (pre ++ [.next]) ++ [.delete k] by simp, hit_snoc, hit_snoc]
    rintro ((h | ⟨j, h, -⟩) | ⟨j, h, -, h2⟩)
    · exact hn h
    · cases h
    · simp [List.count_append] at h2; omega

/-! The four-row bag (keys 3, 5, 5, 9): the `Deletable` of the first row is deleted when the second is the last reached;
then the loop goes on. Rows with `0` and `1` were reached first, and what goes is the second. -/
example : Reach demoKey true bagTbl ∧ Holds bagTbl bagRows := ⟨bagTbl_reach, bagTbl_holds⟩

example :
    (do let (t, ids) ← BagLoop.run bagTbl [.next, .next, .delete 0, .next]
        let d ← demoDump t
        .ok (ids, d)) = .ok ([0, 1, 1], [(3, true, 0), (9, false, 3), (5, true, 2)]) := by decide

end V11
