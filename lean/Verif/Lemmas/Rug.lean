import Verif.Lemmas.Write
import Verif.Spec.Lists

/-!
# `merge0` refines `visitSpec`
-/

set_option linter.unusedSimpArgs false
set_option linter.unusedSectionVars false

namespace V11
variable {S : Schema} [LS : LawfulSchema S]

theorem pullRug_none {rug : Rug S} (h : pullRug rug = none) : rugRows rug = [] := by
  induction rug with
  | nil => rfl
  | cons x q ih =>
    rcases x with r | xs
    · simp [pullRug] at h
    · cases xs with
      | nil => simp only [pullRug] at h; simp [rugRows, ih h]
      | cons y ys => simp [pullRug] at h

theorem pullRug_some {rug q : Rug S} {r : Row S} (h : pullRug rug = some (r, q)) :
    rugRows rug = r :: rugRows q := by
  induction rug with
  | nil => simp [pullRug] at h
  | cons x q' ih =>
    rcases x with r' | xs
    · simp [pullRug] at h; obtain ⟨rfl, rfl⟩ := h; rfl
    · cases xs with
      | nil => simp only [pullRug] at h; simp [rugRows, ih h]
      | cons y ys => simp [pullRug] at h; obtain ⟨rfl, rfl⟩ := h; simp [rugRows]

theorem rugRows_append (a b : Rug S) : rugRows (a ++ b) = rugRows a ++ rugRows b := by
  induction a with
  | nil => rfl
  | cons x q ih => rcases x with r | xs <;> simp [rugRows, ih]

theorem nextId_ok {max i : Nat} (h : i + 1 ≤ max) : nextId max i = .ok (i + 1) := by simp [nextId, h]

/-- The inner loop moves as many rows as possible from the rug into the gap. -/
theorem fillGap_ok (k : Nat) {t : Tbl S} {L : List (Row S)} (h : WF t L) (hf : t.free = []) (rug : Rug S) (front : Nat)
    (hk : front + k ≤ L.length) (hm : front + k ≤ S.max) :
    ∃ t' rug' m, fillGap t rug front k = .ok (t', rug', front + m) ∧ t'.free = [] ∧ m ≤ k ∧
      WF t' (L.take front ++ (rugRows rug).take m ++ L.drop (front + m)) ∧
      rugRows rug' = (rugRows rug).drop m ∧ m ≤ (rugRows rug).length ∧ (m < k → rugRows rug' = []) := by
  induction k generalizing t L rug front with
  | zero =>
    refine ⟨t, rug, 0, rfl, hf, le_refl _, ?_, by simp, by simp, by simp⟩
    simpa using h
  | succ k ih =>
    unfold fillGap
    cases hp : pullRug rug with
    | none =>
      refine ⟨t, [], 0, rfl, hf, by omega, by simpa using h, by simp [pullRug_none hp, rugRows], by simp, fun _ => rfl⟩
    | some x =>
      obtain ⟨r, q⟩ := x
      have hrows := pullRug_some hp
      obtain ⟨t1, h1, h2, h3⟩ := h.swapOutRow r (i := front) (by omega) hf
      simp only []
      rw [h1, okBind]
      simp only []
      rw [nextId_ok (by omega), okBind]
      obtain ⟨t', rug', m, e1, e2, e3, e4, e5, e6, e7⟩ := ih h3 h2 q (front + 1) (by simp; omega) (by omega)
      refine ⟨t', rug', m + 1, ?_, e2, by omega, ?_, ?_, ?_, ?_⟩
      · rw [e1]; congr 3; omega
      · have e : List.take (front + 1) (L.set front r) ++ (rugRows q).take m ++ List.drop (front + 1 + m) (L.set front r)
            = L.take front ++ (rugRows rug).take (m + 1) ++ L.drop (front + (m + 1)) := by
          rw [hrows, List.take_succ_cons, List.drop_set_of_lt (by omega), List.take_set]
          rw [List.take_add_one, List.set_append_right _ _ (by simp)]
          rw [List.getElem?_eq_getElem (by omega)]
          have e1 : front - (List.take front L).length = 0 := by simp; omega
          have e2 : front + 1 + m = front + (m + 1) := by omega
          rw [e1, e2]
          simp
        rw [← e]; exact e4
      · rw [hrows, e5]; rfl
      · rw [hrows]; simpa using e6
      · intro hlt; exact e7 (by omega)

/-- Rows the scan loop will still produce. -/
def scanSpec {σ : Type} (f : Nat → σ → Action (Row S) × σ) (stopped : Bool) (back : Nat) (rest : List (Row S)) (s : σ) :
    List (Row S) × σ :=
  if stopped then (rest, s) else visitSpec f back rest s

/-- What the outer loop leaves behind: the table and rug together hold `out`. -/
def ScanPost {σ : Type} (res : Scan S σ) (n : Nat) (out : List (Row S)) (s : σ) : Prop :=
  match res with
  | .noop t s' => s' = s ∧ t.free = [] ∧ WF t out
  | .done t rug front s' => s' = s ∧ t.free = [] ∧ ∃ L, WF t L ∧ L.length = n ∧ front ≤ n ∧
      L.take front ++ rugRows rug = out

theorem scanLoop_ok {σ : Type} (f : Tbl S → Nat → σ → Action (Row S) × σ) (k : Nat)
    {t : Tbl S} {out mid rest : List (Row S)} (rug : Rug S) (back : Nat) (stopped : Bool) (s : σ)
    (h : WF t (out ++ mid ++ rest)) (hf : t.free = []) (hk : rest.length = k)
    (hb : back = out.length + mid.length)
    (hrug : mid ≠ [] → rugRows rug = []) :
    (∃ (seen : Nat → Tbl S) (res : Scan S σ), scanLoop f t rug out.length back stopped s k = .ok res ∧
      (∀ i (hi : i < rest.length), (seen (back + i)).getRow (back + i) = .ok rest[i] ∧
        (seen (back + i)).len = (out ++ mid ++ rest).length) ∧
      ScanPost res (out ++ mid ++ rest).length
        (out ++ rugRows rug ++ (scanSpec (fun i s => f (seen i) i s) stopped back rest s).1)
        (scanSpec (fun i s => f (seen i) i s) stopped back rest s).2) ∨
    (S.max < (out ++ mid ++ rest).length ∧ scanLoop f t rug out.length back stopped s k = .error .idxOverflow) := by
  induction k generalizing t out mid rest rug back stopped s with
  | zero =>
    have : rest = [] := List.length_eq_zero_iff.1 hk
    subst this
    refine Or.inl ⟨fun _ => t, .done t rug out.length s, rfl, by simp, ?_⟩
    refine ⟨?_, hf, out ++ mid ++ [], h, rfl, by simp, ?_⟩
    · simp [scanSpec, visitSpec]
    · simp [scanSpec, visitSpec]
  | succ k ih =>
    obtain ⟨r, rs, rfl⟩ : ∃ r rs, rest = r :: rs := by
      cases rest with
      | nil => simp at hk
      | cons r rs => exact ⟨r, rs, rfl⟩
    have hlen : (out ++ mid ++ r :: rs).length = back + 1 + rs.length := by simp; omega
    have hget : t.getRow back = .ok r := by
      rw [h.getRow (i := back) (by omega) (by simp [hf])]
      congr 1
      subst hb
      have : (out ++ mid ++ r :: rs)[out.length + mid.length]? = some r := by
        rw [List.getElem?_append_right (by simp)]; simp
      rw [List.getElem?_eq_getElem (by omega)] at this
      exact Option.some.inj this
    have hnext : back + 1 ≤ S.max → nextId S.max back = .ok (back + 1) := nextId_ok
    have hnexte : ¬ back + 1 ≤ S.max → nextId S.max back = .error .idxOverflow := fun hb => by simp [nextId, hb]
    have hlen' : t.len = (out ++ mid ++ r :: rs).length := h.len
    -- the common tail: refill the gap with the new rug, then recurse
    have tail : ∀ (rug' : Rug S) (stopped' : Bool) (s' : σ) (keep : List (Row S)),
        rugRows rug' = rugRows rug ++ keep →
        (∃ (seen : Nat → Tbl S) (res : Scan S σ),
          (do let back ← nextId S.max back
              let (t, rug, front) ← fillGap t rug' out.length (back - out.length)
              scanLoop f t rug front back stopped' s' k) = .ok res ∧
          (∀ i (hi : i < rs.length), (seen (back + 1 + i)).getRow (back + 1 + i) = .ok rs[i] ∧
            (seen (back + 1 + i)).len = (out ++ mid ++ r :: rs).length) ∧
          ScanPost res (out ++ mid ++ r :: rs).length
            (out ++ rugRows rug ++ keep ++ (scanSpec (fun i s => f (seen i) i s) stopped' (back + 1) rs s').1)
            (scanSpec (fun i s => f (seen i) i s) stopped' (back + 1) rs s').2) ∨
        (S.max < (out ++ mid ++ r :: rs).length ∧
          (do let back ← nextId S.max back
              let (t, rug, front) ← fillGap t rug' out.length (back - out.length)
              scanLoop f t rug front back stopped' s' k) = .error .idxOverflow) := by
      intro rug' stopped' s' keep hkeep
      by_cases hbm : back + 1 ≤ S.max
      swap
      · right
        exact ⟨by omega, by rw [hnexte hbm, errBind]⟩
      rw [hnext hbm, okBind]
      obtain ⟨t1, rug1, m, e1, e2, e3, e4, e5, e6, e7⟩ :=
        fillGap_ok (back + 1 - out.length) h hf rug' out.length (by omega) (by omega)
      have hout : List.take out.length (out ++ mid ++ r :: rs) = out := by
        rw [List.append_assoc, List.take_left]
      have hdrop : List.drop (out.length + m) (out ++ mid ++ r :: rs) = (mid ++ [r]).drop m ++ rs := by
        have : out ++ mid ++ r :: rs = out ++ ((mid ++ [r]) ++ rs) := by simp
        rw [this, List.drop_append, List.drop_append (l₁ := mid ++ [r])]
        rw [List.drop_eq_nil_of_le (by omega)]
        have h1 : out.length + m - out.length = m := by omega
        have h2 : m - (mid ++ [r]).length = 0 := by simp; omega
        rw [h1, h2]; simp
      rw [hout, hdrop] at e4
      have hlenm : ((rugRows rug').take m).length = m := by simp [e6]
      have e4' : WF t1 ((out ++ (rugRows rug').take m) ++ (mid ++ [r]).drop m ++ rs) := by
        rw [List.append_assoc]; exact e4
      have hlen1 : ((out ++ (rugRows rug').take m) ++ (mid ++ [r]).drop m ++ rs).length
          = (out ++ mid ++ r :: rs).length := by
        simp only [List.length_append, hlenm, List.length_drop, List.length_cons, List.length_nil]; omega
      have IH := ih (out := out ++ (rugRows rug').take m) (mid := (mid ++ [r]).drop m)
        (rest := rs) rug1 (back + 1) stopped' s' e4' e2 (by simpa using hk)
        (by simp only [List.length_append, hlenm, List.length_drop, List.length_cons, List.length_nil]; omega)
        (by
          intro hne
          apply e7
          by_contra hc
          apply hne
          apply List.drop_eq_nil_of_le
          simp only [List.length_append, List.length_cons, List.length_nil]; omega)
      have eqn : (do let (t, rug, front) ← fillGap t rug' out.length (back + 1 - out.length)
                     scanLoop f t rug front (back + 1) stopped' s' k)
          = scanLoop f t1 rug1 (out ++ (rugRows rug').take m).length (back + 1) stopped' s' k := by
        rw [e1, okBind]
        simp only [List.length_append, hlenm]
      rw [eqn]
      rcases IH with ⟨seen, res, g1, g2, g3⟩ | ⟨g0, g1⟩
      swap
      · exact Or.inr ⟨by rw [← hlen1]; exact g0, g1⟩
      refine Or.inl ⟨seen, res, g1, ?_, ?_⟩
      · intro i hi; rw [← hlen1]; exact g2 i hi
      · rw [hlen1, e5] at g3
        have : out ++ List.take m (rugRows rug') ++ List.drop m (rugRows rug') = out ++ rugRows rug ++ keep := by
          rw [List.append_assoc, List.take_append_drop, hkeep, List.append_assoc]
        rw [this] at g3
        exact g3
    -- extend `seen` to the current row
    have hseen : ∀ (seen : Nat → Tbl S),
        (∀ i (hi : i < rs.length), (seen (back + 1 + i)).getRow (back + 1 + i) = .ok rs[i] ∧
            (seen (back + 1 + i)).len = (out ++ mid ++ r :: rs).length) →
        ∀ i (hi : i < (r :: rs).length),
          ((Function.update seen back t) (back + i)).getRow (back + i) = .ok (r :: rs)[i] ∧
            ((Function.update seen back t) (back + i)).len = (out ++ mid ++ r :: rs).length := by
      intro seen hs i hi
      cases i with
      | zero => simpa using ⟨hget, by simpa using hlen'⟩
      | succ i =>
        have : back + (i + 1) ≠ back := by omega
        rw [Function.update_of_ne this]
        have e : back + (i + 1) = back + 1 + i := by omega
        rw [e]
        simpa using hs i (by simpa using hi)
    have hcongr : ∀ (seen : Nat → Tbl S) (s' : σ),
        visitSpec (fun i s => f (Function.update seen back t i) i s) (back + 1) rs s'
          = visitSpec (fun i s => f (seen i) i s) (back + 1) rs s' := by
      intro seen s'
      apply visitSpec_congr
      intro i hi
      rw [Function.update_of_ne (by omega)]
    -- what a stopped scan does
    have brkCase : ∀ (s' : σ) (run : R (Scan S σ)), run =
        (if out.length = back ∧ rug = [] then .ok (.noop t s')
          else do
            let r ← t.getRow back
            let back ← nextId S.max back
            let (t, rug, front) ← fillGap t (rug ++ [Sum.inl r]) out.length (back - out.length)
            scanLoop f t rug front back true s' k) →
        (∃ (seen : Nat → Tbl S) (res : Scan S σ), run = .ok res ∧
          (∀ i (hi : i < rs.length), (seen (back + 1 + i)).getRow (back + 1 + i) = .ok rs[i] ∧
            (seen (back + 1 + i)).len = (out ++ mid ++ r :: rs).length) ∧
          ScanPost res (out ++ mid ++ r :: rs).length (out ++ rugRows rug ++ r :: rs) s') ∨
        (S.max < (out ++ mid ++ r :: rs).length ∧ run = .error .idxOverflow) := by
      intro s' run hrun
      subst hrun
      by_cases hno : out.length = back ∧ rug = []
      · have hmid : mid = [] := List.length_eq_zero_iff.1 (by omega)
        -- the closure is not called again, any table with the right rows will do
        refine Or.inl ⟨fun _ => t, .noop t s', by rw [if_pos hno], ?_, ?_⟩
        · intro i hi
          refine ⟨?_, hlen'⟩
          rw [h.getRow (i := back + 1 + i) (by omega) (by simp [hf])]
          congr 1
          have : (out ++ mid ++ r :: rs)[back + 1 + i]? = some rs[i] := by
            rw [List.getElem?_append_right (by simp; omega)]
            have : back + 1 + i - (out ++ mid).length = i + 1 := by simp; omega
            rw [this]; simp [hi]
          rw [List.getElem?_eq_getElem (by omega)] at this
          exact Option.some.inj this
        · refine ⟨rfl, hf, ?_⟩
          rw [hno.2]
          simpa [hmid, rugRows] using h
      · rw [if_neg hno, hget, okBind]
        rcases tail (rug ++ [Sum.inl r]) true s' [r] (by simp [rugRows_append, rugRows]) with
          ⟨seen, res, g1, g2, g3⟩ | g
        swap
        · exact Or.inr g
        refine Or.inl ⟨seen, res, g1, g2, ?_⟩
        · simp only [scanSpec, if_true] at g3
          simpa using g3
    cases stopped with
    | true =>
      rcases brkCase s (scanLoop f t rug out.length back true s (k + 1)) rfl with ⟨seen, res, g1, g2, g3⟩ | g
      swap
      · exact Or.inr g
      refine Or.inl ⟨Function.update seen back t, res, g1, hseen seen g2, ?_⟩
      · simpa [scanSpec] using g3
    | false =>
      cases hact : f t back s with
      | mk action s' =>
        cases action with
        | brk =>
          rcases brkCase s' (scanLoop f t rug out.length back false s (k + 1)) (by simp [scanLoop, hact]) with
            ⟨seen, res, g1, g2, g3⟩ | g
          swap
          · exact Or.inr g
          refine Or.inl ⟨Function.update seen back t, res, g1, hseen seen g2, ?_⟩
          · simp only [scanSpec, visitSpec, Function.update_self, hact]
            simpa using g3
        | cont remove add =>
          have eqn : scanLoop f t rug out.length back false s (k + 1) =
              (do let back ← nextId S.max back
                  let (t, rug, front) ← fillGap t ((if remove then rug else rug ++ [Sum.inl r]) ++ [Sum.inr add])
                    out.length (back - out.length)
                  scanLoop f t rug front back false s' k) := by
            simp only [scanLoop, hact]
            cases remove
            · simp only [Bool.false_eq_true, if_false, hget, okBind]
            · simp only [Bool.false_eq_true, if_false, if_true, okBind]
          rw [eqn]
          rcases tail ((if remove then rug else rug ++ [Sum.inl r]) ++ [Sum.inr add]) false s'
            ((if remove then [] else [r]) ++ add) (by
              cases remove <;> simp [rugRows_append, rugRows]) with ⟨seen, res, g1, g2, g3⟩ | g
          swap
          · exact Or.inr g
          refine Or.inl ⟨Function.update seen back t, res, g1, hseen seen g2, ?_⟩
          · simp only [scanSpec, visitSpec, Function.update_self, hact, hcongr, Bool.false_eq_true, if_false]
            simp only [scanSpec, Bool.false_eq_true, if_false] at g3
            simpa using g3

theorem unrollRug_ok (k : Nat) {t : Tbl S} {L : List (Row S)} (h : WF t L) (hf : t.free = []) (rug : Rug S)
    (hk : (rugRows rug).length < k) :
    (L.length + (rugRows rug).length ≤ S.max + 1 → ∃ t', unrollRug t rug k = .ok t' ∧ t'.free = [] ∧ WF t' (L ++ rugRows rug)) ∧
    (S.max + 1 < L.length + (rugRows rug).length → unrollRug t rug k = .error .idxOverflow) := by
  induction k generalizing t L rug with
  | zero => omega
  | succ k ih =>
    unfold unrollRug
    cases hp : pullRug rug with
    | none =>
      have hr := pullRug_none hp
      refine ⟨fun _ => ⟨t, rfl, hf, by simpa [hr] using h⟩, fun hc => ?_⟩
      have := h.rep.le; simp [hr] at hc; omega
    | some x =>
      obtain ⟨r, q⟩ := x
      have hr := pullRug_some hp
      simp only []
      by_cases hl : L.length ≤ S.max
      · obtain ⟨t1, h1, h2, h3⟩ := h.pushOnly r hl
        rw [h1, okBind]
        have := ih h3 (by rw [h2, hf]) q (by simp [hr] at hk; omega)
        rw [hr]
        constructor
        · intro hc
          obtain ⟨t', e1, e2, e3⟩ := this.1 (by simp at hc ⊢; omega)
          exact ⟨t', e1, e2, by simpa using e3⟩
        · intro hc
          exact this.2 (by simp at hc ⊢; omega)
      · have hfull := h.rep.pushOnly_full r (by have := h.rep.le; omega)
        rw [hfull, errBind]
        refine ⟨fun hc => ?_, fun _ => rfl⟩
        simp [hr] at hc; omega

/-- `merge0` on a non-consistent table. -/
theorem merge0_all {σ : Type} {t : Tbl S} {L : List (Row S)} (h : WF t L) (hf : t.free = [])
    (f : Tbl S → Nat → σ → Action (Row S) × σ) (s : σ) :
    (∃ seen : Nat → Tbl S,
      (∀ i (hi : i < L.length), (seen i).getRow i = .ok L[i] ∧ (seen i).len = L.length) ∧
      ((visitSpec (fun i s => f (seen i) i s) 0 L s).1.length ≤ S.max + 1 →
        ∃ t', t.merge0 f s = .ok (t', (visitSpec (fun i s => f (seen i) i s) 0 L s).2) ∧ t'.free = [] ∧
          WF t' (visitSpec (fun i s => f (seen i) i s) 0 L s).1) ∧
      (S.max + 1 < (visitSpec (fun i s => f (seen i) i s) 0 L s).1.length → t.merge0 f s = .error .idxOverflow)) ∨
    (S.max < L.length ∧ t.merge0 f s = .error .idxOverflow) := by
  rcases scanLoop_ok f L.length (t := t) (out := []) (mid := []) (rest := L) [] 0 false s
    (by simpa using h) hf rfl rfl (by simp) with ⟨seen, res, g1, g2, g3⟩ | ⟨g0, g1⟩
  swap
  · right
    refine ⟨by simpa using g0, ?_⟩
    have g1' : scanLoop f t [] 0 0 false s L.length = .error .idxOverflow := g1
    unfold Tbl.merge0
    rw [h.len, g1', errBind]
  refine Or.inl ⟨seen, by simpa using g2, ?_⟩
  simp only [scanSpec, rugRows, List.append_nil, List.nil_append, Bool.false_eq_true, if_false] at g3
  unfold Tbl.merge0
  rw [h.len]
  have g1' : scanLoop f t [] 0 0 false s L.length = .ok res := g1
  rw [g1', okBind]
  cases res with
  | noop t1 s1 =>
    obtain ⟨e1, e2, e3⟩ := g3
    refine ⟨fun _ => ⟨t1, by simp [e1], e2, e3⟩, fun hc => ?_⟩
    have := e3.rep.le; omega
  | done t1 rug front s1 =>
    obtain ⟨e1, e2, L1, e3, e4, e5, e6⟩ := g3
    obtain ⟨t2, d1, d2, d3⟩ := e3.truncate front e2
    have := unrollRug_ok ((rugRows rug).length + 1) d3 d2 rug (by omega)
    rw [← List.length_append, e6] at this
    simp only []
    rw [d1, okBind]
    constructor
    · intro hc
      obtain ⟨t3, c1, c2, c3⟩ := this.1 hc
      exact ⟨t3, by rw [c1, okBind, e1], c2, c3⟩
    · intro hc
      rw [this.2 hc, errBind]

/-- `merge0` on a non-consistent table whose length fits the id type. -/
theorem merge0_ok {σ : Type} {t : Tbl S} {L : List (Row S)} (h : WF t L) (hf : t.free = []) (hm : L.length ≤ S.max)
    (f : Tbl S → Nat → σ → Action (Row S) × σ) (s : σ) :
    ∃ seen : Nat → Tbl S,
      (∀ i (hi : i < L.length), (seen i).getRow i = .ok L[i] ∧ (seen i).len = L.length) ∧
      ((visitSpec (fun i s => f (seen i) i s) 0 L s).1.length ≤ S.max + 1 →
        ∃ t', t.merge0 f s = .ok (t', (visitSpec (fun i s => f (seen i) i s) 0 L s).2) ∧ t'.free = [] ∧
          WF t' (visitSpec (fun i s => f (seen i) i s) 0 L s).1) ∧
      (S.max + 1 < (visitSpec (fun i s => f (seen i) i s) 0 L s).1.length → t.merge0 f s = .error .idxOverflow) := by
  rcases merge0_all h hf f s with h | ⟨h1, -⟩
  · exact h
  · omega

end V11
