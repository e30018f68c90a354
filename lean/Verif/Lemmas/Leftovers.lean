import Verif.Lemmas.Keep
import Verif.Spec.Crash

/-!
# What `visit` and `retain` leave when the caller's code panics
-/

set_option linter.unusedSimpArgs false
set_option linter.unusedSectionVars false
set_option linter.unusedVariables false

namespace V11

section Lists
variable {A : Type}

theorem okPrefix_length_le (l : List (Option A)) : (okPrefix l).length ≤ l.length := by
  induction l with
  | nil => simp [okPrefix]
  | cons x xs ih => cases x <;> simp [okPrefix, ih]

theorem okPrefix_short (l : List (Option A)) : (okPrefix l).length < l.length ↔ none ∈ l := by
  induction l with
  | nil => simp [okPrefix]
  | cons x xs ih => cases x <;> simp [okPrefix, ih]

theorem okPrefix_some (l : List A) (m : List (Option A)) : okPrefix (l.map some ++ m) = l ++ okPrefix m := by
  induction l with
  | nil => rfl
  | cons x xs ih => simp [okPrefix, ih]

theorem okPrefix_map (l : List A) : okPrefix (l.map some) = l := by
  have := okPrefix_some l []
  simpa [okPrefix] using this

theorem okPrefix_append_bad {l m : List (Option A)} (h : none ∈ l) : okPrefix (l ++ m) = okPrefix l := by
  induction l with
  | nil => simp at h
  | cons x xs ih =>
    cases x with
    | none => rfl
    | some a => simp [okPrefix, ih (by simpa using h)]

theorem eq_map_some {l : List (Option A)} (h : none ∉ l) : l = (okPrefix l).map some := by
  induction l with
  | nil => rfl
  | cons x xs ih =>
    cases x with
    | none => simp at h
    | some a => simp [okPrefix, ← ih (by simpa using h)]

theorem none_mem_take {l : List (Option A)} {k : Nat} : none ∈ l.take k ↔ (okPrefix l).length < l.length ∧ (okPrefix l).length < k := by
  induction l generalizing k with
  | nil => simp [okPrefix]
  | cons x xs ih =>
    cases k with
    | zero => simp
    | succ k => cases x <;> simp [okPrefix, ih]

end Lists

open scoped Classical

variable {S : Schema} [LS : LawfulSchema S] [LV : LeavesSchema S]

section
omit LS LV
variable {α β : Type}

theorem cr_ok {x : Cr S α} {f : α → Cr S β} {t t1 : Tbl S} {a : α} (h : x t = (t1, .ok a)) : (x >>= f) t = f a t1 := by
  show Cr.andThen x f t = _
  simp only [Cr.andThen, h]

theorem cr_err {x : Cr S α} {f : α → Cr S β} {t t1 : Tbl S} {p : Panic} (h : x t = (t1, .error p)) :
    (x >>= f) t = (t1, .error p) := by
  show Cr.andThen x f t = _
  simp only [Cr.andThen, h]

/-- What the rug will yield. -/
def crRows : Cr.CrRug S → List (Option (Row S))
  | [] => []
  | .inl r :: q => some r :: crRows q
  | .inr xs :: q => xs ++ crRows q

theorem crRows_append (a b : Cr.CrRug S) : crRows (a ++ b) = crRows a ++ crRows b := by
  induction a with
  | nil => rfl
  | cons x q ih => rcases x with r | xs <;> simp [crRows, ih]

theorem crRows_size (rug : Cr.CrRug S) : Cr.rugSize rug = (crRows rug).length := by
  induction rug with
  | nil => rfl
  | cons x q ih => rcases x with r | xs <;> simp [crRows, Cr.rugSize, ih] <;> omega

theorem crPull (rug : Cr.CrRug S) :
    (crRows rug = [] → Cr.pullRug rug = .ok none) ∧
    (∀ W, crRows rug = none :: W → Cr.pullRug rug = .error .userPanic) ∧
    (∀ r W, crRows rug = some r :: W → ∃ q, Cr.pullRug rug = .ok (some (r, q)) ∧ crRows q = W) := by
  induction rug with
  | nil => simp [crRows, Cr.pullRug]
  | cons x q ih =>
    rcases x with r | xs
    · simp [crRows, Cr.pullRug]
    · rcases xs with _ | ⟨_ | x, xs⟩
      · simpa [crRows, Cr.pullRug] using ih
      · simp [crRows, Cr.pullRug]
      · refine ⟨by simp [crRows], by simp [crRows], ?_⟩
        intro r W h
        simp only [crRows, List.cons_append, List.cons.injEq, Option.some.injEq] at h
        exact ⟨.inr xs :: q, by simp [Cr.pullRug, h.1], by simp [crRows, h.2]⟩

end

theorem cr_swapOutRow {t : Tbl S} {L : List (Row S)} (h : WF t L) (hf : t.free = []) (row : Row S) {i : Nat} (hi : i < L.length) :
    ∃ t', Cr.swapOutRow (S := S) i row t = (t', .ok L[i]) ∧ t'.free = [] ∧ WF t' (L.set i row) := by
  obtain ⟨t1, h1, h2, h3⟩ := h.swapOutRow row hi hf
  exact ⟨t1, out_ok.1 (by rw [out_swapOutRow]; exact h1), h2, h3⟩

theorem cr_pushOnly {t : Tbl S} {L : List (Row S)} (h : WF t L) (hf : t.free = []) (row : Row S) (hl : L.length ≤ S.max) :
    ∃ t', Cr.pushOnly (S := S) row t = (t', .ok L.length) ∧ t'.free = [] ∧ WF t' (L ++ [row]) := by
  obtain ⟨t1, h1, h2, h3⟩ := h.pushOnly row hl
  exact ⟨t1, out_ok.1 (by rw [out_pushOnly]; exact h1), by rw [h2, hf], h3⟩

theorem cr_fillGap (k : Nat) {t : Tbl S} {L : List (Row S)} (h : WF t L) (hf : t.free = []) (rug : Cr.CrRug S) (front : Nat)
    (hk : front + k ≤ L.length) (hm : front + k ≤ S.max) :
    (none ∈ (crRows rug).take k → ∃ t', Cr.fillGap (S := S) rug front k t = (t', .error .userPanic) ∧ t'.free = [] ∧
      WF t' (L.take front ++ okPrefix (crRows rug) ++ L.drop (front + (okPrefix (crRows rug)).length))) ∧
    (none ∉ (crRows rug).take k → ∃ t' rug' P, (crRows rug).take k = P.map some ∧
      Cr.fillGap (S := S) rug front k t = (t', .ok (rug', front + P.length)) ∧ t'.free = [] ∧
      WF t' (L.take front ++ P ++ L.drop (front + P.length)) ∧ crRows rug' = (crRows rug).drop k) := by
  induction k generalizing t L rug front with
  | zero =>
    refine ⟨by simp, fun _ => ⟨t, rug, [], by simp, rfl, hf, ?_, by simp⟩⟩
    simpa using h
  | succ k ih =>
    obtain ⟨p1, p2, p3⟩ := crPull rug
    unfold Cr.fillGap
    cases hW : crRows rug with
    | nil =>
      refine ⟨by simp, fun _ => ⟨t, [], [], by simp, ?_, hf, by simpa using h, by simp [crRows]⟩⟩
      rw [cr_ok (x := Cr.lift (Cr.pullRug rug)) (t1 := t) (a := none) (by simp [Cr.lift, p1 hW])]
      rfl
    | cons o W =>
      cases o with
      | none =>
        refine ⟨fun _ => ⟨t, ?_, hf, by simpa [okPrefix] using h⟩, by simp⟩
        exact cr_err (x := Cr.lift (Cr.pullRug rug)) (by simp [Cr.lift, p2 W hW])
      | some r =>
        obtain ⟨q, hq, hqW⟩ := p3 r W hW
        rw [cr_ok (x := Cr.lift (Cr.pullRug rug)) (t1 := t) (a := some (r, q)) (by simp [Cr.lift, hq])]
        simp only []
        obtain ⟨t1, h1, h2, h3⟩ := cr_swapOutRow h hf r (i := front) (by omega)
        rw [cr_ok h1, cr_ok (x := Cr.lift (nextId S.max front)) (t1 := t1) (a := front + 1) (by simp [Cr.lift, nextId_ok (show front + 1 ≤ S.max by omega)])]
        obtain ⟨i1, i2⟩ := ih h3 h2 q (front + 1) (by simp; omega) (by omega)
        have step : ∀ P : List (Row S), List.take (front + 1) (L.set front r) ++ P ++ List.drop (front + 1 + P.length) (L.set front r)
            = L.take front ++ (r :: P) ++ L.drop (front + (r :: P).length) := by
          intro P
          rw [List.drop_set_of_lt (by omega), List.take_set]
          rw [List.take_add_one, List.set_append_right _ _ (by simp)]
          rw [List.getElem?_eq_getElem (by omega)]
          have e1 : front - (List.take front L).length = 0 := by simp; omega
          have e2 : front + 1 + P.length = front + (r :: P).length := by simp; omega
          rw [e1, e2]
          simp
        rw [hqW] at i1 i2
        constructor
        · intro hn
          obtain ⟨t', e1, e2, e3⟩ := i1 (by simpa using hn)
          exact ⟨t', e1, e2, by rw [step] at e3; exact e3⟩
        · intro hn
          obtain ⟨t', rug', P, e0, e1, e2, e3, e4⟩ := i2 (by simpa using hn)
          refine ⟨t', rug', r :: P, by simp [e0], ?_, e2, by rw [step] at e3; exact e3, by rw [e4]; rfl⟩
          rw [e1]
          have : front + 1 + P.length = front + (r :: P).length := by simp; omega
          rw [this]

theorem cr_unrollRug (k : Nat) {t : Tbl S} {L : List (Row S)} (h : WF t L) (hf : t.free = []) (rug : Cr.CrRug S)
    (hk : (crRows rug).length < k) :
    (L.length + (okPrefix (crRows rug)).length ≤ S.max + 1 → ∃ t', Cr.unrollRug (S := S) rug k t =
        (t', if none ∈ crRows rug then .error .userPanic else .ok ()) ∧ t'.free = [] ∧ WF t' (L ++ okPrefix (crRows rug))) ∧
    (S.max + 1 < L.length + (okPrefix (crRows rug)).length → (Cr.unrollRug (S := S) rug k t).2 = .error .idxOverflow) := by
  induction k generalizing t L rug with
  | zero => omega
  | succ k ih =>
    obtain ⟨p1, p2, p3⟩ := crPull rug
    have hle := h.rep.le
    unfold Cr.unrollRug
    cases hW : crRows rug with
    | nil =>
      refine ⟨fun _ => ⟨t, ?_, hf, by simpa [okPrefix] using h⟩, fun hc => by simp [okPrefix] at hc; omega⟩
      rw [cr_ok (x := Cr.lift (Cr.pullRug rug)) (t1 := t) (a := none) (by simp [Cr.lift, p1 hW])]
      rfl
    | cons o W =>
      cases o with
      | none =>
        refine ⟨fun _ => ⟨t, ?_, hf, by simpa [okPrefix] using h⟩, fun hc => by simp [okPrefix] at hc; omega⟩
        rw [cr_err (x := Cr.lift (Cr.pullRug rug)) (t1 := t) (p := .userPanic) (by simp [Cr.lift, p2 W hW])]
        simp
      | some r =>
        obtain ⟨q, hq, hqW⟩ := p3 r W hW
        rw [cr_ok (x := Cr.lift (Cr.pullRug rug)) (t1 := t) (a := some (r, q)) (by simp [Cr.lift, hq])]
        simp only []
        rw [hW] at hk
        by_cases hl : L.length ≤ S.max
        · obtain ⟨t1, h1, h2, h3⟩ := cr_pushOnly h hf r hl
          rw [cr_ok h1]
          obtain ⟨i1, i2⟩ := ih h3 h2 q (by rw [hqW]; simp at hk; omega)
          rw [hqW] at i1 i2
          constructor
          · intro hc
            obtain ⟨t', e1, e2, e3⟩ := i1 (by simp [okPrefix] at hc ⊢; omega)
            refine ⟨t', ?_, e2, by simpa [okPrefix] using e3⟩
            rw [e1]
            by_cases hn : none ∈ W <;> simp [hn]
          · intro hc
            exact i2 (by simp [okPrefix] at hc ⊢; omega)
        · refine ⟨fun hc => by simp [okPrefix] at hc; omega, fun _ => ?_⟩
          have : (Cr.pushOnly (S := S) r t).2 = .error .idxOverflow :=
            out_err.1 (by rw [out_pushOnly]; exact h.rep.pushOnly_full r (by omega))
          rw [cr_err (x := Cr.pushOnly r) (t1 := (Cr.pushOnly (S := S) r t).1) (p := .idxOverflow) (by rw [← this])]

variable {σ : Type}

/-- What the scan will have put in place. -/
def scanPlaced (f : Nat → Row S → σ → Option (Action (Option (Row S)) × σ)) (stopped : Bool) (back : Nat)
    (out : List (Option (Row S))) (rest : List (Row S)) (s : σ) : List (Row S) × Bool :=
  if stopped then (okPrefix (out ++ rest.map some), (okPrefix out).length < out.length) else visitPlaced f back out rest s

/-- What the scan leaves. -/
def ScanLeft (n : Nat) (L0 W : List (Row S)) (p : Bool) (x : Tbl S × R (Option (Cr.CrRug S × Nat))) : Prop :=
  x.1.free = [] ∧
  ((x.2 = .ok none ∧ p = false ∧ WF x.1 W) ∨
   (∃ rug front L', x.2 = .ok (some (rug, front)) ∧ WF x.1 L' ∧ L'.length = n ∧ front ≤ n ∧
      W = L'.take front ++ okPrefix (crRows rug) ∧ (p = true ↔ none ∈ crRows rug) ∧ (crRows rug ≠ [] → front = n)) ∨
   (x.2 = .error .userPanic ∧ p = true ∧ WF x.1 (putOver L0 W)))

theorem cr_scanLoop (f : Nat → Row S → σ → Option (Action (Option (Row S)) × σ)) (k : Nat)
    {t : Tbl S} {L0 out mid rest : List (Row S)} (rug : Cr.CrRug S) (back : Nat) (stopped : Bool) (s : σ)
    (h : WF t (out ++ mid ++ rest)) (hf : t.free = []) (hk : rest.length = k)
    (hb : back = out.length + mid.length) (hrug : mid ≠ [] → crRows rug = [])
    (hL0 : mid ++ rest = L0.drop out.length) (hn : (out ++ mid ++ rest).length = L0.length) (hm : L0.length ≤ S.max) :
    ScanLeft L0.length L0 (scanPlaced f stopped back (out.map some ++ crRows rug) rest s).1
      (scanPlaced f stopped back (out.map some ++ crRows rug) rest s).2
      (Cr.scanLoop (S := S) (onRowC f) rug out.length back stopped s k t) := by
  induction k generalizing t out mid rest rug back stopped s with
  | zero =>
    have : rest = [] := List.length_eq_zero_iff.1 hk
    subst this
    refine ⟨hf, Or.inr (Or.inl ⟨rug, out.length, _, rfl, h, hn, by simp at hn; omega, ?_, ?_, ?_⟩)⟩
    · cases stopped <;> simp [scanPlaced, visitPlaced, okPrefix_some]
    · have := okPrefix_short (crRows rug)
      cases stopped <;> simp [scanPlaced, visitPlaced, okPrefix_some, this]
    · intro hne
      by_cases hmid : mid = []
      · subst hmid; simpa using hn
      · exact absurd (hrug hmid) hne
  | succ k ih =>
    obtain ⟨r, rs, rfl⟩ : ∃ r rs, rest = r :: rs := by
      cases rest with
      | nil => simp at hk
      | cons r rs => exact ⟨r, rs, rfl⟩
    have hlen : (out ++ mid ++ r :: rs).length = back + 1 + rs.length := by simp; omega
    have hget : t.getRow back = .ok r := by
      rw [h.getRow (i := back) (by omega) (by simp [hf])]
      congr 1
      subst hb
      have : (out ++ mid ++ r :: rs)[out.length + mid.length]? = some r := by
        rw [List.getElem?_append_right (by simp)]; simp
      rw [List.getElem?_eq_getElem (by omega)] at this
      exact Option.some.inj this
    have hbm : back + 1 ≤ S.max := by omega
    have hnext : nextId S.max back = .ok (back + 1) := nextId_ok hbm
    -- refill the gap with the new rug, then recurse
    have tail : ∀ (rug' : Cr.CrRug S) (stopped' : Bool) (s' : σ) (keep : List (Option (Row S))),
        crRows rug' = crRows rug ++ keep →
        let O := out.map some ++ crRows rug'
        let sp := if none ∈ (crRows rug').take (back + 1 - out.length) then (okPrefix O, true) else scanPlaced f stopped' (back + 1) O rs s'
        ScanLeft L0.length L0 sp.1 sp.2
          ((do let back ← Cr.lift (nextId S.max back)
               let (rug, front) ← Cr.fillGap rug' out.length (back - out.length)
               Cr.scanLoop (S := S) (onRowC f) rug front back stopped' s' k : Cr S _) t) := by
      intro rug' stopped' s' keep hkeep O sp
      rw [cr_ok (x := Cr.lift (nextId S.max back)) (t1 := t) (a := back + 1) (by simp [Cr.lift, hnext])]
      obtain ⟨g1, g2⟩ := cr_fillGap (back + 1 - out.length) h hf rug' out.length (by omega) (by omega)
      have hout : List.take out.length (out ++ mid ++ r :: rs) = out := by
        rw [List.append_assoc, List.take_left]
      have hdropL : ∀ m, List.drop (out.length + m) (out ++ mid ++ r :: rs) = L0.drop (out.length + m) := by
        intro m
        rw [List.append_assoc, List.drop_append, List.drop_eq_nil_of_le (by omega), hL0, List.drop_drop,
          Nat.add_sub_cancel_left, List.nil_append]
      by_cases hnone : none ∈ (crRows rug').take (back + 1 - out.length)
      · obtain ⟨t', e1, e2, e3⟩ := g1 hnone
        rw [cr_err e1]
        refine ⟨e2, Or.inr (Or.inr ⟨rfl, by simp [sp, hnone], ?_⟩)⟩
        have : sp.1 = out ++ okPrefix (crRows rug') := by simp [sp, hnone, O, okPrefix_some]
        rw [this, putOver]
        rw [hout, hdropL] at e3
        simpa using e3
      · obtain ⟨t1, rug1, P, e0, e1, e2, e3, e4⟩ := g2 hnone
        rw [cr_ok e1]
        simp only []
        have hPle : P.length ≤ back + 1 - out.length := by
          have := congrArg List.length e0
          simp at this; omega
        have hdrop : List.drop (out.length + P.length) (out ++ mid ++ r :: rs) = (mid ++ [r]).drop P.length ++ rs := by
          have : out ++ mid ++ r :: rs = out ++ ((mid ++ [r]) ++ rs) := by simp
          rw [this, List.drop_append, List.drop_append (l₁ := mid ++ [r])]
          rw [List.drop_eq_nil_of_le (by omega)]
          have h1 : out.length + P.length - out.length = P.length := by omega
          have h2 : P.length - (mid ++ [r]).length = 0 := by simp; omega
          rw [h1, h2]; simp
        have hO : O = (out ++ P).map some ++ crRows rug1 := by
          simp only [O, List.map_append, e4, ← e0, List.append_assoc, List.take_append_drop]
        have e3' : WF t1 ((out ++ P) ++ (mid ++ [r]).drop P.length ++ rs) := by
          rw [hout, hdrop] at e3
          rw [List.append_assoc]; exact e3
        have IH := ih (out := out ++ P) (mid := (mid ++ [r]).drop P.length) (rest := rs) rug1 (back + 1) stopped' s' e3' e2
          (by simpa using hk)
          (by simp only [List.length_append, List.length_drop, List.length_cons, List.length_nil]; omega)
          (by
            intro hne
            rw [e4]
            apply List.drop_eq_nil_of_le
            have h1 : P.length < (mid ++ [r]).length := by
              by_contra hc
              exact hne (List.drop_eq_nil_of_le (by omega))
            have := congrArg List.length e0
            simp only [List.length_take, List.length_map, List.length_append, List.length_cons, List.length_nil] at this h1
            omega)
          (by rw [← hdrop, hdropL, List.length_append])
          (by
            rw [← hn]
            simp only [List.length_append, List.length_drop, List.length_cons, List.length_nil]; omega)
        simp only [List.length_append] at IH
        have : sp = scanPlaced f stopped' (back + 1) ((out ++ P).map some ++ crRows rug1) rs s' := by
          simp only [sp, if_neg hnone, hO]
        rw [this]
        exact IH
    -- what a stopped scan does
    have brkCase : ∀ (s' : σ), ScanLeft L0.length L0 (okPrefix ((out.map some ++ crRows rug) ++ (r :: rs).map some))
        ((okPrefix (out.map some ++ crRows rug)).length < (out.map some ++ crRows rug).length)
        ((if out.length = back ∧ rug = [] then Cr.ret none
          else do
            let r ← Cr.look (Tbl.getRow · back)
            let back ← Cr.lift (nextId S.max back)
            let (rug, front) ← Cr.fillGap (rug ++ [Sum.inl r]) out.length (back - out.length)
            Cr.scanLoop (S := S) (onRowC f) rug front back true s' k : Cr S _) t) := by
      intro s'
      by_cases hno : out.length = back ∧ rug = []
      · have hmid : mid = [] := List.length_eq_zero_iff.1 (by omega)
        rw [if_pos hno]
        refine ⟨hf, Or.inl ⟨rfl, ?_, ?_⟩⟩
        · rw [hno.2]; simp [crRows, okPrefix_map]
        · rw [hno.2]
          show WF t _
          rw [show crRows ([] : Cr.CrRug S) = [] from rfl, List.append_nil, okPrefix_some, okPrefix_map]
          simpa [hmid] using h
      · rw [if_neg hno, cr_ok (x := Cr.look (Tbl.getRow · back)) (t1 := t) (a := r) (by simp [Cr.look, hget])]
        have := tail (rug ++ [Sum.inl r]) true s' [some r] (by simp [crRows_append, crRows])
        simp only [crRows_append, crRows] at this
        have e : (if none ∈ (crRows rug ++ [some r]).take (back + 1 - out.length) then
              (okPrefix (out.map some ++ (crRows rug ++ [some r])), true)
            else scanPlaced f true (back + 1) (out.map some ++ (crRows rug ++ [some r])) rs s') =
            (okPrefix ((out.map some ++ crRows rug) ++ (r :: rs).map some),
              decide ((okPrefix (out.map some ++ crRows rug)).length < (out.map some ++ crRows rug).length)) := by
          by_cases hnone : none ∈ (crRows rug ++ [some r]).take (back + 1 - out.length)
          · rw [if_pos hnone]
            have hmem : none ∈ out.map some ++ crRows rug := by
              have := List.mem_of_mem_take hnone
              simpa using this
            rw [← List.append_assoc, okPrefix_append_bad hmem, okPrefix_append_bad hmem]
            simp only [okPrefix_short, hmem, decide_true]
          · rw [if_neg hnone]
            simp only [scanPlaced, if_true]
            have e1 : out.map some ++ (crRows rug ++ [some r]) ++ rs.map some = (out.map some ++ crRows rug) ++ (r :: rs).map some := by simp
            rw [e1]
            congr 1
            simp only [okPrefix_short]
            simp
        rw [e] at this
        exact this
    cases stopped with
    | true =>
      have := brkCase s
      unfold Cr.scanLoop
      rw [cr_ok (x := Cr.ask (S := S) (onRowC f) true back s) (t1 := t) (a := (.brk, s)) rfl]
      simp only [scanPlaced, if_true]
      exact this
    | false =>
      unfold Cr.scanLoop
      have hask : Cr.ask (S := S) (onRowC f) false back s t = (t, match f back r s with | some a => .ok a | none => .error .userPanic) := by
        simp only [Cr.ask, Bool.false_eq_true, if_false, Cr.look, onRowC, hget]
        all_goals cases f back r s <;> rfl
      simp only [scanPlaced, Bool.false_eq_true, if_false, visitPlaced]
      cases hact : f back r s with
      | none =>
        rw [hact] at hask
        rw [cr_err hask]
        simp only []
        refine ⟨hf, Or.inr (Or.inr ⟨rfl, rfl, ?_⟩)⟩
        have : okPrefix (List.take back (out.map some ++ crRows rug)) = out := by
          by_cases hmid : mid = []
          · subst hmid
            have hb' : back = out.length := by simpa using hb
            rw [List.take_append_of_le_length (by simp [hb']), List.take_of_length_le (by simp [hb']), okPrefix_map]
          · rw [hrug hmid, List.append_nil, List.take_of_length_le (by simp; omega), okPrefix_map]
        rw [this, putOver, ← hL0, ← List.append_assoc]
        exact h
      | some p =>
        obtain ⟨action, s'⟩ := p
        rw [hact] at hask
        rw [cr_ok hask]
        cases action with
        | brk =>
          have := brkCase s'
          simp only []
          exact this
        | cont remove add =>
          simp only []
          have hkeep : Cr.keepRow (S := S) remove back rug t = (t, .ok (if remove then rug else rug ++ [.inl r])) := by
            unfold Cr.keepRow
            cases remove
            · simp only [Bool.false_eq_true, if_false]
              rw [cr_ok (x := Cr.look (Tbl.getRow · back)) (t1 := t) (a := r) (by simp [Cr.look, hget])]
              rfl
            · rfl
          rw [cr_ok hkeep]
          have hrows : crRows ((if remove then rug else rug ++ [Sum.inl r]) ++ [Sum.inr add]) =
              crRows rug ++ ((if remove then [] else [some r]) ++ add) := by
            cases remove <;> simp [crRows_append, crRows]
          have := tail ((if remove then rug else rug ++ [.inl r]) ++ [.inr add]) false s' _ hrows
          rw [hrows] at this
          have e : out.map some ++ (crRows rug ++ ((if remove then [] else [some r]) ++ add)) =
              out.map some ++ crRows rug ++ (if remove then [] else [some r]) ++ add := by simp
          simp only [e] at this
          have econd : none ∈ (crRows rug ++ ((if remove then [] else [some r]) ++ add)).take (back + 1 - out.length) ↔
              (okPrefix (out.map some ++ crRows rug ++ (if remove then [] else [some r]) ++ add)).length <
                (out.map some ++ crRows rug ++ (if remove then [] else [some r]) ++ add).length ∧
              (okPrefix (out.map some ++ crRows rug ++ (if remove then [] else [some r]) ++ add)).length ≤ back := by
            rw [← e, none_mem_take, okPrefix_some]
            simp only [List.length_append, List.length_map]
            constructor
            · rintro ⟨a, b⟩; exact ⟨by omega, by omega⟩
            · rintro ⟨a, b⟩; exact ⟨by omega, by omega⟩
          by_cases hc : none ∈ (crRows rug ++ ((if remove then [] else [some r]) ++ add)).take (back + 1 - out.length)
          · rw [if_pos (econd.1 hc)]
            rw [if_pos hc] at this
            exact this
          · rw [if_neg (fun h => hc (econd.2 h))]
            rw [if_neg hc] at this
            exact this

/-- `visit` with a closure and iterators that may panic. -/
theorem cr_merge0 {t : Tbl S} {L : List (Row S)} (h : WF t L) (hf : t.free = []) (hm : L.length ≤ S.max)
    (f : Nat → Row S → σ → Option (Action (Option (Row S)) × σ)) (s : σ) :
    ((visitPlaced f 0 [] L s).1.length ≤ S.max + 1 → ∃ t', Cr.merge0 (S := S) (onRowC f) s t =
        (t', if (visitPlaced f 0 [] L s).2 then .error .userPanic else .ok ()) ∧ t'.free = [] ∧
      WF t' (if (visitPlaced f 0 [] L s).2 then putOver L (visitPlaced f 0 [] L s).1 else (visitPlaced f 0 [] L s).1)) ∧
    (S.max + 1 < (visitPlaced f 0 [] L s).1.length → (Cr.merge0 (S := S) (onRowC f) s t).2 = .error .idxOverflow) := by
  have hs := cr_scanLoop f L.length (t := t) (L0 := L) (out := []) (mid := []) (rest := L) [] 0 false s
    (by simpa using h) hf rfl rfl (by simp) (by simp) (by simp) hm
  simp only [scanPlaced, Bool.false_eq_true, if_false, List.map_nil, List.nil_append, List.length_nil,
    show crRows ([] : Cr.CrRug S) = [] from rfl] at hs
  unfold Cr.merge0
  rw [cr_ok (x := Cr.look fun t : Tbl S => .ok t.len) (t1 := t) (a := L.length) (by simp [Cr.look, h.len])]
  generalize hsp : visitPlaced f 0 [] L s = sp at hs ⊢
  obtain ⟨W, p⟩ := sp
  obtain ⟨hs0, hs⟩ := hs
  generalize hx : Cr.scanLoop (S := S) (onRowC f) [] 0 0 false s L.length t = x at hs0 hs
  obtain ⟨t1, res⟩ := x
  simp only [] at hs0 hs ⊢
  rcases hs with ⟨rfl, rfl, hw⟩ | ⟨rug, front, L', rfl, hw, h1, h2, h3, h4, h5⟩ | ⟨rfl, rfl, hw⟩
  · rw [cr_ok hx]
    refine ⟨fun _ => ⟨t1, rfl, hs0, by simpa using hw⟩, fun hc => ?_⟩
    have := hw.rep.le; omega
  · rw [cr_ok hx]
    simp only []
    obtain ⟨t2, d1, d2, d3⟩ := hw.truncate front hs0
    have d1' : Cr.truncate (S := S) front t1 = (t2, .ok ()) := out_ok.1 (by rw [out_truncate, d1]; rfl)
    rw [cr_ok d1']
    obtain ⟨u1, u2⟩ := cr_unrollRug (Cr.rugSize rug + 1) d3 d2 rug (by rw [crRows_size]; omega)
    rw [← List.length_append, ← h3] at u1 u2
    refine ⟨fun hc => ?_, fun hc => u2 hc⟩
    obtain ⟨t', e1, e2, e3⟩ := u1 hc
    refine ⟨t', ?_, e2, ?_⟩
    · rw [e1]
      by_cases hn : none ∈ crRows rug
      · rw [if_pos hn, if_pos (h4.2 hn)]
      · rw [if_neg hn, if_neg (fun h => hn (h4.1 h))]
    · cases p with
      | false => exact e3
      | true =>
        have hne : crRows rug ≠ [] := fun hc => by
          have := h4.1 rfl
          rw [hc] at this; simp at this
        have hfr := h5 hne
        simp only [if_true, putOver]
        rw [List.drop_eq_nil_of_le (by rw [h3, List.length_append, List.length_take]; omega), List.append_nil]
        exact e3
  · rw [cr_err hx]
    have hle := hw.rep.le
    refine ⟨fun _ => ⟨t1, rfl, hs0, by simpa using hw⟩, fun hc => ?_⟩
    simp [putOver] at hle
    omega

end V11
