import Verif.Spec.Stream
import Verif.Lemmas.Serial

/-!
# Writing columns to any serialiser and reading them from any input: C90
-/

set_option linter.unusedSimpArgs false
set_option linter.unusedSectionVars false
set_option linter.unusedVariables false

namespace V11

section Columns
variable {E D τ O : Type} {max : Nat} {C : TCol E} [LC : LawfulCol max C]

theorem putLoop_ok (k : Sink E τ O D) (s : C.σ) (l : List E) (h : ∀ i (h : i < l.length), C.index s i = .ok l[i]) (m : Nat) (hm : m ≤ l.length) (t : τ) :
    putLoop C k s (List.range' (l.length - m) m) t = Put.ofExcept (do let t ← (l.drop (l.length - m)).foldlM k.elem t; k.finish t) := by
  induction m generalizing t with
  | zero =>
    simp only [List.range'_zero, Nat.sub_zero, List.drop_length, List.foldlM_nil]
    unfold putLoop
    show _ = Put.ofExcept (k.finish t)
    cases k.finish t <;> rfl
  | succ m ih =>
    have hi : l.length - (m + 1) < l.length := by omega
    rw [List.range'_succ, List.drop_eq_getElem_cons hi, List.foldlM_cons]
    have e1 : l.length - (m + 1) + 1 = l.length - m := by omega
    rw [e1]
    unfold putLoop
    rw [h _ hi]
    simp only []
    cases hk : k.elem t l[l.length - (m + 1)] with
    | error d => rfl
    | ok t' =>
      simp only []
      rw [ih (by omega) t']
      rfl

theorem pushSeq_ok (l : List E) (f : Option D) {s : C.σ} (h : LC.Inv (fun _ => False) s) (hl : (LC.abs s).length + l.length ≤ max + 1) :
    ∃ s', l.foldlM C.push s = .ok s' ∧ pushSeq C l f s = (match f with | none => .col s' | some d => .err d) := by
  induction l generalizing s with
  | nil =>
    refine ⟨s, rfl, ?_⟩
    cases f <;> rfl
  | cons e l ih =>
    simp only [List.length_cons] at hl
    obtain ⟨s1, a1, a2, a3⟩ := LC.push_ok e h (by simp) (by omega)
    obtain ⟨s2, b1, b2⟩ := ih a2 (by rw [a3]; simp; omega)
    refine ⟨s2, by rw [List.foldlM_cons, a1, okBind]; exact b1, ?_⟩
    unfold pushSeq
    rw [a1]
    exact b2

/-- C90: a column read from any input that fits and whose promised length can be allocated: if the input ends well the result is
a column of exactly its elements (C34 says what that means), whatever length was promised; if it ends in an error that error is
the result, and no column. -/
theorem C90_read (cap : Nat) (inp : SeqInput E D) (hl : inp.elems.length ≤ max + 1) (hh : ∀ h, inp.hint = some h → h ≤ cap) :
    (inp.fails = none → ∃ s, deSeq C cap inp = .col s ∧ deCol C inp.elems = .ok s ∧ C.toList s = inp.elems ∧ serCol C s = .ok inp.elems) ∧
    ∀ d, inp.fails = some d → deSeq C cap inp = .err d := by
  obtain ⟨n1, n2⟩ := LC.new_ok (fun _ => False)
  obtain ⟨s, a1, a2⟩ := pushSeq_ok (max := max) (C := C) inp.elems inp.fails n1 (by rw [n2]; simpa using hl)
  have hd : deSeq C cap inp = pushSeq C inp.elems inp.fails C.new := by
    unfold deSeq
    cases e : inp.hint with
    | none => rfl
    | some h => simp only []; rw [if_neg (by have := hh h e; omega)]
  obtain ⟨s', b1, b2, b3⟩ := deCol_ok (max := max) (C := C) hl
  unfold deCol at b1
  rw [a1] at b1
  injection b1 with b1
  subst b1
  refine ⟨fun hf => ⟨s, ?_, a1, by rw [LC.toList_ok b2, b3], by rw [serCol_ok b2, b3]⟩, fun d hf => ?_⟩
  · rw [hd, a2, hf]
  · rw [hd, a2, hf]

/-- C90: the length an input promises is believed: if it cannot be allocated reading panics, whatever the input really holds. -/
theorem C90_promise_believed (cap : Nat) (inp : SeqInput E D) (h : Nat) (hh : inp.hint = some h) (hc : cap < h) :
    deSeq C cap inp = .capacity := by
  unfold deSeq
  rw [hh]
  simp only []
  rw [if_pos hc]

/-- C90: an indexed column panics on input with more elements than there are row ids, even if an error would follow. -/
theorem C90_read_too_long [LinearOrder E] (Cc : TCol E) [LCc : LawfulCol max Cc] (cap : Nat) (inp : SeqInput E D) (hl : max + 1 < inp.elems.length)
    (hh : ∀ h, inp.hint = some h → h ≤ cap) : deSeq (btreeIndex max Cc) cap inp = .panicked .idxOverflow := by
  have hd : deSeq (btreeIndex max Cc) cap inp = pushSeq (btreeIndex max Cc) inp.elems inp.fails (btreeIndex max Cc).new := by
    unfold deSeq
    cases e : inp.hint with
    | none => rfl
    | some h => simp only []; rw [if_neg (by have := hh h e; omega)]
  rw [hd]
  obtain ⟨n1, n2⟩ := (indexLawful (max := max) (C := Cc)).new_ok (fun _ => False)
  suffices h : ∀ (l : List E) (f : Option D) (s : (btreeIndex max Cc).σ), (indexLawful (max := max) (C := Cc)).Inv (fun _ => False) s →
      ((indexLawful (max := max) (C := Cc)).abs s).length ≤ max + 1 → max + 1 < ((indexLawful (max := max) (C := Cc)).abs s).length + l.length →
      pushSeq (btreeIndex max Cc) l f s = .panicked .idxOverflow from
    h _ _ _ n1 (by rw [n2]; simp) (by rw [n2]; simpa using hl)
  intro l
  induction l with
  | nil => intro f s h1 h2 h3; simp at h3; omega
  | cons e l ih =>
    intro f s h1 h2 h3
    simp only [List.length_cons] at h3
    unfold pushSeq
    rcases Nat.lt_or_ge ((indexLawful (max := max) (C := Cc)).abs s).length (max + 1) with hlt | hge
    · obtain ⟨s1, a1, a2, a3⟩ := (indexLawful (max := max) (C := Cc)).push_ok e h1 (by simp) (by omega)
      rw [a1]
      exact ih f s1 a2 (by rw [a3]; simp; omega) (by rw [a3]; simp; omega)
    · have hlen : (btreeIndex max Cc).len s = max + 1 := by
        rw [(indexLawful (max := max) (C := Cc)).len_ok]; omega
      have : (btreeIndex max Cc).push s e = .error .idxOverflow := by
        rcases (indexLawful (max := max) (C := Cc)).push_full e h1 (by omega) with h | ⟨s', h, -⟩
        · exact h
        · exfalso
          have hlen' : Cc.len s.inner = max + 1 := hlen
          revert h
          show (do
            let inner ← Cc.push s.inner e
            let ni ← fromUsize max (Cc.len s.inner)
            .ok { inner := inner, index := BSet.insert (toLex (e, ni)) s.index } : R (IndexState E Cc)) = .ok s' → False
          rw [hlen']
          cases Cc.push s.inner e with
          | error p => intro h; cases h
          | ok inner =>
            rw [okBind]
            unfold fromUsize
            rw [if_neg (by omega), errBind]
            intro h; cases h
      rw [this]

end Columns

section OneTable
variable {S : Schema} [LS : LawfulSchema S] {K : Type} [LinearOrder K] {key : Row S → K} {c : Bool}
variable {τ O D : Type}

/-- C90: each column of a table, whatever was done to the table, written to any serialiser: it is given the number of cells, the
cells in order of their ids, and the end; its first error is the result, and there is never a panic or an access out of
bounds. -/
theorem C90_write (t : Tbl S) (ht : Reach key c t) (j : Fin (S.n + 1)) (k : Sink (S.E j) τ O D) :
    ∃ l, l.length = t.len ∧ (∀ i (h : i < l.length), t.cell j i = .ok l[i]) ∧ serInto (S.C j) k (t.cols j) = Put.ofExcept (k.write l) := by
  obtain ⟨L, d, h⟩ := ht.aligned
  refine ⟨L.map (· j), by rw [h.rep.len]; simp, ?_, ?_⟩
  · intro i hi
    rw [h.cell j (by simpa using hi)]; simp
  · have hlen : (S.C j).len (t.cols j) = (L.map (· j)).length := by rw [h.rep.colLen]; simp
    have hix : ∀ i (hi : i < (L.map (· j)).length), (S.C j).index (t.cols j) i = .ok (L.map (· j))[i] := by
      intro i hi
      rw [(LS.law j).index_ok i (h.rep.inv j) (by rw [h.rep.abs]; exact hi)]
      simp [h.rep.abs]
    unfold serInto Sink.write
    rw [hlen]
    cases hk : k.start (L.map (· j)).length with
    | error d => rfl
    | ok t0 =>
      simp only []
      have := putLoop_ok (C := S.C j) k (t.cols j) (L.map (· j)) hix (L.map (· j)).length (le_refl _) t0
      rw [Nat.sub_self, List.drop_zero, ← List.range_eq_range'] at this
      rw [this]
      rfl

end OneTable

/-! ## Concretely -/

/-- A serialiser that fails at the element 7 and otherwise collects. -/
def fussySink : Sink Nat (List Nat) (List Nat) String where
  start _ := .ok []
  elem l e := if e = 7 then .error "seven" else .ok (l ++ [e])
  finish l := .ok l

example : fussySink.write [1, 2, 3] = .ok [1, 2, 3] ∧ fussySink.write [1, 7, 3] = .error "seven" := ⟨rfl, rfl⟩

/-- Three elements, a promise of two, no error: a column of three; with an error: the error; a promise of 2^63: a panic. -/
example : (match deSeq (vecCol Nat) (2 ^ 60) (⟨some 2, [5, 6, 5], none⟩ : SeqInput Nat String) with | .col s => decide (s = [5, 6, 5]) | _ => false) = true ∧
    (match deSeq (vecCol Nat) (2 ^ 60) (⟨some 2, [5, 6, 5], some "eof"⟩ : SeqInput Nat String) with | .err d => decide (d = "eof") | _ => false) = true ∧
    (match deSeq (vecCol Nat) (2 ^ 60) (⟨some (2 ^ 63), [5], none⟩ : SeqInput Nat String) with | .capacity => true | _ => false) = true := by decide

end V11
