import Verif.Model.Table
import Verif.Lemmas.Column

/-!
# The representation relation between a table's columns and a list of rows
-/

set_option linter.unusedSimpArgs false
set_option linter.unusedSectionVars false

namespace V11

/-- Every column of the schema is lawful. -/
class LawfulSchema (S : Schema) where
  law : (j : Fin (S.n + 1)) → LawfulCol S.max (S.C j)

attribute [reducible, instance] LawfulSchema.law

/-! ## `seqFin` -/

theorem seqFin_ok {n : Nat} {σ : Fin n → Type} {f : (j : Fin n) → R (σ j)} {g : (j : Fin n) → σ j}
    (h : ∀ j, f j = .ok (g j)) : seqFin n f = .ok g := by
  induction n with
  | zero => simp only [seqFin]; congr 1; funext j; exact j.elim0
  | succ n ih =>
    simp only [seqFin, h 0, okBind]
    rw [ih (σ := fun j => σ j.succ) (fun j => h j.succ), okBind]
    congr 1
    exact Fin.cons_self_tail g

theorem seqFin_err {n : Nat} {σ : Fin n → Type} {f : (j : Fin n) → R (σ j)} {p : Panic}
    (h : ∀ j, f j = .error p ∨ ∃ a, f j = .ok a) (he : ∃ j, f j = .error p) : seqFin n f = .error p := by
  induction n with
  | zero => obtain ⟨j, _⟩ := he; exact j.elim0
  | succ n ih =>
    simp only [seqFin]
    rcases h 0 with h0 | ⟨a, h0⟩
    · rw [h0, errBind]
    · rw [h0, okBind, ih (σ := fun j => σ j.succ) (fun j => h j.succ), errBind]
      obtain ⟨j, hj⟩ := he
      refine Fin.cases ?_ ?_ j hj
      · intro hj; rw [h0] at hj; cases hj
      · intro i hi; exact ⟨i, hi⟩

theorem seqFin_inv {n : Nat} {σ : Fin n → Type} {f : (j : Fin n) → R (σ j)} {g : (j : Fin n) → σ j}
    (h : seqFin n f = .ok g) : ∀ j, f j = .ok (g j) := by
  induction n with
  | zero => intro j; exact j.elim0
  | succ n ih =>
    simp only [seqFin] at h
    cases h0 : f 0 with
    | error p => rw [h0, errBind] at h; cases h
    | ok a =>
      rw [h0, okBind] at h
      cases h1 : seqFin n (σ := fun j => σ j.succ) (fun j => f j.succ) with
      | error p => rw [h1, errBind] at h; cases h
      | ok r =>
        rw [h1, okBind] at h
        injection h with h
        subst h
        intro j
        refine Fin.cases ?_ ?_ j
        · simpa using h0
        · intro i; simpa using ih h1 i

/-! ## `Rep` -/

variable {S : Schema} [LS : LawfulSchema S]

/-- The columns of `t` hold the rows `L`, the rows in `d` being dead for the indexes. -/
structure Rep (t : Tbl S) (d : Nat → Prop) (L : List (Row S)) : Prop where
  inv : ∀ j, (LS.law j).Inv d (t.cols j)
  abs : ∀ j, (LS.law j).abs (t.cols j) = L.map (· j)
  le : L.length ≤ S.max + 1

theorem Rep.congr {t : Tbl S} {d d' : Nat → Prop} {L : List (Row S)} (h : Rep t d L)
    (hd : ∀ i, i < L.length → (d i ↔ d' i)) : Rep t d' L :=
  ⟨fun j => (LS.law j).inv_congr (by rw [h.abs]; simpa using hd) (h.inv j), h.abs, h.le⟩

theorem Rep.free_irrel {t : Tbl S} {d : Nat → Prop} {L : List (Row S)} (h : Rep t d L) (fr : List Nat) :
    Rep { t with free := fr } d L := ⟨h.inv, h.abs, h.le⟩

theorem Rep.len {t : Tbl S} {d : Nat → Prop} {L : List (Row S)} (h : Rep t d L) : t.len = L.length := by
  unfold Tbl.len
  rw [(LS.law 0).len_ok, h.abs]; simp

theorem Rep.colLen {t : Tbl S} {d : Nat → Prop} {L : List (Row S)} (h : Rep t d L) (j : Fin (S.n + 1)) :
    (S.C j).len (t.cols j) = L.length := by
  rw [(LS.law j).len_ok, h.abs]; simp

/-- The abstract rows are determined by the columns. -/
theorem Rep.unique {t : Tbl S} {d d' : Nat → Prop} {L L' : List (Row S)} (h : Rep t d L) (h' : Rep t d' L') :
    L = L' := by
  have hl : L.length = L'.length := by rw [← h.len, ← h'.len]
  apply List.ext_getElem hl
  intro i h1 h2
  funext j
  have := (h.abs j).symm.trans (h'.abs j)
  have := congrArg (fun l => l[i]?) this
  simpa [h1, h2] using this

theorem Rep.new (d : Nat → Prop) : Rep (Tbl.new : Tbl S) d [] :=
  ⟨fun j => ((LS.law j).new_ok d).1, fun j => ((LS.law j).new_ok d).2, by simp⟩

theorem Rep.rowAt {t : Tbl S} {d : Nat → Prop} {L : List (Row S)} (h : Rep t d L) {i : Nat} (hi : i < L.length) :
    t.rowAt i = .ok L[i] := by
  apply seqFin_ok
  intro j
  have hi' : i < ((LS.law j).abs (t.cols j)).length := by rw [h.abs]; simpa using hi
  rw [(LS.law j).index_ok i (h.inv j) hi']
  simp [h.abs]

theorem Rep.mapCols {t : Tbl S} {d' : Nat → Prop}
    {f : (j : Fin (S.n + 1)) → (S.C j).σ → R (S.C j).σ} {L' : List (Row S)} (hl : L'.length ≤ S.max + 1)
    (hf : ∀ j, ∃ s', f j (t.cols j) = .ok s' ∧ (LS.law j).Inv d' s' ∧ (LS.law j).abs s' = L'.map (· j)) :
    ∃ t', t.mapCols f = .ok t' ∧ Rep t' d' L' ∧ t'.free = t.free := by
  choose g h1 h2 h3 using hf
  refine ⟨{ t with cols := g }, ?_, ⟨h2, h3, hl⟩, rfl⟩
  unfold Tbl.mapCols
  rw [seqFin_ok h1, okBind]

theorem Rep.clearRaw {t : Tbl S} {d : Nat → Prop} {L : List (Row S)} (h : Rep t d L) (d' : Nat → Prop) :
    ∃ t', t.clearRaw = .ok t' ∧ Rep t' d' [] ∧ t'.free = t.free := by
  refine Rep.mapCols (by simp) ?_
  intro j
  obtain ⟨s', h1, h2, h3⟩ := (LS.law j).clear_ok (h.inv j) d'
  exact ⟨s', h1, h2, by simpa using h3⟩

theorem Rep.truncate {t : Tbl S} {d : Nat → Prop} {L : List (Row S)} (h : Rep t d L) (n : Nat) :
    ∃ t', t.truncate n = .ok t' ∧ Rep t' d (L.take n) ∧ t'.free = t.free := by
  refine Rep.mapCols (by have := h.le; simp; omega) ?_
  intro j
  obtain ⟨s', h1, h2, h3⟩ := (LS.law j).truncate_ok n (h.inv j)
  exact ⟨s', h1, h2, by rw [h3, h.abs, List.map_take]⟩

theorem Rep.deletedCols {t : Tbl S} {d : Nat → Prop} {L : List (Row S)} (h : Rep t d L) {i : Nat} (hi : i < L.length) :
    ∃ t', t.mapCols (fun j s => (S.C j).deleted s i) = .ok t' ∧ Rep t' (fun x => d x ∨ x = i) L ∧ t'.free = t.free := by
  refine Rep.mapCols h.le ?_
  intro j
  obtain ⟨s', h1, h2, h3⟩ := (LS.law j).deleted_ok i (h.inv j) (by rw [h.abs]; simpa using hi)
  exact ⟨s', h1, h2, by rw [h3, h.abs]⟩

theorem Rep.swapRaw {t : Tbl S} {d : Nat → Prop} {L : List (Row S)} (h : Rep t d L) {a b : Nat}
    (ha : a < L.length) (hb : b < L.length) (hda : ¬ d a) (hdb : ¬ d b) :
    ∃ t', t.swapRaw a b = .ok t' ∧ Rep t' d ((L.set a L[b]).set b L[a]) ∧ t'.free = t.free := by
  refine Rep.mapCols (by simpa using h.le) ?_
  intro j
  have ha' : a < ((LS.law j).abs (t.cols j)).length := by rw [h.abs]; simpa using ha
  have hb' : b < ((LS.law j).abs (t.cols j)).length := by rw [h.abs]; simpa using hb
  obtain ⟨s', h1, h2, h3⟩ := (LS.law j).swap_ok a b (h.inv j) ha' hb' hda hdb
  refine ⟨s', h1, h2, ?_⟩
  rw [h3]; simp [h.abs, List.map_set]

theorem Rep.swapOutRaw {t : Tbl S} {d : Nat → Prop} {L : List (Row S)} (h : Rep t d L) {i : Nat} (row : Row S)
    (hi : i < L.length) :
    ∃ t', t.swapOutRaw i row = .ok (t', L[i]) ∧ Rep t' (fun x => d x ∧ x ≠ i) (L.set i row) ∧ t'.free = t.free := by
  have hj : ∀ j, ∃ s' : (S.C j).σ × S.E j, (S.C j).swapOut (t.cols j) i (row j) = .ok s' ∧
      s'.2 = L[i] j ∧ (LS.law j).Inv (fun x => d x ∧ x ≠ i) s'.1 ∧
      (LS.law j).abs s'.1 = (L.set i row).map (· j) := by
    intro j
    have hi' : i < ((LS.law j).abs (t.cols j)).length := by rw [h.abs]; simpa using hi
    obtain ⟨s', h1, h2, h3⟩ := (LS.law j).swapOut_ok i (row j) (h.inv j) hi'
    exact ⟨(s', _), h1, by simp [h.abs], h2, by rw [h3, h.abs, List.map_set]⟩
  choose g h1 h2 h3 h4 using hj
  refine ⟨{ t with cols := fun j => (g j).1 }, ?_, ⟨h3, h4, by simpa using h.le⟩, rfl⟩
  unfold Tbl.swapOutRaw
  rw [seqFin_ok (σ := fun j => (S.C j).σ × S.E j) h1, okBind]
  congr 2
  funext j; exact h2 j

theorem Rep.pushOnly {t : Tbl S} {d : Nat → Prop} {L : List (Row S)} (h : Rep t d L) (row : Row S)
    (hd : ¬ d L.length) (hl : L.length ≤ S.max) :
    ∃ t', t.pushOnly row = .ok (t', L.length) ∧ Rep t' d (L ++ [row]) ∧ t'.free = t.free := by
  obtain ⟨t', h1, h2, h3⟩ := Rep.mapCols (t := t) (d' := d) (L' := L ++ [row])
    (f := fun j s => (S.C j).push s (row j)) (by simp; omega) (by
      intro j
      have hl' : ((LS.law j).abs (t.cols j)).length = L.length := by rw [h.abs]; simp
      obtain ⟨s', h1, h2, h3⟩ := (LS.law j).push_ok (row j) (h.inv j) (by rwa [hl']) (by rwa [hl'])
      exact ⟨s', h1, h2, by rw [h3, h.abs]; simp⟩)
  refine ⟨t', ?_, h2, h3⟩
  unfold Tbl.pushOnly
  rw [h1, okBind]
  unfold Tbl.last
  rw [h2.len, if_neg (by simp)]
  simp only [List.length_append, List.length_singleton, Nat.add_sub_cancel]
  rw [fromUsize_ok hl]
  rfl

theorem Rep.pushOnly_full {t : Tbl S} {d : Nat → Prop} {L : List (Row S)} (h : Rep t d L) (row : Row S)
    (hl : L.length = S.max + 1) : t.pushOnly row = .error .idxOverflow := by
  have hj : ∀ j, (S.C j).push (t.cols j) (row j) = .error .idxOverflow ∨
      ∃ s', (S.C j).push (t.cols j) (row j) = .ok s' ∧ (S.C j).len s' = L.length + 1 := by
    intro j
    have hl' : ((LS.law j).abs (t.cols j)).length = L.length := by rw [h.abs]; simp
    have := (LS.law j).push_full (row j) (h.inv j) (by omega)
    rwa [hl'] at this
  unfold Tbl.pushOnly Tbl.mapCols
  by_cases he : ∃ j, (S.C j).push (t.cols j) (row j) = .error .idxOverflow
  · rw [seqFin_err (fun j => (hj j).imp id (fun ⟨s', h, _⟩ => ⟨s', h⟩)) he]; rfl
  · have : ∀ j, ∃ s', (S.C j).push (t.cols j) (row j) = .ok s' ∧ (S.C j).len s' = L.length + 1 := by
      intro j
      rcases hj j with h | h
      · exact absurd ⟨j, h⟩ he
      · exact h
    choose g h1 h2 using this
    rw [seqFin_ok h1, okBind, okBind]
    unfold Tbl.last
    have : ({ t with cols := g } : Tbl S).len = L.length + 1 := h2 0
    rw [this, if_neg (by omega), fromUsize_err (by omega), errBind, errBind]

/-- In-place edit of one cell. -/
theorem Rep.setCell {t : Tbl S} {d : Nat → Prop} {L : List (Row S)} (h : Rep t d L) (j : Fin (S.n + 1)) {i : Nat}
    (v : S.E j) (hi : i < L.length) :
    t.setCell j i v = .error .indexedMut ∨
    ∃ t', t.setCell j i v = .ok t' ∧ Rep t' d (L.set i (Function.update L[i] j v)) ∧ t'.free = t.free := by
  have hi' : i < ((LS.law j).abs (t.cols j)).length := by rw [h.abs]; simpa using hi
  have hlen : ¬ (S.C j).len (t.cols j) ≤ i := by rw [h.colLen]; omega
  unfold Tbl.setCell
  rw [if_neg hlen]
  rcases (LS.law j).indexMut_ok i (h.inv j) hi' with h1 | ⟨put, h1, h2⟩
  · left; rw [h1]; rfl
  · right
    refine ⟨{ t with cols := Function.update t.cols j (put v) }, by rw [h1]; rfl, ⟨?_, ?_, by simpa using h.le⟩, rfl⟩
    · intro k
      by_cases hk : k = j
      · subst hk; simpa using (h2 v).1
      · simpa [Function.update_of_ne hk] using h.inv k
    · intro k
      by_cases hk : k = j
      · subst hk
        simp [(h2 v).2, h.abs, List.map_set]
      · simp [Function.update_of_ne hk, h.abs, List.map_set]
        rw [show (L[i] k) = (L.map (fun x => x k))[i]'(by simpa using hi) by simp, List.set_getElem_self]

theorem Rep.setCell_oob {t : Tbl S} {d : Nat → Prop} {L : List (Row S)} (h : Rep t d L) (j : Fin (S.n + 1)) {i : Nat}
    (v : S.E j) (hi : L.length ≤ i) : t.setCell j i v = .error .indexOob := by
  unfold Tbl.setCell
  rw [if_pos (by rw [h.colLen]; exact hi)]

end V11
