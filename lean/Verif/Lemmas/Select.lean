import Verif.Spec.Cascade
import Verif.Lemmas.Reach
import Verif.Lemmas.Iter
import Verif.Lemmas.Remove
import Verif.Lemmas.Holds

/-!
# Selecting dependent rows, and removing them from the dependent table
-/

set_option linter.unusedSimpArgs false
set_option linter.unusedSectionVars false
set_option linter.unusedVariables false

namespace V11
variable {T : Type} {S : T → Schema}

section
variable {S : Schema} [LS : LawfulSchema S]

theorem WF.view_iff {t : Tbl S} {L : List (Row S)} (h : WF t L) (i : Nat) (r : Row S) :
    t.view i = some r ↔ L[i]? = some r ∧ i ∉ t.free := by
  rw [h.view]; split <;> simp_all

theorem WF.view_iff' {t : Tbl S} {L : List (Row S)} (h : WF t L) (hk : S.kind ≠ .consistent) (i : Nat) :
    t.view i = L[i]? := by
  rw [h.view, h.kind hk]; simp

end

variable (fk : FK S) [LS : LawfulSchema (S fk.child)]

theorem selectIndexed_ok {t : Tbl (S fk.child)} {L : List (Row (S fk.child))} (h : WF t L) (hl : L.length ≤ (S fk.child).max)
    (hf : (((S fk.child).C fk.col).find).isSome = true) (ks : List Nat) :
    ∃ out, fk.selectIndexed t ks = .ok out ∧ (ks.Nodup → out.Nodup) ∧
      ∀ i, i ∈ out ↔ ∃ r, t.view i = some r ∧ fk.ref r ∈ ks := by
  obtain ⟨find, hfind⟩ := Option.isSome_iff_exists.1 hf
  unfold FK.selectIndexed
  rw [hfind]
  simp only []
  have key : ∀ (ks acc : List Nat),
      ∃ out, ks.foldlM (fun out k => do
          let found ← find (t.cols fk.col) (fk.key.symm k)
          (.ok (out ++ found) : R (List Nat))) acc = .ok out ∧ (ks.Nodup → acc.Nodup →
          (∀ i ∈ acc, ∃ r, t.view i = some r ∧ fk.ref r ∉ ks) → out.Nodup) ∧
        ∀ i, i ∈ out ↔ i ∈ acc ∨ ∃ r, t.view i = some r ∧ fk.ref r ∈ ks := by
    intro ks
    induction ks with
    | nil => intro acc; exact ⟨acc, rfl, fun _ ha _ => ha, by simp⟩
    | cons k ks ih =>
      intro acc
      obtain ⟨l, e1, e2, e3⟩ := (LS.law fk.col).find_ok hfind (fk.key.symm k) (h.rep.inv fk.col)
      have e3' : ∀ i, i ∈ l ↔ ∃ r, t.view i = some r ∧ fk.ref r = k := by
        intro i
        rw [e3, h.rep.abs]
        constructor
        · rintro ⟨a, b, c⟩
          rw [List.getElem?_map, Option.map_eq_some_iff] at b
          obtain ⟨r, hr, hre⟩ := b
          exact ⟨r, (h.view_iff i r).2 ⟨hr, c⟩, by unfold FK.ref; rw [hre]; simp⟩
        · rintro ⟨r, hr, hre⟩
          obtain ⟨hr1, hr2⟩ := (h.view_iff i r).1 hr
          have hlt : i < L.length := (List.getElem?_eq_some_iff.1 hr1).1
          refine ⟨by omega, ?_, hr2⟩
          rw [List.getElem?_map, hr1]
          simp only [Option.map_some, Option.some.injEq]
          unfold FK.ref at hre
          rw [← hre]; simp
      rw [List.foldlM_cons, e1, okBind, okBind]
      obtain ⟨out, o1, o2, o3⟩ := ih (acc ++ l)
      refine ⟨out, o1, ?_, ?_⟩
      · intro hn ha hacc
        have hk := List.nodup_cons.1 hn
        refine o2 hk.2 ?_ ?_
        · rw [List.nodup_append]
          refine ⟨ha, e2.imp (fun h => ne_of_lt h), ?_⟩
          intro a ha' b hb hab
          subst hab
          obtain ⟨r, hr, hnr⟩ := hacc a ha'
          obtain ⟨r', hr', hre⟩ := (e3' a).1 hb
          rw [hr] at hr'; cases hr'
          exact hnr (by simp [hre])
        · intro i hi
          rcases List.mem_append.1 hi with hi | hi
          · obtain ⟨r, hr, hnr⟩ := hacc i hi
            exact ⟨r, hr, fun hm => hnr (by simp [hm])⟩
          · obtain ⟨r, hr, hre⟩ := (e3' i).1 hi
            exact ⟨r, hr, by rw [hre]; exact hk.1⟩
      intro i
      rw [o3, List.mem_append, e3']
      constructor
      · rintro ((ha | ⟨r, hr, he⟩) | ⟨r, hr, hm⟩)
        · exact Or.inl ha
        · exact Or.inr ⟨r, hr, by simp [he]⟩
        · exact Or.inr ⟨r, hr, by simp [hm]⟩
      · rintro (ha | ⟨r, hr, hm⟩)
        · exact Or.inl (Or.inl ha)
        · rcases List.mem_cons.1 hm with he | hm
          · exact Or.inl (Or.inr ⟨r, hr, he⟩)
          · exact Or.inr ⟨r, hr, hm⟩
  obtain ⟨out, o1, o2, o3⟩ := key ks []
  exact ⟨out, o1, fun hn => o2 hn List.nodup_nil (by simp), by intro i; rw [o3]; simp⟩

theorem joinLoop_ok {t : Tbl (S fk.child)} {L : List (Row (S fk.child))} (h : WF t L)
    (ids ks : List Nat) (hk : ks.Pairwise (· ≤ ·)) (hid : ids.Pairwise (· < ·))
    (hlt : ∀ i ∈ ids, i < L.length) (hs : SortedBy fk.ref L) :
    ∃ out, fk.joinLoop t ids ks = .ok out ∧ out.Pairwise (· < ·) ∧
      ∀ i, i ∈ out ↔ i ∈ ids ∧ ∃ r, L[i]? = some r ∧ fk.ref r ∈ ks := by
  induction ids generalizing ks with
  | nil => exact ⟨[], rfl, List.Pairwise.nil, by simp⟩
  | cons i is ih =>
    have hi : i < L.length := hlt i (by simp)
    have hid' := List.pairwise_cons.1 hid
    have hcell : t.cellChecked fk.col i = .ok (L[i] fk.col) := by
      unfold Tbl.cellChecked
      have hi' : i < ((LS.law fk.col).abs (t.cols fk.col)).length := by rw [h.rep.abs]; simpa using hi
      rw [(LS.law fk.col).index_ok i (h.rep.inv fk.col) hi']
      simp [h.rep.abs]
    unfold FK.joinLoop
    rw [hcell, okBind, joinStep_spec (fk.key (L[i] fk.col)) hk]
    have href : fk.key (L[i] fk.col) = fk.ref L[i] := rfl
    rw [href]
    have hmono : ∀ j ∈ is, ∀ (hj : j < L.length), fk.ref L[i] ≤ fk.ref L[j] := by
      intro j hj hjl
      have := hid'.1 j hj
      exact (List.pairwise_iff_getElem.1 hs) i j hi hjl this
    have hrest := ih (ks.dropWhile (· < fk.ref L[i])) (hk.sublist (List.dropWhile_sublist _)) hid'.2
      (fun j hj => hlt j (by simp [hj]))
    obtain ⟨out, o1, o2, o3⟩ := hrest
    have hdrop : ∀ j ∈ is, (∃ r, L[j]? = some r ∧ fk.ref r ∈ ks.dropWhile (· < fk.ref L[i])) ↔
        (∃ r, L[j]? = some r ∧ fk.ref r ∈ ks) := by
      intro j hj
      constructor
      · rintro ⟨r, hr, hm⟩; exact ⟨r, hr, (List.dropWhile_sublist _).mem hm⟩
      · rintro ⟨r, hr, hm⟩
        refine ⟨r, hr, ?_⟩
        have hjl := hlt j (by simp [hj])
        have : r = L[j] := by rw [List.getElem?_eq_getElem hjl] at hr; cases hr; rfl
        subst this
        have hge := hmono j hj hjl
        have hsplit := List.takeWhile_append_dropWhile (p := fun x => decide (x < fk.ref L[i])) (l := ks)
        rw [← hsplit] at hm
        rcases List.mem_append.1 hm with hm | hm
        · have := List.all_eq_true.1 (List.all_takeWhile (p := fun x => decide (x < fk.ref L[i])) (l := ks)) _ hm
          simp at this; omega
        · exact hm
    by_cases hm : fk.ref L[i] ∈ ks
    · rw [if_pos hm]
      simp only []
      rw [o1, okBind]
      refine ⟨i :: out, rfl, ?_, ?_⟩
      · refine List.pairwise_cons.2 ⟨?_, o2⟩
        intro j hj
        exact hid'.1 j ((o3 j).1 hj).1
      · intro j
        rw [List.mem_cons, o3, List.mem_cons]
        constructor
        · rintro (rfl | ⟨hj, hr⟩)
          · exact ⟨Or.inl rfl, _, List.getElem?_eq_getElem hi, hm⟩
          · exact ⟨Or.inr hj, (hdrop j hj).1 hr⟩
        · rintro ⟨rfl | hj, hr⟩
          · exact Or.inl rfl
          · exact Or.inr ⟨hj, (hdrop j hj).2 hr⟩
    · rw [if_neg hm]
      have hnoi : ¬ ∃ r, L[i]? = some r ∧ fk.ref r ∈ ks := by
        rintro ⟨r, hr, hr2⟩
        rw [List.getElem?_eq_getElem hi] at hr; cases hr; exact hm hr2
      by_cases hall : ∀ r ∈ ks, r < fk.ref L[i]
      · rw [if_pos hall]
        simp only []
        refine ⟨[], rfl, List.Pairwise.nil, ?_⟩
        intro j
        constructor
        · simp
        · rintro ⟨hj, r, hr, hrk⟩
          exfalso
          rcases List.mem_cons.1 hj with rfl | hj
          · exact hnoi ⟨r, hr, hrk⟩
          · have hjl := hlt j (by simp [hj])
            rw [List.getElem?_eq_getElem hjl] at hr; cases hr
            have := hall _ hrk
            have := hmono j hj hjl
            omega
      · rw [if_neg hall]
        simp only []
        refine ⟨out, o1, o2, ?_⟩
        intro j
        rw [o3, List.mem_cons]
        constructor
        · rintro ⟨hj, hr⟩; exact ⟨Or.inr hj, (hdrop j hj).1 hr⟩
        · rintro ⟨rfl | hj, hr⟩
          · exact absurd hr hnoi
          · exact ⟨hj, (hdrop j hj).2 hr⟩

theorem selectSorted_ok {t : Tbl (S fk.child)} {L : List (Row (S fk.child))} (h : WF t L) (hl : L.length ≤ (S fk.child).max)
    (hkd : (S fk.child).kind = .sorted) (ks : List Nat) (hk : ks.Pairwise (· ≤ ·)) (hs : SortedBy fk.ref L) :
    ∃ out, fk.selectSorted t ks = .ok out ∧ out.Pairwise (· < ·) ∧
      ∀ i, i ∈ out ↔ ∃ r, t.view i = some r ∧ fk.ref r ∈ ks := by
  have hne : (S fk.child).kind ≠ .consistent := by rw [hkd]; simp
  unfold FK.selectSorted
  rw [iterIds_ok h.aligned hl, okBind, h.kind hne]
  have hids : liveIds 0 L.length [] = List.range' 0 L.length := by
    unfold liveIds; simp [List.filter_eq_self.2]
  rw [hids]
  obtain ⟨out, o1, o2, o3⟩ := joinLoop_ok fk h (List.range' 0 L.length) ks hk
    (by simpa using List.pairwise_lt_range' (s := 0) (n := L.length) 1 ) (by simp [List.mem_range'_1]) hs
  refine ⟨out, o1, o2, ?_⟩
  intro i
  rw [o3, List.mem_range'_1, h.view_iff' hne]
  constructor
  · exact fun h => h.2
  · rintro ⟨r, hr, hk⟩
    exact ⟨⟨by omega, by simpa using (List.getElem?_eq_some_iff.1 hr).1⟩, r, hr, hk⟩

/-- Selecting the rows that depend on `ks`: each such live row once. -/
theorem fkSelect_ok {t : Tbl (S fk.child)} {L : List (Row (S fk.child))} (h : WF t L) (hl : L.length ≤ (S fk.child).max)
    (hs : fk.bySort = true → (S fk.child).kind = .sorted ∧ SortedBy fk.ref L)
    (hf : fk.bySort = false → (((S fk.child).C fk.col).find).isSome = true)
    (ks : List Nat) (hk : (S fk.child).kind = .sorted → ks.Pairwise (· ≤ ·)) :
    ∃ out, fk.select t (.these ks) = .ok (.these out) ∧ (ks.Nodup → out.Nodup) ∧ (fk.bySort = true → out.Nodup) ∧
      ∀ i, i ∈ out ↔ ∃ r, t.view i = some r ∧ fk.ref r ∈ ks := by
  unfold FK.select
  cases hb : fk.bySort with
  | true =>
    obtain ⟨h1, h2⟩ := hs hb
    obtain ⟨out, o1, o2, o3⟩ := selectSorted_ok fk h hl h1 ks (hk h1) h2
    have := o2.imp (fun h => ne_of_lt h)
    refine ⟨out, ?_, fun _ => this, fun _ => this, o3⟩
    simp [o1, okBind]
  | false =>
    obtain ⟨out, o1, o2, o3⟩ := selectIndexed_ok fk h hl (hf hb) ks
    refine ⟨out, ?_, o2, by simp, o3⟩
    simp [o1, okBind]

/-- Removing from a sorted table the ids of the rows with a property filters it. -/
theorem removeAt_filter {A : Type} (p : A → Bool) (L : List A) (ids : List Nat)
    (h : ∀ i, i ∈ ids ↔ ∃ r, L[i]? = some r ∧ p r = false) : removeAt L ids = L.filter p := by
  have key : ∀ (L : List A) (off : Nat) , (∀ i r, L[i]? = some r → ((i + off) ∈ ids ↔ p r = false)) →
      ((L.zipIdx off).filter (fun q => q.2 ∉ ids)).map Prod.fst = L.filter p := by
    intro L
    induction L with
    | nil => intro off _; rfl
    | cons x xs ih =>
      intro off hL
      rw [List.zipIdx_cons]
      have h0 := hL 0 x (by simp)
      have ht := ih (off + 1) (fun i r hr => by
        have := hL (i + 1) r (by simpa using hr)
        rw [← this]; constructor <;> intro h <;> (convert h using 1; omega))
      simp only [Nat.zero_add] at h0
      cases hp : p x with
      | true =>
        have : off ∉ ids := by rw [h0, hp]; simp
        rw [List.filter_cons_of_pos (by simpa using this), List.map_cons, ht, List.filter_cons_of_pos hp]
      | false =>
        have : off ∈ ids := by rw [h0]; exact hp
        rw [List.filter_cons_of_neg (by simpa using this), ht, List.filter_cons_of_neg (by simp [hp])]
  unfold removeAt
  refine key L 0 ?_
  intro i r hr
  rw [Nat.add_zero, h]
  constructor
  · rintro ⟨r', hr', hp⟩; rw [hr] at hr'; cases hr'; exact hp
  · intro hp; exact ⟨r, hr, hp⟩

end V11
