import Verif.Spec.Storage
import Verif.Props.Index
import Mathlib.Data.List.Sort

/-!
# C78: the storages behind the columns are vectors
-/

set_option linter.unusedSimpArgs false
set_option linter.unusedSectionVars false
set_option linter.unusedVariables false

namespace V11

theorem unindexed_mut (max : Nat) (c : ColSpec) (hc : c.indexed = false) (s) (i : Nat) :
    (c.col max).indexMut s i ≠ .error .indexedMut := by
  cases c with
  | vec E =>
    show (uncheckedGet s i >>= _) ≠ _
    unfold uncheckedGet
    split <;> simp
  | bool =>
    show (BoolState.flush s >>= _) ≠ _
    unfold BoolState.flush checkedSet checkedGet
    cases s.refIdx with
    | none =>
      simp only [okBind]
      cases s.data[i]? <;> simp
    | some k =>
      simp only []
      split
      · simp only [okBind]
        cases s.data[i]? <;> simp
      · split
        · simp only [okBind]
          split <;> simp
        · simp
  | index E o => cases hc
  | indexBool => cases hc

theorem indexed_find (max : Nat) (c : ColSpec) (hc : c.indexed = true) : ∃ f, (c.col max).find = some f := by
  cases c with
  | vec E => cases hc
  | bool => cases hc
  | index E o => exact ⟨_, rfl⟩
  | indexBool => exact ⟨_, rfl⟩

theorem ascending_eq {a b : List Nat} (ha : a.Pairwise (· < ·)) (hb : b.Pairwise (· < ·)) (h : ∀ i, i ∈ a ↔ i ∈ b) : a = b := by
  have hp : a.Perm b := (List.perm_ext_iff_of_nodup (ha.imp fun h => ne_of_lt h) (hb.imp fun h => ne_of_lt h)).2 h
  exact hp.eq_of_pairwise (fun _ _ _ _ h1 h2 => absurd h1 (Nat.lt_asymm h2)) ha hb

/-- What ties a storage to the specification's state. -/
structure Stores {E : Type} {max : Nat} (C : TCol E) (L : LawfulCol max C) (s : C.σ) (v : List E × List Nat) : Prop where
  inv : L.Inv (fun i => i ∈ v.2) s
  abs : L.abs s = v.1
  dead : ∀ i ∈ v.2, i < v.1.length

theorem storeCall_ok (max : Nat) (c : ColSpec) (s : (c.col max).σ) (v : List c.Elem × List Nat)
    (h : Stores (c.col max) (c.lawful max) s v) (op : StoreOp c.Elem) (v' : List c.Elem × List Nat) (o : StoreOut c.Elem)
    (hs : vecSpec max c.indexed v op = some (v', o)) :
    ∃ s', storeCall (c.col max) s op = .ok (s', o) ∧ Stores (c.col max) (c.lawful max) s' v' := by
  obtain ⟨l, dead⟩ := v
  obtain ⟨hinv, habs, hdead⟩ := h
  simp only at hinv habs hdead
  let L := c.lawful max
  have get : ∀ i (hi : i < l.length), (c.col max).index s i = .ok l[i] := by
    intro i hi
    have := L.index_ok (s := s) i hinv (by show i < (L.abs s).length; rw [habs]; exact hi)
    rw [this]
    congr 1
    exact List.getElem_of_eq habs _
  have hlen : (L.abs s).length = l.length := by rw [habs]
  cases op with
  | push e =>
    simp only [vecSpec] at hs
    split at hs
    · rename_i hm
      injection hs with hs; injection hs with h1 h2; subst h1; subst h2
      obtain ⟨s', e1, e2, e3⟩ := L.push_ok (s := s) e hinv (by rw [hlen]; intro hd; exact absurd (hdead _ hd) (by omega))
        (by rw [hlen]; exact hm)
      refine ⟨s', by simp only [storeCall]; rw [e1, okBind], e2, by rw [e3, habs], ?_⟩
      intro i hi
      have := hdead i hi
      simp; omega
    · cases hs
  | get i =>
    simp only [vecSpec] at hs
    cases hi : l[i]? with
    | none => rw [hi] at hs; cases hs
    | some x =>
      rw [hi] at hs
      simp only [Option.map_some] at hs
      injection hs with hs; injection hs with h1 h2; subst h1; subst h2
      obtain ⟨hlt, hx⟩ := List.getElem?_eq_some_iff.1 hi
      refine ⟨s, ?_, hinv, habs, hdead⟩
      simp only [storeCall]
      rw [get i hlt, okBind, hx]
  | len =>
    simp only [vecSpec] at hs
    injection hs with hs; injection hs with h1 h2; subst h1; subst h2
    refine ⟨s, ?_, hinv, habs, hdead⟩
    simp only [storeCall]
    rw [L.len_ok, hlen]
  | set i e =>
    simp only [vecSpec] at hs
    split at hs
    · rename_i hc
      injection hs with hs; injection hs with h1 h2; subst h1; subst h2
      rcases L.indexMut_ok (s := s) i hinv (by rw [hlen]; exact hc.1) with e1 | ⟨put, e1, e2⟩
      · exact absurd e1 (unindexed_mut max c hc.2 s i)
      · refine ⟨put e, ?_, (e2 e).1, by rw [(e2 e).2, habs], by simpa using hdead⟩
        simp only [storeCall]
        rw [e1, okBind]
    · cases hs
  | swap i k =>
    simp only [vecSpec] at hs
    cases hi : l[i]? with
    | none => rw [hi] at hs; simp at hs
    | some a =>
      cases hk : l[k]? with
      | none => rw [hi, hk] at hs; simp at hs
      | some b =>
        rw [hi, hk] at hs
        simp only [] at hs
        split at hs
        · cases hs
        · rename_i hd
          injection hs with hs; injection hs with h1 h2; subst h1; subst h2
          obtain ⟨hil, hix⟩ := List.getElem?_eq_some_iff.1 hi
          obtain ⟨hkl, hkx⟩ := List.getElem?_eq_some_iff.1 hk
          obtain ⟨s', e1, e2, e3⟩ := L.swap_ok (s := s) i k hinv (by rw [hlen]; exact hil) (by rw [hlen]; exact hkl)
            (fun h => hd (Or.inl h)) (fun h => hd (Or.inr h))
          refine ⟨s', by simp only [storeCall]; rw [e1, okBind], e2, ?_, by simpa using hdead⟩
          rw [e3]
          simp only [habs, hix, hkx]
  | swapOut i e =>
    simp only [vecSpec] at hs
    cases hi : l[i]? with
    | none => rw [hi] at hs; cases hs
    | some x =>
      rw [hi] at hs
      simp only [Option.map_some] at hs
      injection hs with hs; injection hs with h1 h2; subst h1; subst h2
      obtain ⟨hlt, hx⟩ := List.getElem?_eq_some_iff.1 hi
      obtain ⟨s', e1, e2, e3⟩ := L.swapOut_ok (s := s) i e hinv (by rw [hlen]; exact hlt)
      refine ⟨s', ?_, ?_, by rw [e3, habs], ?_⟩
      · simp only [storeCall]
        rw [e1, okBind]
        simp only [habs, hx]
      · refine L.inv_congr (fun j _ => ?_) e2
        simp
      · intro j hj
        simp only [List.mem_filter] at hj
        simpa using hdead j hj.1
  | truncate n =>
    simp only [vecSpec] at hs
    injection hs with hs; injection hs with h1 h2; subst h1; subst h2
    obtain ⟨s', e1, e2, e3⟩ := L.truncate_ok (s := s) n hinv
    refine ⟨s', by simp only [storeCall]; rw [e1, okBind], ?_, by rw [e3, habs], ?_⟩
    · refine L.inv_congr (fun j hj => ?_) e2
      rw [e3, habs] at hj
      simp only [List.length_take] at hj
      simp only [List.mem_filter, decide_eq_true_eq]
      exact ⟨fun h => ⟨h, by omega⟩, fun h => h.1⟩
    · intro j hj
      simp only [List.mem_filter, decide_eq_true_eq] at hj
      have := hdead j hj.1
      simp only [List.length_take]; omega
  | clear =>
    simp only [vecSpec] at hs
    injection hs with hs; injection hs with h1 h2; subst h1; subst h2
    obtain ⟨s', e1, e2, e3⟩ := L.clear_ok (s := s) hinv (fun i => i ∈ ([] : List Nat))
    exact ⟨s', by simp only [storeCall]; rw [e1, okBind], e2, e3, by simp⟩
  | deleted i =>
    simp only [vecSpec] at hs
    split at hs
    · rename_i hi
      injection hs with hs; injection hs with h1 h2; subst h1; subst h2
      obtain ⟨s', e1, e2, e3⟩ := L.deleted_ok (s := s) i hinv (by rw [hlen]; exact hi)
      refine ⟨s', by simp only [storeCall]; rw [e1, okBind], ?_, by rw [e3, habs], ?_⟩
      · refine L.inv_congr (fun j _ => ?_) e2
        simp only [List.mem_cons]
        tauto
      · intro j hj
        rcases List.mem_cons.1 hj with rfl | hj
        · exact hi
        · exact hdead j hj
    · cases hs
  | toList =>
    simp only [vecSpec] at hs
    injection hs with hs; injection hs with h1 h2; subst h1; subst h2
    refine ⟨s, ?_, hinv, habs, hdead⟩
    simp only [storeCall]
    rw [L.toList_ok hinv, habs]
  | find e =>
    simp only [vecSpec] at hs
    split at hs
    · rename_i hc
      injection hs with hs; injection hs with h1 h2; subst h1; subst h2
      obtain ⟨f, hf⟩ := indexed_find max c hc
      obtain ⟨ids, e1, e2, e3⟩ := L.find_ok hf (s := s) e hinv
      refine ⟨s, ?_, hinv, habs, hdead⟩
      simp only [storeCall, hf]
      rw [e1, okBind]
      have : ∀ dec : (i : Nat) → Decidable (i < max ∧ l[i]? = some e ∧ i ∉ dead),
          ids = (List.range l.length).filter (fun i => @decide (i < max ∧ l[i]? = some e ∧ i ∉ dead) (dec i)) := by
        intro dec
        refine ascending_eq e2 (List.Pairwise.filter _ List.pairwise_lt_range) (fun i => ?_)
        rw [e3, habs]
        simp only [List.mem_filter, List.mem_range, decide_eq_true_eq]
        constructor
        · rintro ⟨a, b, d⟩
          exact ⟨(List.getElem?_eq_some_iff.1 b).1, a, b, d⟩
        · rintro ⟨-, h⟩
          exact h
      exact congrArg (fun x => Except.ok (s, StoreOut.ids x)) (this _)
    · cases hs

/-- C78: every storage that `table!` gives a column — `VecCol` (or `SegCol`), `BoolCol`, and the index over either —
shows its caller, in any sequence of calls that the specification allows, exactly what a vector would; and the search of
an index gives exactly the live positions that hold the value, in order. -/
theorem C78_storages_are_vectors (max : Nat) (c : ColSpec) (ops : List (StoreOp c.Elem)) (outs : List (StoreOut c.Elem))
    (h : vecRun max c.indexed ([], []) ops = some outs) : storeRun (c.col max) (c.col max).new ops = .ok outs := by
  suffices hg : ∀ (ops : List (StoreOp c.Elem)) (outs) (s) (v), Stores (c.col max) (c.lawful max) s v →
      vecRun max c.indexed v ops = some outs → storeRun (c.col max) s ops = .ok outs by
    refine hg ops outs _ _ ⟨((c.lawful max).new_ok _).1, ((c.lawful max).new_ok (fun _ => False)).2, by simp⟩ h
  intro ops
  induction ops with
  | nil =>
    intro outs s v _ h
    simp only [vecRun] at h
    injection h with h
    subst h
    rfl
  | cons op ops ih =>
    intro outs s v hv h
    simp only [vecRun, Option.bind_eq_bind] at h
    cases e : vecSpec max c.indexed v op with
    | none => rw [e] at h; cases h
    | some p =>
      obtain ⟨v', o⟩ := p
      rw [e] at h
      simp only [Option.bind_some] at h
      cases e' : vecRun max c.indexed v' ops with
      | none => rw [e'] at h; cases h
      | some os =>
        rw [e'] at h
        simp only [Option.bind_some] at h
        injection h with h
        subst h
        obtain ⟨s', h1, h2⟩ := storeCall_ok max c s v hv op v' o e
        simp only [storeRun]
        rw [h1, okBind]
        simp only []
        rw [ih os s' v' h2 e', okBind]

/-- C78: and so the theorems about tables, which ask of columns only that they are lawful, are about every table that
`table!` can make of these storages, of whatever kind, row-id type and number of columns. -/
theorem C78_every_table {n : Nat} (cs : Fin (n + 1) → ColSpec) (max : Nat) (kind : Kind) :
    Nonempty (LawfulSchema (mkSchema cs max kind)) := ⟨mkSchemaLawful cs max kind⟩

/-- The specification allows such sequences: an indexed column of numbers with a deletion, a reuse, a swap and searches. -/
example : vecRun 255 true (([], []) : List Nat × List Nat)
    [.push 5, .push 7, .push 5, .deleted 0, .swap 1 2, .swapOut 0 9, .toList, .len] =
    some [.unit, .unit, .unit, .unit, .unit, .elem 5, .list [9, 5, 7], .num 3] := by
  simp [vecRun, vecSpec]

example : storeRun ((ColSpec.index Nat inferInstance).col 255) ((ColSpec.index Nat inferInstance).col 255).new
    [.push 5, .push 7, .push 5, .find 5, .deleted 0, .find 5, .swap 1 2, .swapOut 0 5, .find 5] =
    .ok [.unit, .unit, .unit, .ids [0, 2], .unit, .ids [2], .unit, .elem 5, .ids [0, 1]] := by rfl

end V11
