import Verif.Lemmas.Leftovers
import Verif.Lemmas.TornOps

/-!
# A push beyond the largest row id
-/

set_option linter.unusedSimpArgs false
set_option linter.unusedSectionVars false
set_option linter.unusedVariables false

namespace V11

/-- What a column is after such a push. -/
structure Over {E : Type} (max : Nat) (C : TCol E) [L : LawfulCol max C] (s s' : C.σ) : Prop where
  index : ∀ i, i < (L.abs s).length → C.index s' i = C.index s i
  find : ∀ f, C.find = some f → f s' = f s
  range : ∀ f, C.range = some f → f s' = f s
  clear : ∀ d, ∃ s'', C.clear s' = .ok s'' ∧ L.Inv d s'' ∧ L.abs s'' = []

theorem Over.refl {E : Type} {max : Nat} {C : TCol E} [L : LawfulCol max C] {d : Nat → Prop} {s : C.σ} (h : L.Inv d s) :
    Over max C s s := ⟨fun _ _ => rfl, fun _ _ => rfl, fun _ _ => rfl, fun d' => L.clear_ok h d'⟩

/-- Every column obeys this. -/
class OverLaws {E : Type} (max : Nat) (C : TCol E) [L : LawfulCol max C] [Leaves C] : Prop where
  over : ∀ {d s} e, L.Inv d s → max < (L.abs s).length →
    Over max C s (colStep (C.push s e) (Leaves.push s e)).1 ∧
      C.len (colStep (C.push s e) (Leaves.push s e)).1 = (L.abs s).length + 1

/-- A column whose `push` cannot fail. -/
def PlainPush {E : Type} (max : Nat) (C : TCol E) [L : LawfulCol max C] : Prop :=
  ∀ d s e, L.Inv d s → ∃ s', C.push s e = .ok s' ∧ L.Inv d s' ∧ L.abs s' = L.abs s ++ [e]

theorem PlainPush.over {E : Type} {max : Nat} {C : TCol E} [L : LawfulCol max C] [Leaves C] (h : PlainPush max C) (hn : C.find = none)
    (hr : C.range = none) : OverLaws max C where
  over {d s} e hi _ := by
    obtain ⟨s', e1, e2, e3⟩ := h d s e hi
    rw [show colStep (C.push s e) (Leaves.push s e) = (s', .ok ()) by rw [e1]; rfl]
    refine ⟨⟨?_, ?_, ?_, fun d' => L.clear_ok e2 d'⟩, ?_⟩
    · intro i hlt
      have h2 : i < (L.abs s').length := by rw [e3]; simp; omega
      rw [L.index_ok i e2 h2, L.index_ok i hi hlt]
      congr 1
      have := congrArg (fun l => l[i]?) e3
      simp only [List.getElem?_append_left hlt, List.getElem?_eq_getElem h2, List.getElem?_eq_getElem hlt] at this
      injection this
    · intro f hf; rw [hn] at hf; cases hf
    · intro f hf; rw [hr] at hf; cases hf
    · rw [L.len_ok, e3]; simp

theorem vec_plainPush (E : Type) (max : Nat) : PlainPush max (vecCol E) := fun d s e _ => ⟨List.append s [e], rfl, trivial, rfl⟩

theorem bool_plainPush (max : Nat) : PlainPush max boolCol := by
  intro d s e h
  obtain ⟨v, ri, data⟩ := s
  refine ⟨_, rfl, ?_, ?_⟩
  · intro j hj
    have := h j hj
    simp at this ⊢; omega
  · cases ri with
    | none => rfl
    | some j =>
      have : j < data.length := h j rfl
      show (data ++ [e]).set j v = data.set j v ++ [e]
      simp [List.set_append, this]

instance vecOver (E : Type) (max : Nat) : OverLaws max (vecCol E) := (vec_plainPush E max).over rfl rfl
instance boolOver (max : Nat) : OverLaws max boolCol := (bool_plainPush max).over rfl rfl

theorem indexOver {E : Type} [LinearOrder E] {max : Nat} {C : TCol E} [L : LawfulCol max C] [Leaves C] (h : PlainPush max C) :
    OverLaws max (btreeIndex max C) where
  over {d s} e hi hm := by
    obtain ⟨inner, e1, e2, e3⟩ := h d s.inner e hi.1
    have hl : C.len s.inner = (L.abs s.inner).length := L.len_ok _
    have hm' : max < (L.abs s.inner).length := hm
    have hp : (btreeIndex max C).push s e = .error .idxOverflow := by
      show (C.push s.inner e >>= fun inner => fromUsize max (C.len s.inner) >>= fun ni => _) = _
      rw [e1, okBind, fromUsize_err (by omega), errBind]
    have hlv : Leaves.push (C := btreeIndex max C) s e = { s with inner := inner } := by
      show (match C.push s.inner e with | .ok inner => ({ s with inner := inner } : IndexState E C) | .error _ => _) = _
      rw [e1]
    rw [show colStep ((btreeIndex max C).push s e) (Leaves.push s e) = ({ s with inner := inner }, .error .idxOverflow) by rw [hp, hlv]; rfl]
    refine ⟨⟨?_, ?_, ?_, ?_⟩, ?_⟩
    · intro i hlt
      have hlt' : i < (L.abs s.inner).length := hlt
      show C.index inner i = C.index s.inner i
      have h2 : i < (L.abs inner).length := by rw [e3]; simp; omega
      rw [L.index_ok i e2 h2, L.index_ok i hi.1 hlt']
      congr 1
      have := congrArg (fun l => l[i]?) e3
      simp only [List.getElem?_append_left hlt', List.getElem?_eq_getElem h2, List.getElem?_eq_getElem hlt'] at this
      injection this
    · intro f hf
      have : f = btreeFind max C := by injection hf with hf; exact hf.symm
      subst this; rfl
    · intro f hf
      have : f = btreeRange max C := by injection hf with hf; exact hf.symm
      subst this; rfl
    · intro d'
      obtain ⟨s'', c1, c2, c3⟩ := L.clear_ok e2 d'
      refine ⟨{ inner := s'', index := [] }, ?_, ⟨c2, BSet.ok_nil, by rw [c3]; simp, by intro e i; rw [c3]; simp⟩, c3⟩
      show (C.clear inner >>= fun inner => _) = _
      rw [c1, okBind]
    · show C.len inner = _
      rw [L.len_ok, e3]
      simp
      rfl

/-- `OverLaws` for each column. -/
class OverSchema (S : Schema) [LS : LawfulSchema S] [LeavesSchema S] : Prop where
  law : ∀ j : Fin (S.n + 1), OverLaws S.max (S.C j)

theorem ColSpec.over (max : Nat) (c : ColSpec) : @OverLaws c.Elem max (c.col max) (c.lawful max) (c.leaves max) := by
  cases c with
  | vec E => exact vecOver E max
  | bool => exact boolOver max
  | index E o => exact indexOver (vec_plainPush E max)
  | indexBool => exact indexOver (bool_plainPush max)

instance mkSchemaOver {n : Nat} (cs : Fin (n + 1) → ColSpec) (max : Nat) (kind : Kind) :
    OverSchema (mkSchema cs max kind) where
  law j := (cs j).over max

variable {S : Schema} [LS : LawfulSchema S] [LV : LeavesSchema S]

/-- The columns after the push on a full table. -/
theorem cr_push_full [LO : OverSchema S] {t : Tbl S} {L : List (Row S)} (h : WF t L) (hf : t.free = []) (row : Row S) (hl : L.length = S.max + 1) :
    ∃ t', Cr.push row t = (t', .error .idxOverflow) ∧ t'.free = [] ∧ t'.len = L.length + 1 ∧
      ∀ j, Over S.max (S.C j) (t.cols j) (t'.cols j) := by
  have habs : ∀ j, ((LS.law j).abs (t.cols j)).length = L.length := fun j => by rw [h.rep.abs]; simp
  have hover := fun j => (LO.law j).over (row j) (h.rep.inv j) (by rw [habs]; omega)
  have he : (Cr.pushOnly row t).2 = .error .idxOverflow := out_err.1 (by rw [out_pushOnly]; exact h.rep.pushOnly_full row hl)
  have hp : Cr.push row t = Cr.pushOnly row t := by
    unfold Cr.push
    rw [cr_ok (x := Cr.look fun t : Tbl S => .ok t.free) (t1 := t) (a := t.free) rfl, hf]
  have hc : (Cr.pushOnly row t).1 = (Cr.cols (S := S) (fun j s => colStep ((S.C j).push s (row j)) (Leaves.push s (row j))) t).1 := by
    rcases hx : Cr.cols (S := S) (fun j s => colStep ((S.C j).push s (row j)) (Leaves.push s (row j))) t with ⟨t1, r⟩
    unfold Cr.pushOnly
    cases r with
    | error p => rw [cr_err hx]
    | ok a =>
      rw [cr_ok hx]
      cases hlast : t1.last with
      | error p => rw [cr_err (x := Cr.look Tbl.last) (t1 := t1) (p := p) (by simp [Cr.look, hlast])]
      | ok o =>
        rw [cr_ok (x := Cr.look Tbl.last) (t1 := t1) (a := o) (by simp [Cr.look, hlast])]
        cases o <;> rfl
  refine ⟨(Cr.pushOnly row t).1, by rw [hp, ← he], by rw [hc]; exact hf, ?_, ?_⟩
  · rw [hc]
    show (S.C 0).len ((seqTear (S.n + 1) (α := fun _ => Unit) t.cols _).1 0) = _
    rcases seqTear_cases (α := fun _ => Unit) t.cols (fun j s => colStep ((S.C j).push s (row j)) (Leaves.push s (row j))) with
      ⟨x, h1, h2⟩ | ⟨k, p, h1, h2, h3, h4, h5⟩
    · rw [(h2 0).1, (hover 0).2, habs]
    · rw [h3 0 (Fin.zero_le k), (hover 0).2, habs]
  · intro j
    rw [hc]
    show Over S.max (S.C j) (t.cols j) ((seqTear (S.n + 1) (α := fun _ => Unit) t.cols _).1 j)
    rcases seqTear_cases (α := fun _ => Unit) t.cols (fun j s => colStep ((S.C j).push s (row j)) (Leaves.push s (row j))) with
      ⟨x, h1, h2⟩ | ⟨k, p, h1, h2, h3, h4, h5⟩
    · rw [(h2 j).1]; exact (hover j).1
    · by_cases hj : j ≤ k
      · rw [h3 j hj]; exact (hover j).1
      · rw [h5 j (not_le.1 hj)]; exact Over.refl (h.rep.inv j)

theorem cr_clear_over {t t' : Tbl S} (hf : t'.free = []) (h : ∀ j, Over S.max (S.C j) (t.cols j) (t'.cols j)) :
    ∃ t'', Cr.clearRaw t' = (t'', .ok ()) ∧ t''.free = [] ∧ WF t'' [] := by
  obtain ⟨t'', e1, e2, e3⟩ := Rep.mapCols (t := t') (d' := (· ∈ t'.free)) (f := fun j s => (S.C j).clear s) (L' := []) (by simp)
    (fun j => by
      obtain ⟨s'', a, b, c⟩ := (h j).clear (· ∈ t'.free)
      exact ⟨s'', a, b, by simpa using c⟩)
  have hx : Cr.clearRaw t' = (t'', .ok ()) := out_ok.1 (by rw [out_clearRaw]; unfold Tbl.clearRaw; rw [e1]; rfl)
  refine ⟨t'', hx, by rw [e3, hf], ?_⟩
  rw [← e3] at e2
  exact ⟨e2, by rw [e3, hf]; exact BSet.ok_nil, by rw [e3, hf]; simp, fun _ => by rw [e3, hf]⟩

theorem cr_pushAll {t : Tbl S} {L : List (Row S)} (h : WF t L) (hf : t.free = []) (N : List (Row S)) (hl : L.length + N.length ≤ S.max + 1) :
    ∃ t', Cr.pushAll (N.map some) t = (t', .ok ()) ∧ t'.free = [] ∧ WF t' (L ++ N) := by
  induction N generalizing t L with
  | nil => exact ⟨t, rfl, hf, by simpa using h⟩
  | cons r N ih =>
    simp only [List.length_cons] at hl
    obtain ⟨t1, e1, e2, e3⟩ := cr_pushOnly h hf r (by omega)
    obtain ⟨t', d1, d2, d3⟩ := ih e3 e2 (by simp; omega)
    refine ⟨t', ?_, d2, by simpa using d3⟩
    have hp : Cr.push r t = (t1, .ok L.length) := by
      unfold Cr.push
      rw [cr_ok (x := Cr.look fun t : Tbl S => .ok t.free) (t1 := t) (a := t.free) rfl, hf]
      exact e1
    show (Cr.push r >>= fun _ => Cr.pushAll (N.map some)) t = _
    rw [cr_ok hp]; exact d1

omit LS in
/-- Once the length is over the largest row id, no push succeeds. -/
theorem cr_push_over [LN : LenSchema S] {t : Tbl S} (ht : IsTorn t) (hf : t.free = []) (hm : S.max < t.len) (row : Row S) :
    (Cr.push row t).2 = .error .idxOverflow := by
  obtain ⟨c, d, h⟩ := ht
  have hp : Cr.push row t = Cr.pushOnly row t := by
    unfold Cr.push
    rw [cr_ok (x := Cr.look fun t : Tbl S => .ok t.free) (t1 := t) (a := t.free) rfl, hf]
  rw [hp]
  have hld := h.len_le
  rcases hx : Cr.cols (S := S) (fun j s => colStep ((S.C j).push s (row j)) (Leaves.push s (row j))) t with ⟨t1, r⟩
  have hr : r = ((seqTear (S.n + 1) (α := fun _ => Unit) t.cols (fun j s => colStep ((S.C j).push s (row j)) (Leaves.push s (row j)))).2.map fun _ => ()) :=
    (congrArg Prod.snd hx).symm
  have ht1 : t1 = { t with cols := (seqTear (S.n + 1) (α := fun _ => Unit) t.cols (fun j s => colStep ((S.C j).push s (row j)) (Leaves.push s (row j)))).1 } :=
    (congrArg Prod.fst hx).symm
  unfold Cr.pushOnly
  rcases seqTear_cases (α := fun _ => Unit) t.cols (fun j s => colStep ((S.C j).push s (row j)) (Leaves.push s (row j))) with
    ⟨x, h1, h2⟩ | ⟨k, p, h1, h2, h3, h4, h5⟩
  · rw [h1] at hr
    have hr : r = .ok () := hr
    subst hr
    rw [cr_ok hx]
    have hlen : t1.len = t.len + 1 := by
      subst ht1
      show (S.C 0).len ((seqTear (S.n + 1) (α := fun _ => Unit) t.cols _).1 0) = _
      rw [(h2 0).1]
      have h0 := (h2 0).2
      by_cases hi : Indexed (S.C 0)
      · obtain ⟨a, b⟩ := (LN.law 0).push_err (s := t.cols 0) (row 0) hi hm
        rw [a] at h0; cases h0
      · obtain ⟨s', a, b⟩ := (LN.law 0).push (s := t.cols 0) (row 0) (fun hx => absurd hx hi)
        rw [a]; exact b
    have hlast : t1.last = .error .idxOverflow := by
      unfold Tbl.last
      rw [hlen, if_neg (by omega), fromUsize_err (by omega), errBind]
    rw [cr_err (x := Cr.look Tbl.last) (t1 := t1) (p := .idxOverflow) (by simp [Cr.look, hlast])]
  · rw [h1] at hr
    have hr : r = .error p := hr
    subst hr
    rw [cr_err hx]
    simp only []
    congr 1
    by_cases hi : Indexed (S.C k) ∧ S.max < (S.C k).len (t.cols k)
    · obtain ⟨a, b⟩ := (LN.law k).push_err (s := t.cols k) (row k) hi.1 hi.2
      rw [a] at h2
      injection h2 with h2; exact h2.symm
    · obtain ⟨s', a, b⟩ := (LN.law k).push (s := t.cols k) (row k) (fun hx => by
        by_contra hc
        exact hi ⟨hx, by omega⟩)
      rw [a] at h2; cases h2

end V11
