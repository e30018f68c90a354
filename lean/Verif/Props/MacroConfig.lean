import Verif.Spec.Macro
import Verif.Lemmas.Write

/-!
# What `table!` accepts: C50
-/

set_option linter.unusedSectionVars false
set_option linter.unusedVariables false
set_option linter.unusedSimpArgs false

namespace V11
namespace Macro

/-- The kinds named by the attributes. -/
def kinds (l : List TblAttr) : List Kind := l.filterMap fun | .kind (some s) => parseKind s | _ => none

/-- An attribute that is accepted wherever it is. -/
def TblAttr.good : TblAttr → Bool
  | .kind none => false
  | .kind (some s) => (parseKind s).isSome
  | .rowId none => false
  | .version none => false
  | .other _ => false
  | _ => true

def derives (s : String) (l : List TblAttr) : Bool := l.any fun | .rowDerive (some items) => items.contains s | _ => false

def trackersOf (l : List TblAttr) : List String := l.filterMap fun | .addTracker e => e | _ => none

def applied (l : List TblAttr) (c : Conf) : Conf where
  kind := c.kind.or (kinds l).head?
  domain := c.domain
  name := c.name
  cols := c.cols
  trackers := c.trackers ++ trackersOf l
  clone := c.clone || derives "Clone" l
  copy := c.copy || derives "Copy" l
  save := c.save || l.contains .save
  sortKey := c.sortKey
  sorted := c.sorted || (kinds l).contains .sorted
  consistent := c.consistent || (kinds l).contains .consistent
  secret := (c.secret && !(kinds l).contains .consistent) || (kinds l).contains .bag || (kinds l).contains .list

theorem attrs_fold (l : List TblAttr) (c : Conf) (hc : c.cols = []) :
    l.foldlM Conf.attr c = if l.all TblAttr.good = true ∧ (c.kind.toList ++ kinds l).length ≤ 1 then .ok (applied l c)
      else (.error .badConfig : R Conf) := by
  induction l generalizing c with
  | nil =>
    rw [if_pos]
    · simp [applied, kinds, trackersOf, derives, pure, Except.pure]
    · refine ⟨rfl, ?_⟩
      cases c.kind <;> simp [kinds]
  | cons a l ih =>
    rw [List.foldlM_cons]
    cases a with
    | kind arg =>
      cases arg with
      | none => simp [Conf.attr, errBind, TblAttr.good]
      | some s =>
        cases hk : parseKind s with
        | none => simp [Conf.attr, hk, errBind, TblAttr.good]
        | some k =>
          have hkinds : kinds (TblAttr.kind (some s) :: l) = k :: kinds l := by simp [kinds, hk]
          simp only [Conf.attr, hk, Conf.setKind]
          cases hck : c.kind with
          | some k0 =>
            simp only [Option.isSome_some, if_true, errBind]
            rw [if_neg]
            rintro ⟨-, h⟩
            rw [hkinds] at h
            simp at h
          | none =>
            simp only [Option.isSome_none, Bool.false_eq_true, if_false]
            have hany : ∀ c' : Conf, c'.cols = [] → (c'.cols.any (·.indexed)) = false := by
              intro c' h; rw [h]; rfl
            cases k <;> simp only [hc, List.any_nil, Bool.false_eq_true, if_false, okBind] <;>
              rw [ih _ rfl] <;> simp only [Option.toList_some, Option.toList_none, hkinds, List.nil_append, List.all_cons, TblAttr.good, hk,
                Option.isSome_some, Bool.true_and, List.cons_append, List.length_cons] <;>
              (split_ifs with hif
               · have hnil : kinds l = [] := List.length_eq_zero_iff.1 (by have := hif.2; omega)
                 refine (if_pos hif).trans ?_
                 simp [applied, hkinds, hck, hc, trackersOf, derives, hnil]
               · exact if_neg hif)
    | rowId arg =>
      cases arg with
      | none => simp [Conf.attr, errBind, TblAttr.good]
      | some s =>
        simp only [Conf.attr, okBind]
        rw [ih]
        · simp [TblAttr.good, kinds, applied, trackersOf, derives]
        · exact hc
    | rowDerive items =>
      cases items with
      | none =>
        simp only [Conf.attr, okBind]
        rw [ih]
        · simp [TblAttr.good, kinds, applied, trackersOf, derives]
        · exact hc
      | some items =>
        simp only [Conf.attr, okBind]
        rw [ih]
        · simp [TblAttr.good, kinds, applied, trackersOf, derives, Bool.or_assoc]
        · exact hc
    | save =>
      simp only [Conf.attr, okBind]
      rw [ih]
      · simp [TblAttr.good, kinds, applied, trackersOf, derives]
      · exact hc
    | version arg =>
      cases arg with
      | none => simp [Conf.attr, errBind, TblAttr.good]
      | some s =>
        simp only [Conf.attr, okBind]
        rw [ih]
        · simp [TblAttr.good, kinds, applied, trackersOf, derives]
        · exact hc
    | addTracker arg =>
      cases arg with
      | none =>
        simp only [Conf.attr, okBind]
        rw [ih]
        · simp [TblAttr.good, kinds, applied, trackersOf, derives]
        · exact hc
      | some s =>
        simp only [Conf.attr, okBind]
        rw [ih]
        · simp [TblAttr.good, kinds, applied, trackersOf, derives]
        · exact hc
    | doc =>
      simp only [Conf.attr, okBind]
      rw [ih]
      · simp [TblAttr.good, kinds, applied, trackersOf, derives]
      · exact hc
    | other name => simp [Conf.attr, errBind, TblAttr.good]


def hasSortKey (d : ColDecl) : Bool := d.attrs.contains .sortKey

theorem cols_fold (l : List ColDecl) (c : Conf) :
    l.foldlM Conf.col c = if (l.all fun d => !d.attrs.contains (.version none)) = true ∧
        c.sortKey.toList.length + (l.filter hasSortKey).length ≤ 1 ∧
        (l.any hasSortKey = true → c.kind = some .sorted) then
      .ok { c with cols := c.cols ++ l.map ColDecl.toCol, sortKey := c.sortKey.or ((l.find? hasSortKey).map (·.name)) }
      else (.error .badConfig : R Conf) := by
  induction l generalizing c with
  | nil =>
    rw [if_pos]
    · simp [pure, Except.pure]
    · refine ⟨rfl, ?_, by simp⟩
      cases c.sortKey <;> simp
  | cons a l ih =>
    rw [List.foldlM_cons]
    have hcol : c.col a = if a.attrs.contains (.version none) then (.error .badConfig : R Conf)
        else if a.attrs.contains .sortKey && c.sortKey.isSome then .error .badConfig
        else if a.attrs.contains .sortKey && decide (c.kind ≠ some .sorted) then .error .badConfig
        else .ok { c with sortKey := if a.attrs.contains .sortKey then some a.name else c.sortKey, cols := c.cols ++ [a.toCol] } := rfl
    rw [hcol]
    by_cases hv : a.attrs.contains (.version none) = true
    · rw [if_pos hv, errBind, if_neg]
      rintro ⟨h, -⟩
      simp at h hv
      exact absurd hv h.1
    · rw [if_neg hv]
      by_cases hs : a.attrs.contains .sortKey = true
      · by_cases hc : c.sortKey.isSome = true
        · rw [if_pos (by simp only [hs, hc]; rfl), errBind, if_neg]
          rintro ⟨-, h, -⟩
          have : hasSortKey a = true := hs
          obtain ⟨n, hn⟩ := Option.isSome_iff_exists.1 hc
          simp [hn, this] at h
          all_goals omega
        · rw [if_neg (by simp only [hc]; simp)]
          have hcn : c.sortKey = none := by simpa using hc
          have hsa : hasSortKey a = true := hs
          by_cases hk : c.kind = some .sorted
          · rw [if_neg (by simp [hk]), okBind, ih]
            refine if_congr ?_ ?_ rfl
            · have hm : ColAttr.sortKey ∈ a.attrs := by simpa using hs
              have hl0 : (l.filter hasSortKey).length = 0 ↔ ∀ a ∈ l, hasSortKey a = false := by
                rw [List.length_eq_zero_iff, List.filter_eq_nil_iff]
                simp only [Bool.not_eq_true]
              have hany : l.any hasSortKey = true ↔ ¬ ∀ a ∈ l, hasSortKey a = false := by
                rw [List.any_eq_true]
                push Not
                simp only [ne_eq, Bool.not_eq_false]
              have hv' : a.attrs.contains (.version none) = false := by simpa using hv
              simp only [hs, if_true, hcn, List.all_cons, hv', Bool.not_false, Bool.true_and, List.filter_cons, hsa,
                List.length_cons, Option.toList_some, Option.toList_none, List.length_nil, List.length_singleton, hk, List.any_cons,
                Bool.true_or]
              refine and_congr_right fun _ => ?_
              simp only [implies_true, and_true]
              omega
            · have hm : ColAttr.sortKey ∈ a.attrs := by simpa using hs
              simp [hcn, hsa, hm]
          · rw [if_pos (by simp only [hs]; simp [hk]), errBind, if_neg]
            rintro ⟨-, -, h⟩
            exact hk (h (by simp [hsa]))
      · have hs' : a.attrs.contains .sortKey = false := by simpa using hs
        have hsa : hasSortKey a = false := hs'
        rw [if_neg (by simp only [hs']; simp), if_neg (by simp only [hs']; simp), okBind, ih]
        refine if_congr ?_ ?_ rfl
        · have hm : ColAttr.sortKey ∉ a.attrs := by simpa using hs
          simp at hv
          simp [hm, hsa, List.filter_cons, hv]
        · have hm : ColAttr.sortKey ∉ a.attrs := by simpa using hs
          simp [hm, hsa]

theorem parseKind_iff (s : String) (k : Kind) : parseKind s = some k ↔ s = kindName k := by
  constructor
  · intro h
    unfold parseKind at h
    split_ifs at h with h1 h2 h3 h4 h5 <;> injection h with h <;> subst h <;> assumption
  · rintro rfl
    cases k <;> rfl

/-- The attribute part of `Parses`. -/
theorem attrs_iff (d : Decl) (k : Kind) : (d.attrs.all TblAttr.good = true ∧ kinds d.attrs = [k]) ↔
    (∃ pre post, d.attrs = pre ++ .kind (some (kindName k)) :: post ∧ ∀ a ∈ pre ++ post, ∀ arg, a ≠ .kind arg) ∧
    .rowId none ∉ d.attrs ∧ .version none ∉ d.attrs ∧ ∀ name, .other name ∉ d.attrs := by
  constructor
  · rintro ⟨hg, hk⟩
    rw [List.all_eq_true] at hg
    refine ⟨?_, fun h => absurd (hg _ h) (by simp [TblAttr.good]), fun h => absurd (hg _ h) (by simp [TblAttr.good]),
      fun n h => absurd (hg _ h) (by simp [TblAttr.good])⟩
    unfold kinds at hk
    rw [List.filterMap_eq_cons_iff] at hk
    obtain ⟨l1, a, l2, e, h1, h2, h3⟩ := hk
    rw [List.filterMap_eq_nil_iff] at h3
    have ha : a = .kind (some (kindName k)) := by
      cases a with
      | kind arg =>
        cases arg with
        | none => cases h2
        | some s => rw [(parseKind_iff s k).1 h2]
      | _ => cases h2
    subst ha
    refine ⟨l1, l2, e, ?_⟩
    rintro a ha arg rfl
    have hn : (match arg with | some s => parseKind s | none => none) = none := by
      rcases List.mem_append.1 ha with ha | ha
      · have := h1 _ ha; cases arg <;> exact this
      · have := h3 _ ha; cases arg <;> exact this
    have hgood := hg (.kind arg) (by rw [e]; rcases List.mem_append.1 ha with ha | ha <;> simp [ha])
    cases arg with
    | none => simp [TblAttr.good] at hgood
    | some s => simp only [] at hn; simp [TblAttr.good, hn] at hgood
  · rintro ⟨⟨pre, post, e, hn⟩, h1, h2, h3⟩
    constructor
    · rw [List.all_eq_true]
      intro a ha
      have : a = .kind (some (kindName k)) ∨ a ∈ pre ++ post := by
        rw [e] at ha; simp at ha ⊢; tauto
      rcases this with rfl | hm
      · simp [TblAttr.good, (parseKind_iff _ k).2 rfl]
      · cases a with
        | kind arg => exact absurd rfl (hn _ hm arg)
        | rowId arg => cases arg with
          | none => exact absurd ha h1
          | some _ => rfl
        | version arg => cases arg with
          | none => exact absurd ha h2
          | some _ => rfl
        | other n => exact absurd ha (h3 n)
        | _ => rfl
    · have hnil : ∀ l : List TblAttr, (∀ a ∈ l, a ∈ pre ++ post) → kinds l = [] := by
        intro l hl
        unfold kinds
        rw [List.filterMap_eq_nil_iff]
        intro a ha
        cases a with
        | kind arg => exact absurd rfl (hn _ (hl _ ha) arg)
        | _ => rfl
      have : kinds (TblAttr.kind (some (kindName k)) :: post) = k :: kinds post := by simp [kinds, (parseKind_iff _ k).2 rfl]
      rw [e, show kinds (pre ++ TblAttr.kind (some (kindName k)) :: post) = kinds pre ++ kinds (TblAttr.kind (some (kindName k)) :: post) by
        simp [kinds, List.filterMap_append], this, hnil pre (by simp +contextual), hnil post (by simp +contextual)]
      rfl

/-- The configuration that is written down. -/
def confOf (d : Decl) (k : Kind) : Conf where
  kind := some k
  domain := d.domain
  name := d.name
  cols := d.cols.map ColDecl.toCol
  trackers := trackersOf d.attrs
  clone := derives "Clone" d.attrs
  copy := derives "Copy" d.attrs
  save := d.attrs.contains .save
  sortKey := (d.cols.find? hasSortKey).map (·.name)
  sorted := decide (k = .sorted)
  consistent := decide (k = .consistent)
  secret := decide (k = .bag ∨ k = .list)

theorem parses_iff (d : Decl) (k : Kind) : Parses d k ↔ (d.attrs.all TblAttr.good = true ∧ kinds d.attrs = [k]) ∧
    (d.cols.all fun d => !d.attrs.contains (.version none)) = true ∧ (d.cols.filter hasSortKey).length ≤ 1 ∧
    (d.cols.any hasSortKey = true → k = .sorted) := by
  rw [attrs_iff]
  have h1 : ((d.cols.all fun d => !d.attrs.contains (.version none)) = true) ↔ ∀ col ∈ d.cols, .version none ∉ col.attrs := by simp
  have h2 : (d.cols.any hasSortKey = true → k = .sorted) ↔ ∀ col ∈ d.cols, .sortKey ∈ col.attrs → k = .sorted := by
    simp [hasSortKey]
  rw [h1, h2]
  constructor
  · rintro ⟨a, b, c, e, f, g, h⟩; exact ⟨⟨a, b, c, e⟩, f, g, h⟩
  · rintro ⟨⟨a, b, c, e⟩, f, g, h⟩; exact ⟨a, b, c, e, f, g, h⟩

theorem parse_ok {d : Decl} {k : Kind} (h : Parses d k) : parseTable d = .ok (confOf d k) := by
  obtain ⟨⟨h1, h2⟩, h3, h4, h5⟩ := (parses_iff d k).1 h
  unfold parseTable
  rw [attrs_fold _ _ rfl, if_pos ⟨h1, by rw [h2]; simp [Conf.new]⟩, okBind, if_neg (by simp [applied, h2, Conf.new]), cols_fold, if_pos]
  · simp only [applied, Conf.new, confOf, h2]
    cases k <;> simp
  · refine ⟨h3, by simpa [applied, Conf.new] using h4, ?_⟩
    intro h
    simp [applied, h2, Conf.new, h5 h]

theorem parse_err {d : Decl} (h : ∀ k, ¬ Parses d k) : parseTable d = .error .badConfig := by
  unfold parseTable
  rw [attrs_fold _ _ rfl]
  by_cases h1 : d.attrs.all TblAttr.good = true ∧ (Conf.new.kind.toList ++ kinds d.attrs).length ≤ 1
  · rw [if_pos h1, okBind]
    have hl : (kinds d.attrs).length ≤ 1 := by simpa [Conf.new] using h1.2
    cases hk : kinds d.attrs with
    | nil => rw [if_pos (by simp [applied, hk, Conf.new])]
    | cons k ks =>
      have hks : ks = [] := by
        rw [hk] at hl; simp at hl; exact hl
      subst hks
      rw [if_neg (by simp [applied, hk, Conf.new]), cols_fold, if_neg]
      rintro ⟨h3, h4, h5⟩
      refine h k ((parses_iff d k).2 ⟨⟨h1.1, hk⟩, h3, by simpa [applied, Conf.new] using h4, ?_⟩)
      intro ha
      have := h5 ha
      simp [applied, hk, Conf.new] at this
      exact this
  · rw [if_neg h1, errBind]

theorem derives_iff (d : Decl) (s : String) : derives s d.attrs = true ↔ Derives d s := by
  unfold derives Derives
  rw [List.any_eq_true]
  constructor
  · rintro ⟨a, ha, h⟩
    cases a with
    | rowDerive items =>
      cases items with
      | none => cases h
      | some items => exact ⟨items, ha, by simpa using h⟩
    | _ => cases h
  · rintro ⟨items, ha, h⟩
    exact ⟨_, ha, by simpa using h⟩

theorem parses_unique {d : Decl} {k k' : Kind} (h : Parses d k) (h' : Parses d k') : k = k' := by
  have h1 := ((parses_iff d k).1 h).1.2
  rw [((parses_iff d k').1 h').1.2] at h1
  injection h1 with h1
  exact h1.symm

theorem sortKey_iff {d : Decl} {k : Kind} (h : Parses d k) (name : String) :
    (d.cols.find? hasSortKey).map (·.name) = some name ↔ ∃ col ∈ d.cols, .sortKey ∈ col.attrs ∧ col.name = name := by
  constructor
  · intro e
    cases hf : d.cols.find? hasSortKey with
    | none => rw [hf] at e; cases e
    | some c =>
      rw [hf] at e
      injection e with e
      have := List.find?_some hf
      exact ⟨c, List.mem_of_find?_eq_some hf, by simpa [hasSortKey] using this, e⟩
  · rintro ⟨c, hc, hs, rfl⟩
    have hone := h.oneSortKey
    have hm : c ∈ d.cols.filter hasSortKey := List.mem_filter.2 ⟨hc, by simpa [hasSortKey] using hs⟩
    rw [← List.head?_filter]
    change (d.cols.filter hasSortKey).length ≤ 1 at hone
    cases hl : d.cols.filter hasSortKey with
    | nil => rw [hl] at hm; cases hm
    | cons x xs =>
      rw [hl] at hm hone
      have : xs = [] := by simpa using hone
      subst this
      have : c = x := by simpa using hm
      rw [this]; rfl

theorem describes_iff {d : Decl} {k : Kind} (h : Parses d k) (c : Conf) : Describes d k c ↔ c = confOf d k := by
  constructor
  · rintro ⟨a1, a2, a3, a4, a5, a6, a7, a8, a9, a10, a11, a12, a13⟩
    have hb : ∀ {b b' : Bool} {P : Prop}, (b = true ↔ P) → (b' = true ↔ P) → b = b' := by
      intro b b' P h1 h2
      rw [Bool.eq_iff_iff, h1, h2]
    cases c with
    | mk kind domain name cols trackers clone copy save sortKey sorted consistent secret =>
      simp only at a1 a2 a3 a4 a5 a6 a7 a8 a9 a10 a11 a12 a13
      unfold confOf
      congr
      · refine List.ext_getElem (by simpa using a4) ?_
        intro i h1 h2
        have h3 : i < d.cols.length := by omega
        obtain ⟨b1, b2, b3, b4⟩ := a5 i _ _ (List.getElem?_eq_getElem h3) (List.getElem?_eq_getElem h1)
        rw [List.getElem_map]
        cases hc : cols[i] with
        | mk n i f fa =>
          rw [hc] at b1 b2 b3 b4
          unfold ColDecl.toCol
          congr
          · exact hb b2 (by simp)
          · exact hb b3 (by simp)
          · exact hb b4 (by simp)
      · exact hb a7 (derives_iff d _)
      · exact hb a8 (derives_iff d _)
      · exact hb a9 (by simp)
      · refine Option.ext fun n => ?_
        rw [a10 n, sortKey_iff h]
      · exact hb a11 (by simp)
      · exact hb a12 (by simp)
      · exact hb a13 (by simp)
  · rintro rfl
    refine ⟨rfl, rfl, rfl, by simp [confOf], ?_, rfl, derives_iff d _, derives_iff d _, by simp [confOf], sortKey_iff h,
      by simp [confOf], by simp [confOf], by simp [confOf]⟩
    intro i col col' e1 e2
    simp only [confOf, List.getElem?_map, e1, Option.map_some, Option.some.injEq] at e2
    subst e2
    simp [ColDecl.toCol]

theorem complaint_iff {d : Decl} {k : Kind} : ((confOf d k).complaint).isSome = true ↔ Complaint d k := by
  unfold Conf.complaint Complaint
  have h1 : (confOf d k).trackers ≠ [] ↔ ∃ e, .addTracker (some e) ∈ d.attrs := by
    unfold confOf trackersOf
    simp only [ne_eq]
    rw [List.filterMap_eq_nil_iff]
    constructor
    · intro hn
      by_contra hc
      refine hn fun a ha => ?_
      cases a with
      | addTracker e => cases e with
        | none => rfl
        | some e => exact absurd ⟨e, ha⟩ hc
      | _ => rfl
    · rintro ⟨e, he⟩ hn
      have := hn _ he
      cases this
  have h2 := derives_iff d "Copy"
  have h3 := derives_iff d "Clone"
  have h4 : (confOf d k).consistent = decide (k = .consistent) := rfl
  have hcols : (confOf d k).cols = [] ↔ d.cols = [] := by simp [confOf]
  by_cases c1 : d.domain = ""
  · rw [if_pos (show (confOf d k).domain = "" from c1)]; simp [c1]
  rw [if_neg (show ¬ (confOf d k).domain = "" from c1)]
  by_cases c2 : d.name = ""
  · rw [if_pos (show (confOf d k).name = "" from c2)]; simp [c2]
  rw [if_neg (show ¬ (confOf d k).name = "" from c2)]
  by_cases c3 : d.cols = []
  · rw [if_pos (hcols.2 c3)]; simp [c3]
  rw [if_neg (fun h => c3 (hcols.1 h))]
  by_cases c4 : Derives d "Copy" ∧ ¬ Derives d "Clone"
  · rw [if_pos]
    · simp [c4]
    · have e1 : (confOf d k).copy = true := h2.2 c4.1
      have e2 : (confOf d k).clone = false := by
        have := mt h3.1 c4.2
        simpa [confOf] using this
      rw [e1, e2]; rfl
  rw [if_neg]
  · by_cases c5 : k ≠ .consistent ∧ ∃ e, .addTracker (some e) ∈ d.attrs
    · rw [if_pos]
      · simp [c5]
      · rw [h4]; simp only [Bool.and_eq_true, Bool.not_eq_true', decide_eq_false_iff_not, decide_eq_true_eq]
        exact ⟨c5.1, h1.2 c5.2⟩
    · rw [if_neg]
      · simp only [Option.isSome_none, Bool.false_eq_true, false_iff]
        tauto
      · rw [h4]; simp only [Bool.and_eq_true, Bool.not_eq_true', decide_eq_false_iff_not, decide_eq_true_eq]
        rintro ⟨x, y⟩
        exact c5 ⟨x, h1.1 y⟩
  · simp only [Bool.and_eq_true, Bool.not_eq_true']
    rintro ⟨x, y⟩
    refine c4 ⟨h2.1 x, fun hc => ?_⟩
    have : (confOf d k).clone = true := h3.2 hc
    rw [this] at y; cases y

open Classical in
theorem guarantees {d : Decl} {k : Kind} : (confOf d k).validateGuarantees =
    if .save ∈ d.attrs ∧ ¬ Derives d "Clone" then (.error .badConfig : R Unit) else .ok () := by
  have h3 := derives_iff d "Clone"
  unfold Conf.validateGuarantees
  have g1 : ((confOf d k).sorted && (confOf d k).consistent) = false := by cases k <;> rfl
  have g2 : ((confOf d k).consistent && ((confOf d k).sorted || (confOf d k).secret)) = false := by cases k <;> rfl
  rw [g1, g2]
  simp only [Bool.false_eq_true, if_false]
  refine if_congr ?_ rfl rfl
  have : (confOf d k).clone = derives "Clone" d.attrs := rfl
  rw [Bool.and_eq_true, Bool.not_eq_true', ← Bool.not_eq_true, this, h3]
  simp [confOf]

theorem writeOut_eq {d : Decl} {k : Kind} (h : Parses d k) (hs : ¬ (.save ∈ d.attrs ∧ ¬ Derives d "Clone")) :
    ((confOf d k).writeOut = .ok () ∧ Trackable d) ∨ ((confOf d k).writeOut = .error .badConfig ∧ ¬ Trackable d) := by
  have h3 := derives_iff d "Clone"
  have hsv : ¬ ((confOf d k).save && !(confOf d k).clone) = true := by
    have : (confOf d k).clone = derives "Clone" d.attrs := rfl
    rw [Bool.and_eq_true, Bool.not_eq_true', ← Bool.not_eq_true, this, h3]
    simpa [confOf] using hs
  unfold Conf.writeOut
  rw [if_neg hsv]
  have key : (confOf d k).cols.any (fun col => col.foreignAuto && !(decide (some col.name = (confOf d k).sortKey) || col.indexed)) = true ↔
      ¬ Trackable d := by
    unfold Trackable
    rw [List.any_eq_true]
    constructor
    · rintro ⟨c, hc, he⟩ ht
      obtain ⟨col, hcol, rfl⟩ := List.mem_map.1 hc
      simp only [Bool.and_eq_true, Bool.not_eq_true', Bool.or_eq_false_iff, decide_eq_false_iff_not] at he
      obtain ⟨f1, f2, f3⟩ := he
      rcases ht col hcol (by simpa [ColDecl.toCol] using f1) with hi | hi
      · have : col.toCol.indexed = true := by simpa [ColDecl.toCol] using hi
        rw [this] at f3; cases f3
      · exact f2 ((sortKey_iff h _).2 hi).symm
    · intro ht
      by_contra hc
      refine ht fun col hcol hfa => ?_
      by_contra hn
      rw [not_or] at hn
      refine hc ⟨col.toCol, List.mem_map_of_mem hcol, ?_⟩
      simp only [Bool.and_eq_true, Bool.not_eq_true', Bool.or_eq_false_iff, decide_eq_false_iff_not]
      refine ⟨by simpa [ColDecl.toCol] using hfa, ?_, by simpa [ColDecl.toCol] using hn.1⟩
      intro he
      exact hn.2 ((sortKey_iff h _).1 he.symm)
  by_cases ht : Trackable d
  · exact Or.inl ⟨if_neg (fun hh => key.1 hh ht), ht⟩
  · exact Or.inr ⟨if_pos (key.2 ht), ht⟩

/-- What `table!` does, by cases. -/
theorem expand_cases (d : Decl) :
    ((∀ k, ¬ Parses d k) ∧ expand d = .error .badConfig) ∨
    ∃ k, Parses d k ∧
      (((.save ∈ d.attrs ∧ ¬ Derives d "Clone") ∧ expand d = .error .badConfig) ∨
       (¬ (.save ∈ d.attrs ∧ ¬ Derives d "Clone") ∧
        ((Complaint d k ∧ expand d = .ok none) ∨
         (¬ Complaint d k ∧ Trackable d ∧ expand d = .ok (some (confOf d k))) ∨
         (¬ Complaint d k ∧ ¬ Trackable d ∧ expand d = .error .badConfig)))) := by
  by_cases hp : ∃ k, Parses d k
  · obtain ⟨k, hp⟩ := hp
    refine Or.inr ⟨k, hp, ?_⟩
    unfold expand
    rw [parse_ok hp, okBind, guarantees]
    by_cases hs : .save ∈ d.attrs ∧ ¬ Derives d "Clone"
    · exact Or.inl ⟨hs, by rw [if_pos hs, errBind]⟩
    · refine Or.inr ⟨hs, ?_⟩
      rw [if_neg hs, okBind]
      cases hc : (confOf d k).complaint with
      | some m => exact Or.inl ⟨complaint_iff.1 (by rw [hc]; rfl), rfl⟩
      | none =>
        have hnc : ¬ Complaint d k := fun h => by
          have := complaint_iff.2 h; rw [hc] at this; cases this
        simp only []
        rcases writeOut_eq hp hs with ⟨e, ht⟩ | ⟨e, ht⟩
        · exact Or.inr (Or.inl ⟨hnc, ht, by rw [e, okBind]⟩)
        · exact Or.inr (Or.inr ⟨hnc, ht, by rw [e, errBind]⟩)
  · refine Or.inl ⟨fun k h => hp ⟨k, h⟩, ?_⟩
    unfold expand
    rw [parse_err (fun k h => hp ⟨k, h⟩), errBind]

/-- C50: for which invocations code is generated, and from which configuration. -/
theorem C50_generated (d : Decl) (c : Conf) : expand d = .ok (some c) ↔
    ∃ k, Parses d k ∧ (.save ∈ d.attrs → Derives d "Clone") ∧ ¬ Complaint d k ∧ Trackable d ∧ Describes d k c := by
  rcases expand_cases d with ⟨h, e⟩ | ⟨k, hp, ⟨hs, e⟩ | ⟨hs, ⟨hc, e⟩ | ⟨hc, ht, e⟩ | ⟨hc, ht, e⟩⟩⟩ <;> rw [e]
  · exact ⟨fun h => (by cases h), fun ⟨k, hk, _⟩ => absurd hk (h k)⟩
  · refine ⟨fun h => (by cases h), fun ⟨k', hk, h1, _⟩ => absurd (h1 hs.1) hs.2⟩
  · refine ⟨fun h => (by cases h), fun ⟨k', hk, h1, h2, _⟩ => ?_⟩
    rw [parses_unique hk hp] at h2
    exact absurd hc h2
  · constructor
    · intro h
      injection h with h; injection h with h
      exact ⟨k, hp, fun h => by by_contra hn; exact hs ⟨h, hn⟩, hc, ht, (describes_iff hp c).2 h.symm⟩
    · rintro ⟨k', hk, -, -, -, h⟩
      rw [parses_unique hk hp] at h
      rw [(describes_iff hp c).1 h]
  · exact ⟨fun h => (by cases h), fun ⟨k', hk, h1, h2, h3, _⟩ => absurd h3 ht⟩

/-- C50: for which invocations a message is printed and nothing is generated; the compiler is not stopped. -/
theorem C50_silent (d : Decl) : expand d = .ok none ↔
    ∃ k, Parses d k ∧ (.save ∈ d.attrs → Derives d "Clone") ∧ Complaint d k := by
  rcases expand_cases d with ⟨h, e⟩ | ⟨k, hp, ⟨hs, e⟩ | ⟨hs, ⟨hc, e⟩ | ⟨hc, ht, e⟩ | ⟨hc, ht, e⟩⟩⟩ <;> rw [e]
  · exact ⟨fun h => (by cases h), fun ⟨k, hk, _⟩ => absurd hk (h k)⟩
  · exact ⟨fun h => (by cases h), fun ⟨k', hk, h1, _⟩ => absurd (h1 hs.1) hs.2⟩
  · exact ⟨fun _ => ⟨k, hp, fun h => by by_contra hn; exact hs ⟨h, hn⟩, hc⟩, fun _ => rfl⟩
  · exact ⟨fun h => (by cases h), fun ⟨k', hk, h1, h2⟩ => absurd (parses_unique hk hp ▸ h2) hc⟩
  · exact ⟨fun h => (by cases h), fun ⟨k', hk, h1, h2⟩ => absurd (parses_unique hk hp ▸ h2) hc⟩

/-- C50: which invocations do not compile. -/
theorem C50_rejected (d : Decl) : expand d = .error .badConfig ↔
    (∀ k, ¬ Parses d k) ∨ (.save ∈ d.attrs ∧ ¬ Derives d "Clone") ∨ (¬ Trackable d ∧ ∀ k, Parses d k → ¬ Complaint d k) := by
  rcases expand_cases d with ⟨h, e⟩ | ⟨k, hp, ⟨hs, e⟩ | ⟨hs, ⟨hc, e⟩ | ⟨hc, ht, e⟩ | ⟨hc, ht, e⟩⟩⟩ <;> rw [e]
  · exact ⟨fun _ => Or.inl h, fun _ => rfl⟩
  · exact ⟨fun _ => Or.inr (Or.inl hs), fun _ => rfl⟩
  · refine ⟨fun h => (by cases h), ?_⟩
    rintro (h | h | ⟨-, h⟩)
    · exact absurd hp (h k)
    · exact absurd h hs
    · exact absurd hc (h k hp)
  · refine ⟨fun h => (by cases h), ?_⟩
    rintro (h | h | ⟨h, -⟩)
    · exact absurd hp (h k)
    · exact absurd h hs
    · exact absurd ht h
  · exact ⟨fun _ => Or.inr (Or.inr ⟨ht, fun k' hk => parses_unique hk hp ▸ hc⟩), fun _ => rfl⟩

/-- C50: the operations that exist on a table are those its kind allows. The methods that rearrange rows also need
`Clone`. -/
theorem C50_surface {d : Decl} {c : Conf} (h : expand d = .ok (some c)) {S : Schema} (hk : c.kind = some S.kind) :
    (∀ row : Row S, c.has .push = true ↔ (TOp.push row).Allowed S.kind) ∧
    (∀ rows : List (Row S), c.has .pushArray = true ↔ (TOp.pushArray rows).Allowed S.kind) ∧
    (∀ rows : List (Row S), c.has .merge = true ↔ (TOp.merge rows).Allowed S.kind) ∧
    (∀ rows : List Nat, c.has .removeRows = true ↔ (TOp.removeRows rows : TOp S).Allowed S.kind) ∧
    (∀ f, c.has .retain = true ↔ c.clone = true ∧ (TOp.retain f : TOp S).Allowed S.kind) ∧
    (∀ f, c.has .visit = true ↔ c.clone = true ∧ (TOp.visit f : TOp S).Allowed S.kind) ∧
    (∀ i : Nat, c.has .bagDelete = true ↔ (TOp.bagDelete i : TOp S).Allowed S.kind) ∧
    (c.has .deleteLater = true ↔ S.kind = .consistent) ∧
    (c.has .clear = true ∧ c.has .flush = true) ∧
    (c.trackers ≠ [] → S.kind = .consistent) := by
  obtain ⟨k, hp, -, hc, -, hd⟩ := (C50_generated d c).1 h
  have hkk : S.kind = k := by
    have := hd.kind; rw [hk] at this; injection this
  rw [(describes_iff hp c).1 hd]
  have htr : (confOf d k).trackers ≠ [] → k = .consistent := by
    intro hne
    by_contra hn
    apply hc
    unfold Complaint
    refine Or.inr (Or.inr (Or.inr (Or.inr ⟨hn, ?_⟩)))
    by_contra hx
    apply hne
    unfold confOf trackersOf
    simp only []
    rw [List.filterMap_eq_nil_iff]
    intro a ha
    cases a with
    | addTracker e => cases e with
      | none => rfl
      | some e => exact absurd ⟨e, ha⟩ hx
    | _ => rfl
  rw [hkk]
  refine ⟨?_, ?_, ?_, ?_, ?_, ?_, ?_, ?_, ⟨rfl, rfl⟩, htr⟩ <;> intros <;> cases k <;> simp [Conf.has, TOp.Allowed, confOf]

/-! ## A few invocations -/

/-- A column. -/
def demoCol (name : String) (attrs : List ColAttr) : ColDecl := ⟨name, attrs⟩

/-- `#[kind = "consistent"] #[row_derive(Clone)] #[save] #[add_tracker = "t"] [d/tbl] { a, #[index] #[foreign_auto] b }`. -/
def demoDecl : Decl where
  attrs := [.doc, .kind (some "consistent"), .rowDerive (some ["Debug", "Clone"]), .save, .addTracker (some "t")]
  domain := "d"
  name := "tbl"
  cols := [demoCol "a" [], demoCol "b" [.index, .foreignAuto]]

/-- It is accepted; a tracker on a bag is not, silently; neither a sort key outside a sorted table, nor `foreign_auto`
without index, nor two kinds compile. -/
example : (match expand demoDecl with | .ok (some c) => some (c.consistent, c.trackers, c.cols.map (·.indexed)) | _ => none) =
      some (true, ["t"], [false, true]) ∧
    expand { demoDecl with attrs := [.kind (some "bag"), .addTracker (some "t")] } = .ok none ∧
    expand { demoDecl with cols := [demoCol "a" [.sortKey]] } = .error .badConfig ∧
    expand { demoDecl with cols := [demoCol "a" [.foreignAuto]] } = .error .badConfig ∧
    expand { demoDecl with attrs := [.kind (some "bag"), .kind (some "bag")] } = .error .badConfig :=
  ⟨by rfl, by rfl, by rfl, by rfl, by rfl⟩

end Macro
end V11
