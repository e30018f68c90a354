import Verif.Spec.Declared
import Verif.Props.MacroConfig
import Verif.Props.Handlers
import Verif.Props.Cascade
import Verif.Props.Integrity
import Verif.Lemmas.Columns
import Verif.Lemmas.RunAlone
import Verif.Props.RegistryUse
import Verif.Props.AccessUse

/-!
# Declarations make a universe the cascade properties apply to (C76)
-/

set_option linter.unusedSectionVars false
set_option linter.unusedVariables false
set_option linter.unusedSimpArgs false

namespace V11
namespace Program
variable {n : Nat} {P : Program n}

theorem described (P : Program n) (t : Fin n) : ∃ k, P.IsKind t k ∧ Macro.Trackable (P.mods t).decl ∧ ¬ Macro.Complaint (P.mods t).decl k ∧
    Macro.Describes (P.mods t).decl k (P.conf t) := by
  obtain ⟨k, h1, -, h3, h4, h5⟩ := (Macro.C50_generated _ _).1 (P.accepted t)
  exact ⟨k, h1, h4, h3, h5⟩

theorem kind_iff (P : Program n) (t : Fin n) (k : Kind) : (P.schema t).kind = k ↔ P.IsKind t k := by
  obtain ⟨k', h1, -, -, h⟩ := described P t
  have hk : (P.schema t).kind = k' := by
    show (P.conf t).kind.getD .append = k'
    rw [h.kind]; rfl
  rw [hk]
  exact ⟨fun e => e ▸ h1, fun h2 => Macro.parses_unique h1 h2⟩

/-- The columns of the configuration are those declared. -/
theorem col_of (P : Program n) (t : Fin n) {j : Nat} {col : Macro.ColDecl} (h : (P.mods t).decl.cols[j]? = some col) :
    ∃ col', (P.conf t).cols[j]? = some col' ∧ col'.name = col.name ∧ (col'.indexed = true ↔ .index ∈ col.attrs) ∧
      (col'.foreign = true ↔ .foreign ∈ col.attrs ∨ .foreignAuto ∈ col.attrs) ∧ (col'.foreignAuto = true ↔ .foreignAuto ∈ col.attrs) := by
  obtain ⟨k, -, -, -, hd⟩ := described P t
  have hl : j < (P.conf t).cols.length := by
    rw [hd.cols]
    exact (List.getElem?_eq_some_iff.1 h).1
  exact ⟨_, List.getElem?_eq_getElem hl, hd.col j col _ h (List.getElem?_eq_getElem hl)⟩

theorem col_from (P : Program n) (t : Fin n) {j : Nat} {col' : Macro.Col} (h : (P.conf t).cols[j]? = some col') :
    ∃ col, (P.mods t).decl.cols[j]? = some col ∧ col'.name = col.name ∧ (col'.indexed = true ↔ .index ∈ col.attrs) ∧
      (col'.foreign = true ↔ .foreign ∈ col.attrs ∨ .foreignAuto ∈ col.attrs) ∧ (col'.foreignAuto = true ↔ .foreignAuto ∈ col.attrs) := by
  obtain ⟨k, -, -, -, hd⟩ := described P t
  have hl : j < (P.mods t).decl.cols.length := by
    rw [← hd.cols]
    exact (List.getElem?_eq_some_iff.1 h).1
  exact ⟨_, List.getElem?_eq_getElem hl, hd.col j _ col' (List.getElem?_eq_getElem hl) h⟩

theorem number_some {e : ElemTy n} {p : Fin n} (h : e = .rowId p) (b : Bool) : ∃ num, e.number b = some num := by
  subst h
  cases b
  · exact ⟨_, rfl⟩
  · exact ⟨_, rfl⟩

/-- A column position of a declared column is one of the schema's. -/
theorem col_lt (P : Program n) (t : Fin n) {j : Nat} {col : Macro.ColDecl} (h : (P.mods t).decl.cols[j]? = some col) :
    j < (P.schema t).n + 1 := by
  obtain ⟨col', h', -⟩ := col_of P t h
  have := (List.getElem?_eq_some_iff.1 h').1
  show j < (P.conf t).cols.length - 1 + 1
  omega

theorem colTracker_auto (P : Program n) {t p : Fin n} {j : Fin ((P.schema t).n + 1)} (h : P.RefCol t j p) :
    ∃ fk : FK P.schema, P.colTracker t j = some (p, .auto fk) := by
  obtain ⟨col, h1, h2, h3⟩ := h
  obtain ⟨col', e1, e2, e3, e4, e5⟩ := col_of P t h1
  obtain ⟨num, hn⟩ := number_some h3 (P.indexed t j)
  unfold colTracker
  rw [e1]
  simp only [e5.2 h2, if_true]
  have hp : ((P.mods t).elem j).parent = some p := by rw [h3]; rfl
  rw [hp, hn]
  exact ⟨_, rfl⟩

/-- What is known of a tracker that a column brings. -/
theorem colTracker_some (P : Program n) {t p : Fin n} {j : Fin ((P.schema t).n + 1)} {tr : Tracker P.schema}
    (h : P.colTracker t j = some (p, tr)) :
    (∃ col num, (P.mods t).decl.cols[j.val]? = some col ∧ P.RefCol t j p ∧ ((P.mods t).elem j).number (P.indexed t j) = some num ∧
      tr = .auto { child := t, col := j, key := num, bySort := decide (some col.name = (P.conf t).sortKey) }) ∨
    (∃ col o, (P.mods t).decl.cols[j.val]? = some col ∧ .foreign ∈ col.attrs ∧ .foreignAuto ∉ col.attrs ∧ (P.mods t).tracks j = (p, o) ∧
      tr = .observer o) := by
  unfold colTracker at h
  cases e : (P.conf t).cols[j.val]? with
  | none => rw [e] at h; cases h
  | some col' =>
    rw [e] at h
    obtain ⟨col, h1, h2, h3, h4, h5⟩ := col_from P t e
    simp only [] at h
    cases ha : col'.foreignAuto with
    | true =>
      rw [ha] at h
      simp only [if_true] at h
      left
      cases hp : ((P.mods t).elem j).parent with
      | none => rw [hp] at h; cases h
      | some p' =>
        cases hn : ((P.mods t).elem j).number (P.indexed t j) with
        | none => rw [hp, hn] at h; cases h
        | some num =>
          rw [hp, hn] at h
          simp only [] at h
          injection h with h
          injection h with ha1 ha2
          subst ha1
          refine ⟨col, num, h1, ⟨col, h1, h5.1 ha, ?_⟩, rfl, ?_⟩
          · generalize (P.mods t).elem j = e at hp
            cases e with
            | rowId q => injection hp with hp; rw [hp]
            | data _ _ => cases hp
            | bool => cases hp
          · rw [← ha2, h2]
    | false =>
      rw [ha] at h
      simp only [Bool.false_eq_true, if_false] at h
      cases hf : col'.foreign with
      | false => rw [hf] at h; cases h
      | true =>
        rw [hf] at h
        simp only [if_true] at h
        right
        injection h with h
        injection h with ha1 ha2
        have hna : .foreignAuto ∉ col.attrs := fun hm => by rw [h5.2 hm] at ha; cases ha
        refine ⟨col, ((P.mods t).tracks j).2, h1, ?_, hna, ?_, ha2.symm⟩
        · rcases h4.1 hf with h | h
          · exact h
          · exact absurd h hna
        · rw [← ha1]

theorem colTracker_foreign (P : Program n) {t : Fin n} {j : Fin ((P.schema t).n + 1)} {col : Macro.ColDecl}
    (h1 : (P.mods t).decl.cols[j.val]? = some col) (h2 : .foreign ∈ col.attrs) (h3 : .foreignAuto ∉ col.attrs) :
    P.colTracker t j = some (((P.mods t).tracks j).1, .observer ((P.mods t).tracks j).2) := by
  obtain ⟨col', e1, e2, e3, e4, e5⟩ := col_of P t h1
  unfold colTracker
  rw [e1]
  have ha : col'.foreignAuto = false := by
    cases h : col'.foreignAuto with
    | false => rfl
    | true => exact absurd (e5.1 h) h3
  simp only [ha, Bool.false_eq_true, if_false, e4.2 (Or.inl h2), if_true]

theorem mem_trackersOf (P : Program n) {t p : Fin n} {tr : Tracker P.schema} : (p, tr) ∈ P.trackersOf t ↔
    (∃ j, P.colTracker t j = some (p, tr)) ∨ ∃ o, (p, o) ∈ (P.mods t).extra ∧ tr = .observer o := by
  unfold trackersOf
  rw [List.mem_append, List.mem_filterMap, List.mem_map]
  constructor
  · rintro (⟨j, -, h⟩ | ⟨q, h1, h2⟩)
    · exact Or.inl ⟨j, h⟩
    · injection h2 with h2 h3
      exact Or.inr ⟨q.2, by rw [← h2]; exact h1, h3.symm⟩
  · rintro (⟨j, h⟩ | ⟨o, h1, h2⟩)
    · exact Or.inl ⟨j, List.mem_finRange j, h⟩
    · exact Or.inr ⟨(p, o), h1, by rw [h2]⟩

theorem tracks_iff (P : Program n) (hty : P.Typed) (t p : Fin n) : (∃ tr, (p, tr) ∈ P.trackersOf t) ↔ P.Tracks t p := by
  constructor
  · rintro ⟨tr, h⟩
    rcases (mem_trackersOf P).1 h with ⟨j, h⟩ | ⟨o, h1, h2⟩
    · rcases colTracker_some P h with ⟨col, num, -, h, -, -⟩ | ⟨col, o, h1, h2, h3, h4, -⟩
      · exact Or.inl ⟨j, h⟩
      · exact Or.inr (Or.inl ⟨j, col, h1, h2, h3, by rw [h4]⟩)
    · exact Or.inr (Or.inr ⟨(p, o), h1, rfl⟩)
  · rintro (⟨j, h⟩ | ⟨j, col, h1, h2, h3, h4⟩ | ⟨q, h1, h2⟩)
    · have hj : j < (P.schema t).n + 1 := by
        obtain ⟨col, h1, -⟩ := h
        exact col_lt P t h1
      obtain ⟨fk, hf⟩ := colTracker_auto (j := ⟨j, hj⟩) P h
      exact ⟨_, (mem_trackersOf P).2 (Or.inl ⟨_, hf⟩)⟩
    · have hf := colTracker_foreign (j := ⟨j, col_lt P t h1⟩) P h1 h2 h3
      exact ⟨.observer ((P.mods t).tracks j).2, (mem_trackersOf P).2 (Or.inl ⟨⟨j, col_lt P t h1⟩, by rw [hf, ← h4]⟩)⟩
    · refine ⟨.observer q.2, (mem_trackersOf P).2 (Or.inr ⟨q.2, ?_, rfl⟩)⟩
      rw [← h2]; exact h1

/-! ### Registration -/

theorem registerAll (qs : List (Fin n × Tracker P.schema)) (cfg : Cfg P.schema) :
    qs.foldlM (fun cfg q => cfg.register q.1 q.2) cfg =
      if ∀ q ∈ qs, (P.schema q.1).kind = .consistent then
        .ok { cfg with trackers := fun p => cfg.trackers p ++ (qs.filter (fun q => decide (q.1 = p))).map (·.2) }
      else .error .trackerOnInconsistent := by
  induction qs generalizing cfg with
  | nil => simp; rfl
  | cons q qs ih =>
    rw [List.foldlM_cons]
    unfold Cfg.register
    by_cases hq : (P.schema q.1).kind = .consistent
    · rw [if_pos hq, okBind]
      have := ih { cfg with trackers := Function.update cfg.trackers q.1 (cfg.trackers q.1 ++ [q.2]) }
      unfold Cfg.register at this
      rw [this]
      by_cases hall : ∀ q ∈ qs, (P.schema q.1).kind = .consistent
      · rw [if_pos hall, if_pos (by intro x hx; rcases List.mem_cons.1 hx with rfl | hx; exacts [hq, hall x hx])]
        congr 2
        funext p
        by_cases hp : q.1 = p
        · subst hp
          simp
        · show Function.update cfg.trackers q.1 _ p ++ _ = _
          rw [Function.update_of_ne (Ne.symm hp), List.filter_cons_of_neg (by simp [hp])]
      · rw [if_neg hall, if_neg (fun h => hall (fun x hx => h x (List.mem_cons_of_mem _ hx)))]
    · rw [if_neg hq, errBind, if_neg (fun h => hq (h q (by simp)))]

theorem start_eq (P : Program n) (order : List (Fin n)) : P.start order =
    (order.flatMap P.trackersOf).foldlM (fun cfg q => cfg.register q.1 q.2) P.blank := by
  unfold start initTable
  generalize P.blank = cfg
  induction order generalizing cfg with
  | nil => rfl
  | cons t order ih =>
    rw [List.foldlM_cons, List.flatMap_cons, List.foldlM_append]
    apply bindCongr
    intro cfg _
    exact ih cfg

/-- C76: a universe with these tables starts exactly if every tracker they declare — `#[foreign_auto]`, `#[foreign]` or
`#[add_tracker]` — is for a table of kind `consistent`; otherwise it panics. Then the trackers of a table are those
declared for it, in the order of the declaring tables and, for each, of its columns. The handlers are the default ones. -/
theorem C76_start (P : Program n) (hty : P.Typed) (order : List (Fin n)) :
    ((∀ t ∈ order, ∀ p, P.Tracks t p → P.IsKind p .consistent) → ∃ cfg, P.start order = .ok cfg ∧
      (∀ p, cfg.trackers p = ((order.flatMap P.trackersOf).filter (fun q => decide (q.1 = p))).map (·.2)) ∧
      cfg.handlers = (EventHandlers.default id).fallbacks) ∧
    (¬ (∀ t ∈ order, ∀ p, P.Tracks t p → P.IsKind p .consistent) → P.start order = .error .trackerOnInconsistent) := by
  have hiff : (∀ t ∈ order, ∀ p, P.Tracks t p → P.IsKind p .consistent) ↔
      ∀ q ∈ order.flatMap P.trackersOf, (P.schema q.1).kind = .consistent := by
    constructor
    · intro h q hq
      obtain ⟨t, ht, hq⟩ := List.mem_flatMap.1 hq
      exact (kind_iff P q.1 _).2 (h t ht q.1 ((tracks_iff P hty t q.1).1 ⟨q.2, hq⟩))
    · intro h t ht p hp
      obtain ⟨tr, htr⟩ := (tracks_iff P hty t p).2 hp
      exact (kind_iff P p _).1 (h (p, tr) (List.mem_flatMap.2 ⟨t, ht, htr⟩))
  rw [hiff, start_eq, registerAll]
  constructor
  · intro h
    rw [if_pos h]
    exact ⟨_, rfl, fun p => by simp [blank], rfl⟩
  · intro h
    rw [if_neg h]

/-- C76: the table a module declares has the declared columns, in order, each stored as its type says and with an index
exactly if it is declared `#[index]`; and the declared kind and row-id type. -/
theorem C76_columns (P : Program n) (hty : P.Typed) (t : Fin n) :
    ∃ (m : Nat) (cs : Fin (m + 1) → ColSpec) (k : Kind), P.schema t = mkSchema cs (P.mods t).max k ∧ P.IsKind t k ∧
      m + 1 = (P.mods t).decl.cols.length ∧
      ∀ (j : Fin (m + 1)) col, (P.mods t).decl.cols[j.val]? = some col → StoredAs ((P.mods t).elem j) (.index ∈ col.attrs) (cs j) := by
  obtain ⟨k, h1, -, hc, hd⟩ := described P t
  refine ⟨_, _, _, rfl, ?_, ?_, ?_⟩
  · exact (kind_iff P t _).1 rfl
  · have hne : (P.mods t).decl.cols ≠ [] := fun h => hc (Or.inr (Or.inr (Or.inl h)))
    have := List.length_pos_iff.2 hne
    have := hd.cols
    omega
  · intro j col hj
    obtain ⟨col', e1, -, e3, -⟩ := col_of P t hj
    have hix : P.indexed t j = true ↔ .index ∈ col.attrs := by
      unfold indexed
      rw [e1]; exact e3
    have hord := hty.index t j col hj
    revert hix hord
    generalize P.indexed t j = b
    generalize (P.mods t).elem j = e
    intro hix hord
    cases b with
    | false =>
      have hn : ¬ .index ∈ col.attrs := fun h => by have := hix.2 h; cases this
      cases e with
      | data E ord => cases ord <;> exact .data hn
      | bool => exact .bool hn
      | rowId p => exact .rowId hn
    | true =>
      have hi := hix.1 rfl
      cases e with
      | data E ord =>
        cases ord with
        | none => exact absurd rfl (hord hi E)
        | some o => exact .dataIndexed hi
      | bool => exact .boolIndexed hi
      | rowId p => exact .rowIdIndexed hi

variable {order : List (Fin n)} {cfg : Cfg P.schema}

theorem start_ok (hty : P.Typed) (h : P.start order = .ok cfg) :
    (∀ t ∈ order, ∀ p, P.Tracks t p → P.IsKind p .consistent) ∧
    (∀ p, cfg.trackers p = ((order.flatMap P.trackersOf).filter (fun q => decide (q.1 = p))).map (·.2)) ∧
    cfg.handlers = (EventHandlers.default id).fallbacks := by
  by_cases hc : ∀ t ∈ order, ∀ p, P.Tracks t p → P.IsKind p .consistent
  · obtain ⟨cfg', h1, h2, h3⟩ := (C76_start P hty order).1 hc
    rw [h] at h1
    cases h1
    exact ⟨hc, h2, h3⟩
  · rw [(C76_start P hty order).2 hc] at h
    cases h

theorem isFK_iff (hty : P.Typed) (h : P.start order = .ok cfg) (p : Fin n) (fk : FK P.schema) :
    IsFK cfg p fk ↔ ∃ t ∈ order, ∃ j, P.colTracker t j = some (p, .auto fk) := by
  unfold IsFK
  rw [(start_ok hty h).2.1 p, List.mem_map]
  constructor
  · rintro ⟨⟨p', tr⟩, h1, h2⟩
    obtain ⟨h4, h3⟩ := List.mem_filter.1 h1
    obtain ⟨t, ht, h5⟩ := List.mem_flatMap.1 h4
    replace h3 : p' = p := of_decide_eq_true h3
    replace h2 : tr = .auto fk := h2
    subst h2 h3
    rcases (mem_trackersOf P).1 h5 with ⟨j, h⟩ | ⟨o, -, h⟩
    · exact ⟨t, ht, j, h⟩
    · cases h
  · rintro ⟨t, ht, j, h⟩
    exact ⟨(p, .auto fk), List.mem_filter.2 ⟨List.mem_flatMap.2 ⟨t, ht, (mem_trackersOf P).2 (Or.inl ⟨j, h⟩)⟩, by simp⟩, rfl⟩

/-- What is known of a registered foreign_auto tracker. -/
theorem isFK_known (hty : P.Typed) (h : P.start order = .ok cfg) {p : Fin n} {fk : FK P.schema} (hfk : IsFK cfg p fk) :
    fk.child ∈ order ∧ P.RefCol fk.child fk.col p ∧
      (∀ r, P.idIn fk.child r fk.col = some (fk.ref r)) ∧
      ∃ col, (P.mods fk.child).decl.cols[fk.col.val]? = some col ∧ (fk.bySort = true ↔ some col.name = (P.conf fk.child).sortKey) := by
  obtain ⟨t, ht, j, hc⟩ := (isFK_iff hty h p fk).1 hfk
  rcases colTracker_some P hc with ⟨col, num, h1, h2, h3, h4⟩ | ⟨col, o, -, -, -, -, h4⟩
  · injection h4 with h4
    subst h4
    refine ⟨ht, h2, ?_, col, h1, by simp⟩
    intro r
    unfold idIn
    simp only []
    rw [h3]
    rfl
  · cases h4

/-- C76: in a started universe the foreign_auto trackers stand for exactly the `#[foreign_auto]` columns of its tables:
what they take a row to reference is what is in those columns. -/
theorem C76_references (hty : P.Typed) (h : P.start order = .ok cfg) (p t : Fin n) (r : Row (P.schema t)) (k : Nat) :
    (∃ fk, IsFK cfg p fk ∧ Refers fk r k) ↔ t ∈ order ∧ P.References t r p k := by
  constructor
  · rintro ⟨fk, h1, e, h2⟩
    obtain ⟨a1, a2, a3, -⟩ := isFK_known hty h h1
    subst e
    exact ⟨a1, fk.col, a2, by rw [a3 r]; exact congrArg some h2⟩
  · rintro ⟨ht, j, h1, h2⟩
    obtain ⟨fk, hf⟩ := colTracker_auto P h1
    have hfk := (isFK_iff hty h p fk).2 ⟨t, ht, j, hf⟩
    refine ⟨fk, hfk, ?_⟩
    rcases colTracker_some P hf with ⟨col, num, -, -, b1, b2⟩ | ⟨col, o, -, -, -, -, b2⟩
    · injection b2 with b2
      obtain ⟨-, -, a3, -⟩ := isFK_known hty h hfk
      subst b2
      refine ⟨rfl, ?_⟩
      have := a3 r
      simp only [] at this
      rw [h2] at this
      injection this with this
      exact this.symm
    · cases b2

theorem sortKey_kind (t : Fin n) {name : String} (h : (P.conf t).sortKey = some name) : P.IsKind t .sorted := by
  obtain ⟨k, h1, -, -, hd⟩ := described P t
  obtain ⟨col, h2, h3, -⟩ := (hd.sortKey name).1 h
  have := h1.sortKey col h2 h3
  rw [← this]
  exact h1

/-- C76: the columns the trackers search can be searched, whatever the kinds of the dependants. -/
theorem C76_searchable (hty : P.Typed) (h : P.start order = .ok cfg) : Searchable cfg := by
  constructor
  · intro p fk hfk hb
    obtain ⟨-, -, -, col, h1, h2⟩ := isFK_known hty h hfk
    exact (kind_iff P _ _).2 (sortKey_kind fk.child (h2.1 hb).symm)
  · intro p fk hfk hb
    obtain ⟨-, ⟨col', h3, h4, h5⟩, -, col, h1, h2⟩ := isFK_known hty h hfk
    rw [h1] at h3
    injection h3 with h3
    subst h3
    obtain ⟨k, -, htr, -, hd⟩ := described P fk.child
    rcases htr col (List.mem_of_getElem? h1) h4 with hi | ⟨col', c1, c2, c3⟩
    · obtain ⟨cc, e1, -, e3, -⟩ := col_of P fk.child h1
      have hix : P.indexed fk.child fk.col = true := by
        unfold indexed; rw [e1]; exact e3.2 hi
      show ((((P.mods fk.child).elem fk.col).spec (P.indexed fk.child fk.col)).col _).find.isSome = true
      rw [hix, h5]
      rfl
    · have := (hd.sortKey col.name).2 ⟨col', c1, c2, c3⟩
      rw [h2.2 this.symm] at hb
      cases hb

/-- C76: a started universe whose dependants are all `consistent` or `sorted` meets all that the cascade properties
(C29-C36) ask of one. -/
theorem C76_standard (hty : P.Typed) (h : P.start order = .ok cfg)
    (hdep : ∀ t ∈ order, ∀ j p, P.RefCol t j p → P.IsKind t .consistent ∨ P.IsKind t .sorted) : Standard cfg := by
  obtain ⟨h1, h2, -⟩ := start_ok hty h
  have hs := C76_searchable hty h
  refine ⟨?_, ?_, hs.sorted, hs.indexed⟩
  · intro p hp
    rw [h2 p] at hp
    obtain ⟨tr, htr⟩ := List.exists_mem_of_ne_nil _ hp
    obtain ⟨q, hq, -⟩ := List.mem_map.1 htr
    obtain ⟨hq0, hq2⟩ := List.mem_filter.1 hq
    obtain ⟨t, ht, hq1⟩ := List.mem_flatMap.1 hq0
    replace hq2 : q.1 = p := of_decide_eq_true hq2
    subst hq2
    exact (kind_iff P _ _).2 (h1 t ht q.1 ((tracks_iff P hty t q.1).1 ⟨q.2, hq1⟩))
  · intro p fk hfk
    obtain ⟨a1, a2, -, -⟩ := isFK_known hty h hfk
    rcases hdep _ a1 _ _ a2 with hk | hk
    · exact Or.inl ((kind_iff P _ _).2 hk)
    · exact Or.inr ((kind_iff P _ _).2 hk)

/-- The declared references do not form a cycle. -/
theorem acyclic_of (hty : P.Typed) (h : P.start order = .ok cfg) {rank : Fin n → Nat}
    (hr : ∀ t ∈ order, ∀ j p, P.RefCol t j p → rank t < rank p) : Acyclic cfg rank := by
  intro p fk hfk
  obtain ⟨a1, a2, -, -⟩ := isFK_known hty h hfk
  exact hr _ a1 _ _ a2

theorem goes_iff (hty : P.Typed) (h : P.start order = .ok cfg) (u : (t : Fin n) → Tbl (P.schema t)) (p : Fin n) (rows : List Nat)
    (t : Fin n) (i : Nat) : Doomed cfg u p rows t i ↔ P.Goes order u p rows t i := by
  constructor
  · intro hd
    induction hd with
    | seed hi => exact .seed hi
    | step _ hfk hv hr ih =>
      obtain ⟨ht, href⟩ := (C76_references hty h _ _ _ _).1 ⟨_, hfk, hr⟩
      exact .step ih ht hv href
  · intro hg
    induction hg with
    | seed hi => exact .seed hi
    | step _ ht hv href ih =>
      obtain ⟨fk, hfk, hr⟩ := (C76_references hty h _ _ _ _).2 ⟨ht, href⟩
      exact .step ih hfk hv hr

theorem sortsByRef_of (hty : P.Typed) (h : P.start order = .ok cfg) {K : Type} [LinearOrder K]
    {key : (t : Fin n) → Row (P.schema t) → K} (hk : P.SortsByKey key) : SortsByRef cfg key := by
  intro p fk hfk hb r r'
  obtain ⟨-, -, a3, col, h1, h2⟩ := isFK_known hty h hfk
  obtain ⟨k, -, -, -, hd⟩ := described P fk.child
  obtain ⟨col', c1, c2, c3⟩ := (hd.sortKey col.name).1 (h2.1 hb).symm
  have hcol : col' = col := by
    have := hty.names fk.child
    exact List.inj_on_of_nodup_map this c1 (List.mem_of_getElem? h1) c3
  subst hcol
  exact hk fk.child fk.col col' h1 c2 r r' _ _ (a3 r) (a3 r')

/-- The default handler of a built-in removal event. -/
theorem removal_handler (hty : P.Typed) (h : P.start order = .ok cfg) {ev : Event} (he : ev ∈ EVENT_LIST) (hr : ev.isRemoval = true) :
    ev.isCreation = false ∧ cfg.handlers[ev.id]? = some .delete := by
  rw [(start_ok hty h).2.2]
  have : ∀ e ∈ EVENT_LIST, e.isRemoval = true → e.isCreation = false ∧ ((EventHandlers.default id).fallbacks)[e.id]? = some Handler.delete := by
    decide
  exact this ev he hr

/-- C76: from declarations to behaviour. In a program whose declared references have no cycle and whose dependants are
`consistent` or `sorted`, deleting live rows and flushing with a built-in removal event returns, and what goes is exactly
what the declarations say: the rows, and every row that holds the id of one that goes in a `#[foreign_auto]` column. -/
theorem C76_cascade {K : Type} [LinearOrder K] {key : (t : Fin n) → Row (P.schema t) → K} (hty : P.Typed) (h : P.start order = .ok cfg)
    (hdep : ∀ t ∈ order, ∀ j p, P.RefCol t j p → P.IsKind t .consistent ∨ P.IsKind t .sorted)
    {rank : Fin n → Nat} (hrank : ∀ t ∈ order, ∀ j p, P.RefCol t j p → rank t < rank p)
    {ev : Event} (he : ev ∈ EVENT_LIST) (hr : ev.isRemoval = true) {m : Nat} {p : Fin n} (hm : rank p < m) (hp : P.IsKind p .consistent)
    {env : Env P.schema} (hu : Unlocked env) (hrd : Ready key cfg env.tbl) (rows : List Nat)
    (hl : ∀ i ∈ rows, (env.tbl p).contains i = true) (hnd : rows.Nodup) :
    ∃ env', session cfg m key p (rows.map .delete) ev env = .ok env' ∧ Unlocked env' ∧ Ready key cfg env'.tbl ∧
      (∀ t, P.IsKind t .consistent → ∀ i, (P.Goes order env.tbl p rows t i → (env'.tbl t).view i = none) ∧
        (¬ P.Goes order env.tbl p rows t i → (env'.tbl t).view i = (env.tbl t).view i)) ∧
      (∀ t, P.IsKind t .sorted → ∃ keep : Row (P.schema t) → Bool,
        (∀ r, keep r = false ↔ t ∈ order ∧ ∃ q k, P.References t r q k ∧ P.Goes order env.tbl p rows q k) ∧
        ∀ L, Holds (env.tbl t) L → Holds (env'.tbl t) (L.filter keep)) ∧
      (∀ t, ¬ P.IsKind t .consistent → ¬ P.IsKind t .sorted → env'.tbl t = env.tbl t) := by
  obtain ⟨hc, hh⟩ := removal_handler hty h he hr
  obtain ⟨env', e1, e2, e3, e4⟩ := C29_cascade_exact (C76_standard hty h hdep) (acyclic_of hty h hrank) hr hc hh hm
    ((kind_iff P _ _).2 hp) hu hrd rows hl (fun _ => hnd)
  refine ⟨env', e1, e2, e3, ?_, ?_, ?_⟩
  · intro t ht i
    have ht := (kind_iff P _ _).2 ht
    exact ⟨fun hg => e4.gone t ht i ((goes_iff hty h _ _ _ _ _).2 hg), fun hg => e4.kept t ht i (fun hd => hg ((goes_iff hty h _ _ _ _ _).1 hd))⟩
  · intro t ht
    obtain ⟨keep, k1, k2⟩ := e4.sorted t ((kind_iff P _ _).2 ht)
    refine ⟨keep, ?_, k2⟩
    intro r
    rw [k1]
    constructor
    · rintro ⟨q, fk, k, a, b, c⟩
      obtain ⟨hto, href⟩ := (C76_references hty h q t r k).1 ⟨fk, a, b⟩
      exact ⟨hto, q, k, href, (goes_iff hty h _ _ _ _ _).1 c⟩
    · rintro ⟨hto, q, k, href, c⟩
      obtain ⟨fk, a, b⟩ := (C76_references hty h q t r k).2 ⟨hto, href⟩
      exact ⟨q, fk, k, a, b, (goes_iff hty h _ _ _ _ _).2 c⟩
  · intro t h1 h2
    exact e4.other t (fun e => h1 ((kind_iff P _ _).1 e)) (fun e => h2 ((kind_iff P _ _).1 e))

/-- C76: in such a program no reference declared `#[foreign_auto]` ever dangles, whatever history of sessions that add rows
with live references, edit other columns, delete and clear (C30). -/
theorem C76_no_dangling {K : Type} [LinearOrder K] {key : (t : Fin n) → Row (P.schema t) → K} (hty : P.Typed) (h : P.start order = .ok cfg)
    (hdep : ∀ t ∈ order, ∀ j p, P.RefCol t j p → P.IsKind t .consistent ∨ P.IsKind t .sorted)
    {rank : Fin n → Nat} (hrank : ∀ t ∈ order, ∀ j p, P.RefCol t j p → rank t < rank p) (hkey : P.SortsByKey key)
    {m : Nat} (hm : ∀ t, rank t < m) {env env' : Env P.schema} (hf : Fresh env) (hist : History cfg m key env env')
    (t p : Fin n) (ht : t ∈ order) (i k : Nat) (r : Row (P.schema t)) (hv : (env'.tbl t).view i = some r) (href : P.References t r p k) :
    (env'.tbl p).contains k = true := by
  have hi := C30_integrity_from_fresh (C76_standard hty h hdep) (acyclic_of hty h hrank) (sortsByRef_of hty h hkey) hm hf hist
  obtain ⟨fk, hfk, e, hr⟩ := (C76_references hty h p t r k).2 ⟨ht, href⟩
  subst e
  have := hi p fk i r hfk hv
  have hr : fk.ref r = k := hr
  rw [hr] at this
  exact this

/-! ### The registry -/

theorem untag_tag (P : Program n) (t : Fin n) (i : Nat) : P.untag (tag t i) = ((P.trackersOf t)[i]?).map (·.2) := by
  unfold untag tag
  simp only [Nat.unpair_pair]
  rw [dif_pos t.isLt]

/-- Domain and name tell the tables apart. -/
def Distinct (P : Program n) : Prop :=
  ∀ p p', (P.conf p).domain = (P.conf p').domain → (P.conf p).name = (P.conf p').name → p = p'

theorem regs_for (P : Program n) (hd : P.Distinct) (t p : Fin n) :
    (((P.regs t).filter (fun r => decide (r.domain = (P.conf p).domain ∧ r.table = (P.conf p).name))).map (·.tracker)).map P.untag =
      (((P.trackersOf t).filter (fun q => decide (q.1 = p))).map (·.2)).map some := by
  have key : ∀ (l : List (Fin n × Tracker P.schema)) (k : Nat), (∀ i, (P.trackersOf t)[k + i]? = l[i]?) →
      ((((l.zipIdx k).map fun q => P.reg t q.1.1 q.2).filter
        (fun r => decide (r.domain = (P.conf p).domain ∧ r.table = (P.conf p).name))).map (·.tracker)).map P.untag =
      ((l.filter (fun q => decide (q.1 = p))).map (·.2)).map some := by
    intro l
    induction l with
    | nil => intros; rfl
    | cons q l ih =>
      intro k hk
      have h0 := hk 0
      have ih := ih (k + 1) (fun i => by have := hk (i + 1); rw [show k + (i + 1) = k + 1 + i by omega] at this; simpa using this)
      rw [List.zipIdx_cons, List.map_cons]
      by_cases hq : q.1 = p
      · rw [List.filter_cons_of_pos (by simp [reg, hq]), List.filter_cons_of_pos (by simp [hq])]
        simp only [List.map_cons]
        rw [ih, reg, untag_tag]
        simp only [Nat.add_zero, List.getElem?_cons_zero] at h0
        rw [h0]
        rfl
      · rw [List.filter_cons_of_neg (by
          simp only [decide_eq_true_eq]
          rintro ⟨a, b⟩
          exact hq (hd _ _ a b)), List.filter_cons_of_neg (by simp [hq])]
        exact ih
  exact key (P.trackersOf t) 0 (fun i => by rw [Nat.zero_add])

theorem mem_regs (P : Program n) {t : Fin n} {r : Reg} (h : r ∈ P.regs t) : ∃ p tr i, (p, tr) ∈ P.trackersOf t ∧ r = P.reg t p i := by
  unfold regs at h
  obtain ⟨⟨q, i⟩, h1, h2⟩ := List.mem_map.1 h
  have := List.mem_zipIdx' h1
  exact ⟨q.1, q.2, i, by rw [this.2]; exact List.getElem_mem _, h2.symm⟩

theorem regs_mem (P : Program n) {t p : Fin n} {tr : Tracker P.schema} (h : (p, tr) ∈ P.trackersOf t) : ∃ i, P.reg t p i ∈ P.regs t := by
  obtain ⟨i, hi, e⟩ := List.mem_iff_getElem.1 h
  refine ⟨i, List.mem_map.2 ⟨((p, tr), i), ?_, rfl⟩⟩
  rw [List.mem_zipIdx_iff_getElem?]
  rw [List.getElem?_eq_getElem hi]
  exact congrArg some e

theorem declared_regs {Ty : Type} [DecidableEq Ty] {V : Ty → Type} {Pr : Type} [DecidableEq Pr] {decl : Pr → PropDecl V}
    {tr : List (ROp decl × Bool)} {names : List String} {gt : Fin n → GTable} (hg : P.Registers gt) {tabs : String → List (Fin n)}
    (htabs : ∀ dom ∈ names, tablesOf tr dom = (tabs dom).map gt) :
    names.flatMap (declaredBy tr) = (names.flatMap tabs).flatMap P.regs := by
  rw [List.flatMap_assoc]
  unfold List.flatMap
  congr 1
  apply List.map_congr_left
  intro dom hdom
  unfold declaredBy
  rw [htabs dom hdom, List.flatMap_map]
  congr 1
  funext t
  exact hg.init t

/-- C76: with the registry alive and this program's modules registered on the listed domains, `Universe::new` returns exactly
if every tracker they declare is for a table of kind `consistent` of a listed domain. -/
theorem C76_universe_starts {Ty : Type} [DecidableEq Ty] {V : Ty → Type} {Pr : Type} [DecidableEq Pr] {decl : Pr → PropDecl V}
    (P : Program n) (hty : P.Typed) (ops : List (ROp decl)) (names : List String)
    (hp : (World.after decl ops).poisoned = false) (hn : ∀ dom ∈ names, dom ∈ domainsOf (World.history decl ops))
    (gt : Fin n → GTable) (hg : P.Registers gt) (tabs : String → List (Fin n))
    (htabs : ∀ dom ∈ names, tablesOf (World.history decl ops) dom = (tabs dom).map gt) :
    (∃ k, ((World.after decl ops).newUniverse names).1 = .ok k) ↔
      ∀ t ∈ names.flatMap tabs, ∀ p, P.Tracks t p → p ∈ names.flatMap tabs ∧ P.IsKind p .consistent := by
  have hcons : ∀ p, (P.conf p).consistent = true ↔ P.IsKind p .consistent := by
    intro p
    obtain ⟨k, h1, -, -, hd⟩ := described P p
    rw [hd.consistent]
    exact ⟨fun e => e ▸ h1, fun h2 => Macro.parses_unique h1 h2⟩
  rw [C45_new_iff]
  constructor
  · rintro ⟨-, -, h⟩ t ht p htr
    obtain ⟨tr, htr⟩ := (tracks_iff P hty t p).2 htr
    obtain ⟨i, hi⟩ := regs_mem P htr
    obtain ⟨h1, h2, g, h3, h4, h5⟩ := h (P.reg t p i) (by rw [declared_regs hg htabs]; exact List.mem_flatMap.2 ⟨t, ht, hi⟩)
    rw [htabs _ h1] at h3
    obtain ⟨q, hq, rfl⟩ := List.mem_map.1 h3
    have : q = p := Fin.ext ((hg.ty q).symm.trans h5)
    subst this
    exact ⟨List.mem_flatMap.2 ⟨_, h1, hq⟩, (hcons _).1 h2⟩
  · intro h
    refine ⟨hp, hn, ?_⟩
    intro r hr
    rw [declared_regs hg htabs] at hr
    obtain ⟨t, ht, hr⟩ := List.mem_flatMap.1 hr
    obtain ⟨p, tr, i, h1, rfl⟩ := mem_regs P hr
    obtain ⟨h2, h3⟩ := h t ht p ((tracks_iff P hty t p).1 ⟨tr, h1⟩)
    obtain ⟨dom, hdom, hpd⟩ := List.mem_flatMap.1 h2
    have hmem : gt p ∈ tablesOf (World.history decl ops) dom := by rw [htabs dom hdom]; exact List.mem_map_of_mem hpd
    have hd : (P.conf p).domain = dom := by
      obtain ⟨x, -, hx⟩ := List.mem_filterMap.1 (mem_firsts hmem)
      unfold okTable at hx
      split at hx
      · split at hx
        · rename_i _ e
          injection hx with hx
          rw [← hg.domain, ← hx]; exact e
        · cases hx
      · cases hx
    refine ⟨?_, (hcons p).2 h3, gt p, ?_, hg.name p, hg.ty p⟩
    · show (P.conf p).domain ∈ names
      rw [hd]; exact hdom
    · show gt p ∈ tablesOf _ (P.conf p).domain
      rw [hd]; exact hmem

/-- C76: and it brings about the universe computed from the declarations: in the new universe each table has the trackers
`start` gives it, in the same order; with the tables in the order in which their domains are listed and they were registered. -/
theorem C76_universe {Ty : Type} [DecidableEq Ty] {V : Ty → Type} {Pr : Type} [DecidableEq Pr] {decl : Pr → PropDecl V}
    (hd : P.Distinct) (hty : P.Typed) (ops : List (ROp decl)) (names : List String) (k : Nat)
    (hnew : ((World.after decl ops).newUniverse names).1 = .ok k)
    (gt : Fin n → GTable) (hg : P.Registers gt) (tabs : String → List (Fin n))
    (htabs : ∀ dom ∈ names, tablesOf (World.history decl ops) dom = (tabs dom).map gt) :
    ∃ cfg u, P.start (names.flatMap tabs) = .ok cfg ∧ ((World.after decl ops).newUniverse names).2.unis = (World.after decl ops).unis ++ [u] ∧
      k = (World.after decl ops).unis.length ∧
      ∀ d x p, MaybeDomain.domain d ∈ u → d.name = (P.conf p).domain → d.tables.lookup (P.conf p).name = some x →
        x.trackers.map P.untag = (cfg.trackers p).map some := by
  obtain ⟨e1, e2, -⟩ := (C45_new_iff ops names).1 ⟨k, hnew⟩
  have hall := (C76_universe_starts P hty ops names e1 e2 gt hg tabs htabs).1 ⟨k, hnew⟩
  obtain ⟨cfg, h, -⟩ := (C76_start P hty (names.flatMap tabs)).1 (fun t ht p hp => (hall t ht p hp).2)
  obtain ⟨u, h1, h2, h3⟩ := C45_new ops names k hnew
  refine ⟨cfg, u, h, h1, h2, ?_⟩
  intro d x p hdu hdn hx
  rw [h3 d x _ hdu hx, (start_ok hty h).2.1 p, hdn, declared_regs hg htabs]
  generalize names.flatMap tabs = order
  induction order with
  | nil => rfl
  | cons t order ih =>
    rw [List.flatMap_cons, List.filter_append, List.map_append, List.map_append, ih, List.flatMap_cons, List.filter_append,
      List.map_append, List.map_append]
    congr 1
    exact regs_for P hd t p

end Program
end V11

/-! ### Example -/

namespace V11
open Macro

/-- `#[kind = "…"] table! { [pub demo/…] … }` with the given columns; rows derive `Clone`. -/
def declTable (kind name : String) (cols : List ColDecl) : Decl where
  attrs := [.kind (some kind), .rowDerive (some ["Clone"])]
  domain := "demo"
  name := name
  cols := cols

/-- People; cars with an owner that is indexed and tracked; trips sorted by car, tracked, with an observed person. -/
def shopMods (t : Fin 3) : TableModule 3 :=
  match t with
  | 0 => { decl := declTable "consistent" "people" [⟨"name", []⟩, ⟨"alive", []⟩]
           elem := fun j => if j = 0 then .data Nat none else .bool
           max := 255, tracks := fun _ => (0, ⟨0, fun _ => true, false⟩), extra := [] }
  | 1 => { decl := declTable "consistent" "cars" [⟨"plate", []⟩, ⟨"owner", [.index, .foreignAuto]⟩]
           elem := fun j => if j = 1 then .rowId 0 else .data Nat (some inferInstance)
           max := 255, tracks := fun _ => (0, ⟨0, fun _ => true, false⟩), extra := [(1, ⟨7, fun _ => true, false⟩)] }
  | 2 => { decl := declTable "sorted" "trips" [⟨"car", [.sortKey, .foreignAuto]⟩, ⟨"driver", [.foreign]⟩]
           elem := fun j => if j = 0 then .rowId 1 else .rowId 0
           max := 255, tracks := fun _ => (0, ⟨8, fun _ => true, false⟩), extra := [] }

/-- What the macro makes of a declaration. -/
def confIn (d : Decl) : Conf :=
  match expand d with
  | .ok (some c) => c
  | _ => Conf.new

/-- The program. -/
def shop : Program 3 where
  mods := shopMods
  conf t := confIn (shopMods t).decl
  accepted t := by
    match t with
    | 0 => rfl
    | 1 => rfl
    | 2 => rfl

theorem shop_typed : shop.Typed where
  index t j col h hi := by
    match t with
    | 0 => match j with
      | 0 => injection h with h; subst h; simp at hi
      | 1 => injection h with h; subst h; simp at hi
      | _ + 2 => cases h
    | 1 => match j with
      | 0 => intro E he; cases he
      | 1 => intro E he; cases he
      | _ + 2 => cases h
    | 2 => match j with
      | 0 => intro E he; cases he
      | 1 => intro E he; cases he
      | _ + 2 => cases h
  auto t j col h hi := by
    match t with
    | 0 => match j with
      | 0 => injection h with h; subst h; simp at hi
      | 1 => injection h with h; subst h; simp at hi
      | _ + 2 => cases h
    | 1 => match j with
      | 0 => injection h with h; subst h; simp at hi
      | 1 => exact ⟨0, rfl⟩
      | _ + 2 => cases h
    | 2 => match j with
      | 0 => exact ⟨1, rfl⟩
      | 1 => injection h with h; subst h; simp at hi
      | _ + 2 => cases h
  names t := by
    match t with
    | 0 => decide
    | 1 => decide
    | 2 => decide

theorem shop_refs {t : Fin 3} {j : Nat} {p : Fin 3} (h : shop.RefCol t j p) : (t = 1 ∧ j = 1 ∧ p = 0) ∨ (t = 2 ∧ j = 0 ∧ p = 1) := by
  obtain ⟨col, h, hi, he⟩ := h
  match t with
  | 0 => match j with
    | 0 => injection h with h; subst h; simp at hi
    | 1 => injection h with h; subst h; simp at hi
    | _ + 2 => cases h
  | 1 => match j with
    | 0 => injection h with h; subst h; simp at hi
    | 1 =>
      have he : ElemTy.rowId 0 = ElemTy.rowId p := he
      injection he with he
      exact Or.inl ⟨rfl, rfl, he.symm⟩
    | _ + 2 => cases h
  | 2 => match j with
    | 0 =>
      have he : ElemTy.rowId 1 = ElemTy.rowId p := he
      injection he with he
      exact Or.inr ⟨rfl, rfl, he.symm⟩
    | 1 => injection h with h; subst h; simp at hi
    | _ + 2 => cases h

theorem shop_kinds : shop.IsKind 0 .consistent ∧ shop.IsKind 1 .consistent ∧ shop.IsKind 2 .sorted :=
  ⟨(Program.kind_iff shop 0 _).1 rfl, (Program.kind_iff shop 1 _).1 rfl, (Program.kind_iff shop 2 _).1 rfl⟩

/-- The hypotheses of C76 are met: the shop is well typed, starts, its references have no cycle and its dependants can
lose rows. -/
example : ∃ cfg, shop.Typed ∧ shop.Distinct ∧ shop.start [0, 1, 2] = .ok cfg ∧
    (∀ t ∈ [0, 1, 2], ∀ j p, shop.RefCol t j p → shop.IsKind t .consistent ∨ shop.IsKind t .sorted) ∧
    (∀ t ∈ [0, 1, 2], ∀ j p, shop.RefCol t j p → 2 - t.val < 2 - p.val) ∧
    (cfg.trackers 0).length = 2 ∧ (cfg.trackers 1).length = 2 ∧ cfg.trackers 2 = [] := by
  refine ⟨_, shop_typed, ?_, rfl, ?_, ?_, rfl, rfl, rfl⟩
  · intro p p' _ h
    have : ∀ p p' : Fin 3, (shop.conf p).name = (shop.conf p').name → p = p' := by decide
    exact this p p' h
  · intro t _ j p h
    rcases shop_refs h with ⟨rfl, -, -⟩ | ⟨rfl, -, -⟩
    · exact Or.inl shop_kinds.2.1
    · exact Or.inr shop_kinds.2.2
  · intro t _ j p h
    rcases shop_refs h with ⟨rfl, -, rfl⟩ | ⟨rfl, -, rfl⟩ <;> decide

/-- What the shop's modules register. -/
def shopGt (t : Fin 3) : GTable where
  domain := (shop.conf t).domain
  name := (shop.conf t).name
  columns := []
  colTys := []
  kind := (shop.schema t).kind
  ty := t.val
  init := shop.regs t

/-- The domain is registered, then the three tables. -/
def shopOps : List (ROp (V := fun _ : Unit => Nat) (fun e : Empty => nomatch e)) :=
  [.registerDomain "demo", .registerTable (shopGt 0), .registerTable (shopGt 1), .registerTable (shopGt 2)]

/-- The hypotheses of `C76_universe_starts` and `C76_universe` are met. -/
example : shop.Registers shopGt ∧ (World.after _ shopOps).poisoned = false ∧
    (∀ dom ∈ ["demo"], dom ∈ domainsOf (World.history _ shopOps)) ∧
    (∀ dom ∈ ["demo"], tablesOf (World.history _ shopOps) dom = ([0, 1, 2] : List (Fin 3)).map shopGt) ∧
    ∃ k, ((World.after _ shopOps).newUniverse ["demo"]).1 = .ok k := by
  refine ⟨⟨fun _ => rfl, fun _ => rfl, fun _ => rfl, fun _ => rfl⟩, by decide +kernel, by decide +kernel, by decide +kernel, 0, by decide +kernel⟩

/-- A car: plate, owner. -/
def carRow (a b : Nat) : Row (shop.schema 1) := fun j => match j with | ⟨0, _⟩ => a | ⟨1, _⟩ => b

/-- A trip: car, driver. -/
def tripRow (a b : Nat) : Row (shop.schema 2) := fun j => match j with | ⟨0, _⟩ => a | ⟨1, _⟩ => b

/-- A person. -/
def personRow (a : Nat) (b : Bool) : Row (shop.schema 0) := fun j => match j with | ⟨0, _⟩ => a | ⟨1, _⟩ => b

/-- Everything is compared by its first column; so the trips by their `#[sort_key]`. -/
def shopKey : (t : Fin 3) → Row (shop.schema t) → Nat := fun t => match t with
  | 0 => fun r => r ⟨0, by decide⟩
  | 1 => fun r => r ⟨0, by decide⟩
  | 2 => fun r => r ⟨0, by decide⟩

example : shop.SortsByKey shopKey := by
  intro t j col h hs r r' k k' hk hk'
  match t, j with
  | 0, ⟨0, _⟩ => injection h with h; subst h; simp at hs
  | 0, ⟨1, _⟩ => injection h with h; subst h; simp at hs
  | 1, ⟨0, _⟩ => injection h with h; subst h; simp at hs
  | 1, ⟨1, _⟩ => injection h with h; subst h; simp at hs
  | 2, ⟨0, _⟩ => injection hk with hk; injection hk' with hk'; subst hk hk'; exact Iff.rfl
  | 2, ⟨1, _⟩ => injection h with h; subst h; simp at hs

/-- A day in the shop: two people, three cars, four trips, then one person is deleted. -/
def shopRun : R (Env shop.schema) := do
  let cfg ← shop.start [0, 1, 2]
  let env : Env shop.schema := { tbl := fun _ => Tbl.new, reads := fun _ => 0, writer := fun _ => false, log := [] }
  let env ← session cfg 3 shopKey 0 [.push (personRow 5 true), .push (personRow 6 false)] evCreate env
  let env ← session cfg 3 shopKey 1 [.push (carRow 100 1), .push (carRow 101 0), .push (carRow 102 1)] evCreate env
  let env ← session cfg 3 shopKey 2 [.merge [tripRow 0 0, tripRow 1 1, tripRow 2 0, tripRow 2 1]] evCreate env
  session cfg 3 shopKey 0 [.delete 1] evDelete env

set_option maxRecDepth 10000 in
/-- Their cars go, and the trips with these cars; the trip with the other car stays although they drove it. -/
example : (match shopRun with
    | .ok env => some ((List.range 2).map (fun i => ((env.tbl 0).view i).map fun r => (show Nat from r ⟨0, by decide⟩)),
       (List.range 3).map (fun i => ((env.tbl 1).view i).map fun r => (show Nat from r ⟨0, by decide⟩)),
       (List.range 4).map (fun i => ((env.tbl 2).view i).map fun r => ((show Nat from r ⟨0, by decide⟩), (show Nat from r ⟨1, by decide⟩))))
    | .error _ => none) = some ([some 5, none], [none, some 101, none], [some (1, 1), none, none, none]) := by rfl

end V11
