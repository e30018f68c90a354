import Verif.Lemmas.Damaged
import Verif.Props.Unwind
import Verif.Props.Serial

/-!
# Restoring a damaged extraction (C80)
-/

set_option linter.unusedSimpArgs false
set_option linter.unusedSectionVars false
set_option linter.unusedVariables false

namespace V11
variable {T : Type} [DecidableEq T] {S : T → Schema} [LS : ∀ t, LawfulSchema (S t)]
variable [LV : ∀ t, LeavesSchema (S t)]
variable {K : Type} [LinearOrder K] {key : (t : T) → Row (S t) → K} {cfg : Cfg S}

/-- C80: this model goes on as the model of the other properties does: what that returns this returns, what that flushes this
flushes, and where this one panics that does. -/
theorem C80_agrees (ev : Event) (n : Nat) {t : T} {u : Uni S} (hu : Unlocked u.env) {sig : Sig} {own : List (Own S t)}
    (hown : ∀ o ∈ own, o.parent ≠ t) (x : Extraction (S t)) (r : Restored (S t))
    (h : restoreUpToFlush (key t) u.fl (cfg.trackers t).isEmpty sig own x (u.env.tbl t) = r) :
    (∀ e y, r = .returned e y → ∃ u', restore key cfg n t sig own x ev u = .ok (e, u') ∧
      u'.env.tbl = Function.update u.env.tbl t y ∧ u'.fl = u.fl ∧ u'.env.log = u.env.log) ∧
    (∀ w rm, r = .flushes w rm → ∃ env, u.env.lock t = .ok (W.lock (u.env.tbl t), env) ∧
      restore key cfg n t sig own x ev u = (do
        let f ← (u.fl t).setRemapping rm
        let env ← flush cfg n t w ev env
        .ok (none, ⟨env, Function.update u.fl t f⟩))) ∧
    (∀ f, r = .fell f → ∃ p, restore key cfg n t sig own x ev u = .error p ∧ (f = .aborted p ∨ ∃ y, f = .unwound p y)) := by
  obtain ⟨env1, a1, a2, a3, a4⟩ := unlocked_lock hu t
  have hrun : restore key cfg n t sig own x ev u =
      restoreExtract key cfg n t sig own x ev (W.lock (u.env.tbl t)) ⟨env1, u.fl⟩ := by
    unfold restore; rw [a1, okBind]
  have hun : ∀ (w : W (S t)) (p : Panic), w.unwind p = .aborted p ∨ ∃ y, w.unwind p = .unwound p y := by
    intro w p
    unfold W.unwind
    cases w.drop with
    | ok y => exact Or.inr ⟨y, rfl⟩
    | error q => exact Or.inl rfl
  rw [hrun]
  unfold restoreExtract
  unfold restoreUpToFlush at h
  cases hv : x.validate sig with
  | error p =>
    rw [hv] at h
    simp only [] at h
    subst h
    refine ⟨fun e y h => (by cases h), fun w rm h => (by cases h), fun f h => ?_⟩
    injection h with h
    exact ⟨p, rfl, h ▸ hun _ p⟩
  | ok o =>
    rw [hv] at h
    cases o with
    | some e =>
      simp only [] at h
      subst h
      refine ⟨fun e' y h => ?_, fun w rm h => (by cases h), fun f h => (by cases h)⟩
      injection h with h1 h2; subst h1 h2
      have hd : (W.lock (u.env.tbl t)).drop = .ok (u.env.tbl t) := by
        unfold W.drop
        rw [if_neg (by simp [W.lock, Select.isEmpty])]; rfl
      refine ⟨⟨env1.unlock t (u.env.tbl t), u.fl⟩, by rw [okBind]; simp only []; rw [hd, okBind], ?_, rfl, ?_⟩
      · simp only [unlock_tbl]; rw [a3]
      · simp [Env.unlock, Env.put, a4]
    | none =>
      simp only [] at h
      rw [okBind]
      simp only []
      rw [peekAll_ok (by intro o ho; rw [a2.2]; simp [hown o ho]), okBind]
      rcases hf : fillExtract (key t) u.fl own x (cfg.trackers t).isEmpty (W.lock (u.env.tbl t)) with ⟨w, q⟩
      rw [hf] at h
      have hm := wout_fillExtract (key t) u.fl own x (cfg.trackers t).isEmpty (W.lock (u.env.tbl t))
      cases q with
      | error p =>
        simp only [] at h
        subst h
        have he : mergeExtract (key t) u.fl own x (cfg.trackers t).isEmpty (W.lock (u.env.tbl t)) = .error p := by
          rw [← hm]; exact wout_err.2 (by rw [hf])
        rw [he, errBind]
        refine ⟨fun e y h => (by cases h), fun w rm h => (by cases h), fun f h => ?_⟩
        injection h with h
        exact ⟨p, rfl, h ▸ hun _ p⟩
      | ok rm =>
        simp only [] at h
        have he : mergeExtract (key t) u.fl own x (cfg.trackers t).isEmpty (W.lock (u.env.tbl t)) = .ok (w, rm) := by
          rw [← hm]; exact wout_ok.2 hf
        rw [he, okBind]
        simp only []
        by_cases hc : w.changes.isEmpty = true
        · rw [if_pos hc] at h
          subst h
          rw [if_pos hc]
          refine ⟨fun e y h => ?_, fun w rm h => (by cases h), fun f h => (by cases h)⟩
          injection h with h1 h2; subst h1 h2
          have hd : w.drop = .ok w.tbl := by unfold W.drop; rw [if_neg (by simp [hc])]
          refine ⟨⟨env1.unlock t w.tbl, u.fl⟩, by rw [hd, okBind], ?_, rfl, ?_⟩
          · simp only [unlock_tbl]; rw [a3]
          · simp [Env.unlock, Env.put, a4]
        · rw [if_neg hc] at h
          subst h
          rw [if_neg hc]
          refine ⟨fun e y h => (by cases h), fun w' rm' h => ?_, fun f h => (by cases h)⟩
          injection h with h1 h2; subst h1 h2
          exact ⟨env1, a1, rfl⟩

/-- The panic at a bad entry. -/
theorem bad_entry {t : T} {fl : T → FlushLock} {own : List (Own S t)} (hnd : (own.map (·.col)).Nodup) {x : Extraction (S t)} {k : Nat}
    (hbad : x.ShortAt k ∨ x.LostAt fl own k) :
    ∃ p, (p = .unwrapNone ∨ p = .noRemapping) ∧ (x.rowNo k = .error p ∨ ∃ r, x.rowNo k = .ok r ∧ updateRow fl own r = .error p) := by
  rcases hbad with h | ⟨r, h1, h2⟩
  · exact ⟨.unwrapNone, Or.inl rfl, Or.inl (rowNo_short h)⟩
  · exact ⟨.noRemapping, Or.inr rfl, Or.inr ⟨r, rowNo_some h1, updateRow_err own hnd r h2⟩⟩

/-- C80: an extraction whose entry number `rows.length` lacks a value or refers to a row without a new id, restored into an
append, bag or list table: it panics, and the entries before that one stay in the table. -/
theorem C80_plain {t : T} (hk : (S t).kind ≠ .consistent) (hk' : (S t).kind ≠ .sorted) (fl : T → FlushLock) (noTrackers : Bool) {sig : Sig}
    {own : List (Own S t)} (hnd : (own.map (·.col)).Nodup) (x : Extraction (S t)) (hx : x.Matches sig) (tbl : Tbl (S t))
    (ht : Reach (key t) true tbl) (rows : List (Row (S t))) (hgood : x.BeginsWith fl own rows) (hl : rows.length < x.selection.length)
    (hbad : x.ShortAt rows.length ∨ x.LostAt fl own rows.length) (hcap : tbl.len + rows.length ≤ (S t).max + 1) :
    ∃ p tbl' new, (p = .unwrapNone ∨ p = .noRemapping) ∧
      restoreUpToFlush (key t) fl noTrackers sig own x tbl = .fell (.unwound p tbl') ∧ Added tbl tbl' new rows := by
  obtain ⟨p, hp, hb⟩ := bad_entry hnd hbad
  obtain ⟨pairs, bad, rest, e1, e2, e3⟩ := good_pairs hnd hgood hl
  obtain ⟨w', ids, f1, f2, f3, f4⟩ := fillPush_bad (key := key) (nt := noTrackers) hk' pairs rows e3 bad rest p (by rw [e2]; exact hb)
    (w := W.lock tbl) ht hcap []
  refine ⟨p, w'.tbl, ids, hp, ?_, f3⟩
  unfold restoreUpToFlush
  rw [validate_matches hx]
  simp only []
  unfold fillExtract
  rw [if_neg hk', e1, f1]
  simp only []
  unfold W.unwind W.drop
  rw [if_neg (fun h => hk h.1)]

/-- C80: the same into a consistent table: if the first entry is bad, the table is as before; if any entry before the bad
one was good, the process ends. -/
theorem C80_consistent {t : T} (hk : (S t).kind = .consistent) (fl : T → FlushLock) (noTrackers : Bool) {sig : Sig}
    {own : List (Own S t)} (hnd : (own.map (·.col)).Nodup) (x : Extraction (S t)) (hx : x.Matches sig) (tbl : Tbl (S t))
    (ht : Reach (key t) true tbl) (rows : List (Row (S t))) (hgood : x.BeginsWith fl own rows) (hl : rows.length < x.selection.length)
    (hbad : x.ShortAt rows.length ∨ x.LostAt fl own rows.length) (hcap : tbl.len + rows.length ≤ (S t).max + 1) :
    ∃ p, (p = .unwrapNone ∨ p = .noRemapping) ∧
      restoreUpToFlush (key t) fl noTrackers sig own x tbl = .fell (if rows = [] then .unwound p tbl else .aborted p) := by
  obtain ⟨p, hp, hb⟩ := bad_entry hnd hbad
  obtain ⟨pairs, bad, rest, e1, e2, e3⟩ := good_pairs hnd hgood hl
  have hk' : (S t).kind ≠ .sorted := by rw [hk]; decide
  obtain ⟨w', ids, f1, f2, f3, f4⟩ := fillPush_bad (key := key) (nt := noTrackers) hk' pairs rows e3 bad rest p (by rw [e2]; exact hb)
    (w := W.lock tbl) ht hcap []
  refine ⟨p, hp, ?_⟩
  unfold restoreUpToFlush
  rw [validate_matches hx]
  simp only []
  unfold fillExtract
  have hr : fillPush fl own x noTrackers x.selection.zipIdx [] (W.lock tbl) = (w', .error p) := by rw [e1]; exact f1
  rw [if_neg hk', hr]
  simp only []
  unfold W.unwind W.drop
  have hch := f4.changes hk
  rw [show (W.lock tbl).changes = .these [] from rfl, foldl_push, List.nil_append] at hch
  by_cases he : rows = []
  · subst he
    have hids : ids = [] := List.eq_nil_of_length_eq_zero f3.len
    subst hids
    have hpairs : pairs = [] := by cases e3; rfl
    subst hpairs
    rw [if_neg (by rw [hch]; simp [Select.isEmpty]), if_pos rfl]
    have hw : w' = W.lock tbl := by
      obtain ⟨old, k⟩ := bad
      simp only [List.nil_append] at f1
      unfold fillPush at f1
      have e2' : k = 0 := e2
      replace hb : x.rowNo k = .error p ∨ ∃ r, x.rowNo k = .ok r ∧ updateRow fl own r = .error p := by rw [e2']; exact hb
      rcases hb with h | ⟨r, h1, h2⟩
      · rw [wr_err (x := Wr.onTbl (Cr.lift (x.rowNo k))) (w1 := W.lock tbl) (p := p) (by unfold Wr.onTbl Cr.lift; simp only [h])] at f1
        injection f1 with f1 _; exact f1.symm
      · rw [wr_ok (x := Wr.onTbl (Cr.lift (x.rowNo k))) (w1 := W.lock tbl) (a := r) (by unfold Wr.onTbl Cr.lift; simp only [h1]),
          wr_err (x := Wr.onTbl (Cr.lift (updateRow fl own r))) (w1 := W.lock tbl) (p := p) (by unfold Wr.onTbl Cr.lift; rw [h2])] at f1
        injection f1 with f1 _; exact f1.symm
    rw [hw]; rfl
  · have hids : ids ≠ [] := by
      intro h; subst h
      exact he (List.eq_nil_of_length_eq_zero f3.len.symm)
    rw [if_pos ⟨hk, by rw [hch]; cases ids <;> simp_all [Select.isEmpty]⟩, if_neg he]

/-- C80, for whatever reason restoring into a consistent table panics once the header is accepted: the process ends exactly
if the first entry is good and there is an id for it. Otherwise the table is as before, unless the table was full (C72). -/
theorem C80_consistent_fate {t : T} (hk : (S t).kind = .consistent) (fl : T → FlushLock) (noTrackers : Bool) {sig : Sig}
    {own : List (Own S t)} (hnd : (own.map (·.col)).Nodup) (x : Extraction (S t)) (hx : x.Matches sig) (tbl : Tbl (S t))
    (ht : Reach (key t) true tbl) (f : Fate (S t)) (h : restoreUpToFlush (key t) fl noTrackers sig own x tbl = .fell f) :
    ∃ p, (f = .aborted p ↔ (∃ r, x.BeginsWith fl own [r]) ∧ (HasGap tbl ∨ tbl.len ≤ (S t).max)) ∧
      (¬ ((∃ r, x.BeginsWith fl own [r]) ∧ (HasGap tbl ∨ tbl.len ≤ (S t).max)) →
        ∃ y, f = .unwound p y ∧ (p ≠ .idxOverflow → y = tbl)) := by
  have hk' : (S t).kind ≠ .sorted := by rw [hk]; decide
  unfold restoreUpToFlush at h
  rw [validate_matches hx] at h
  simp only [] at h
  unfold fillExtract at h
  rw [if_neg hk'] at h
  rcases hf : fillPush fl own x noTrackers x.selection.zipIdx [] (W.lock tbl) with ⟨w, q⟩
  rw [hf] at h
  cases q with
  | ok rm => simp only [] at h; split at h <;> cases h
  | error p =>
    simp only [] at h
    injection h with h
    cases hs : x.selection with
    | nil => rw [hs] at hf; injection hf with _ hf; cases hf
    | cons a sel =>
      rw [hs] at hf
      obtain ⟨g1, g2⟩ := fillPush_fell (key := key) hk a 0 _ [] (w := W.lock tbl) ht rfl hf
      have hfirst : (∃ r r', x.rowNo 0 = .ok r ∧ updateRow fl own r = .ok r') ↔ ∃ r, x.BeginsWith fl own [r] := by
        constructor
        · rintro ⟨r, r', h1, h2⟩
          have hc : ∀ j, (((S t).C j).toList (x.data j))[0]? = some (r j) := by
            by_contra hcon
            push Not at hcon
            by_cases hsh : x.ShortAt 0
            · rw [rowNo_short hsh] at h1; cases h1
            · have hall : ∀ j, 0 < (((S t).C j).toList (x.data j)).length := by
                intro j; by_contra hc; exact hsh ⟨j, by omega⟩
              have : x.rowNo 0 = .ok (fun j => (((S t).C j).toList (x.data j))[0]'(hall j)) :=
                rowNo_some (fun j => List.getElem?_eq_getElem (hall j))
              rw [this] at h1
              injection h1 with h1; subst h1
              obtain ⟨j, hj⟩ := hcon
              exact hj (List.getElem?_eq_getElem (hall j))
          have hmap : ∀ o ∈ own, ((fl o.parent).remap (o.key (r o.col))).isSome = true := by
            intro o ho
            by_contra hn
            have hnone : (fl o.parent).remap (o.key (r o.col)) = none := by simpa using hn
            rw [updateRow_err own hnd r ⟨o, ho, hnone⟩] at h2; cases h2
          obtain ⟨r2, h3, h4⟩ := updateRow_ok (fl := fl) own hnd r hmap
          refine ⟨r2, fun k hk => ?_⟩
          simp only [List.length_singleton] at hk
          have : k = 0 := by omega
          subst this
          exact ⟨r, hc, h4⟩
        · rintro ⟨r, hb⟩
          obtain ⟨r0, h1, h2⟩ := good_entry hnd hb 0 (by simp)
          exact ⟨r0, r, h1, by simpa using h2⟩
      rw [hfirst] at g1
      replace g1 : w.changes.isEmpty = false ↔ (∃ r, x.BeginsWith fl own [r]) ∧ (HasGap tbl ∨ tbl.len ≤ (S t).max) := g1
      refine ⟨p, ?_, ?_⟩
      · rw [← g1, ← h]
        unfold W.unwind W.drop
        by_cases hc : w.changes.isEmpty = false
        · rw [if_pos ⟨hk, hc⟩]; simp [hc]
        · rw [if_neg (fun h => hc h.2)]; simp [hc]
      · intro hn
        have hc : ¬ w.changes.isEmpty = false := fun h => hn (g1.1 h)
        refine ⟨w.tbl, ?_, fun hp => g2 (by simpa using hc) hp⟩
        rw [← h]
        unfold W.unwind W.drop
        rw [if_neg (fun h => hc h.2)]

/-- C80: if there are fewer unused ids than entries, restoring into a consistent table panics; so by the theorem above it ends
the process if the first entry is good and there is an id for it. -/
theorem C80_too_many_rows {t : T} (hk : (S t).kind = .consistent) (fl : T → FlushLock) (noTrackers : Bool) {sig : Sig}
    {own : List (Own S t)} (x : Extraction (S t)) (hx : x.Matches sig) (tbl : Tbl (S t)) (ht : Reach (key t) true tbl)
    (hmany : ∀ ids : List Nat, ids.Nodup → (∀ i ∈ ids, i ≤ (S t).max ∧ tbl.contains i = false) → ids.length < x.selection.length) :
    ∃ f, restoreUpToFlush (key t) fl noTrackers sig own x tbl = .fell f := by
  have hk' : (S t).kind ≠ .sorted := by rw [hk]; decide
  unfold restoreUpToFlush
  rw [validate_matches hx]
  simp only []
  unfold fillExtract
  rw [if_neg hk']
  rcases hf : fillPush fl own x noTrackers x.selection.zipIdx [] (W.lock tbl) with ⟨w, q⟩
  cases q with
  | error p => exact ⟨_, rfl⟩
  | ok rm =>
    exfalso
    have he := (wout_fillPush fl own x noTrackers x.selection.zipIdx [] (W.lock tbl)).symm.trans (wout_ok.2 hf)
    obtain ⟨ids, rows, h1, h2, h3⟩ := restorePush_added (key := key) hk' _ (w := W.lock tbl) ht [] rm he
    have hlt := hmany ids (h2.asc.imp (fun h => Nat.ne_of_lt h)) (fun i hi => ⟨?_, h2.fresh i hi⟩)
    · rw [h3, List.length_zipIdx] at hlt; omega
    · obtain ⟨L, hL⟩ := h1.wf
      obtain ⟨k, hk2, rfl⟩ := List.getElem_of_mem hi
      have hkr : k < rows.length := by rw [← h2.len]; exact hk2
      have hv := h2.new (ids[k], rows[k]) (by
        rw [List.mem_iff_getElem]
        exact ⟨k, by simp [hk2, hkr], by simp⟩)
      have : w.tbl.contains ids[k] = true := by rw [hL.contains_view, hv]; rfl
      have := ((hL.contains_iff _).1 this).1
      have := hL.rep.le
      omega

/-- C80: a sorted table takes all rows of an extraction or, if any entry lacks a value, none. -/
theorem C80_sorted {t : T} (hk : (S t).kind = .sorted) (fl : T → FlushLock) {sig : Sig} {own : List (Own S t)} (x : Extraction (S t))
    (hx : x.Matches sig) (tbl : Tbl (S t)) (k : Nat) (hl : k < x.selection.length) (hbad : x.ShortAt k) :
    restoreUpToFlush (key t) fl true sig own x tbl = .fell (.unwound .unwrapNone tbl) := by
  have hmap : ∀ l : List Nat, k ∈ l → l.mapM x.rowNo = .error .unwrapNone := by
    intro l
    induction l with
    | nil => intro h; cases h
    | cons a l ih =>
      intro h
      rw [List.mapM_cons]
      by_cases ha : x.ShortAt a
      · rw [rowNo_short ha]; rfl
      · have hall : ∀ j, a < (((S t).C j).toList (x.data j)).length := by
          intro j; by_contra hc; exact ha ⟨j, by omega⟩
        have hok : x.rowNo a = .ok (fun j => (((S t).C j).toList (x.data j))[a]'(hall j)) :=
          rowNo_some (fun j => List.getElem?_eq_getElem (hall j))
        have hk : k ∈ l := by
          rcases List.mem_cons.1 h with rfl | h
          · exact absurd hbad ha
          · exact h
        rw [hok, okBind, ih hk]; rfl
  unfold restoreUpToFlush
  rw [validate_matches hx]
  simp only []
  unfold fillExtract
  rw [if_pos hk, if_pos rfl, wr_err (x := Wr.onTbl (Cr.lift ((List.range x.selection.length).mapM x.rowNo))) (w1 := W.lock tbl)
    (p := .unwrapNone) (by unfold Wr.onTbl Cr.lift; rw [hmap _ (List.mem_range.2 hl)])]
  simp only []
  unfold W.unwind W.drop
  rw [if_neg (by rw [hk]; simp)]
  rfl

/-! Extractions whose second column was cut short: of the parents (consistent), of the grandchildren (sorted) and of a bag. -/

/-- The extraction with its second column cut. -/
def cutTo (k : Nat) (x : Extraction (UniS 0)) : Extraction (UniS 0) :=
  { x with data := fun j => match j with | 0 => x.data 0 | 1 => (show List Nat from x.data 1).take k }

/-- What restoring two parents into their table, from an extraction cut to `k` rows, comes to. -/
def uniCut (k : Nat) : String ⊕ List (Option (Nat × Nat)) :=
  match (uniTbl 0).extractSelection (uniSig 0) (.these [2, 0]) with
  | .error _ => .inl "extract"
  | .ok x =>
    match restoreUpToFlush (uniKey 0) uniUni.fl false (uniSig 0) [] (cutTo k x) (uniTbl 0) with
    | .returned _ _ => .inl "returned"
    | .flushes w _ => .inr (uniView w.tbl 5)
    | .fell (.aborted _) => .inl "aborted"
    | .fell (.held _) => .inl "held"
    | .fell (.unwound _ y) => .inr (uniView y 5)

/-- Whole: two rows more. One value missing: the process ends. All missing: nothing happens. -/
example : uniCut 2 = .inr [some (10, 0), some (11, 0), some (12, 0), some (12, 0), some (10, 0)] ∧ uniCut 1 = .inl "aborted" ∧
    uniCut 0 = .inr [some (10, 0), some (11, 0), some (12, 0), none, none] := by decide

/-- The extraction of the two rows, cut after the first, meets the premises of `C80_consistent`. -/
example : ∃ x : Extraction (UniS 0), (UniS 0).kind = .consistent ∧ x.Matches (uniSig 0) ∧ Reach (uniKey 0) true (uniTbl 0) ∧
    x.BeginsWith uniUni.fl [] [uniRow 0 12 0] ∧ 1 < x.selection.length ∧ x.ShortAt 1 ∧ (uniTbl 0).len + 1 ≤ (UniS 0).max + 1 := by
  refine ⟨⟨0, "demo", "parents", 3, (uniSig 0).columns, [2, 0], fun j => match j with | 0 => ([12, 10] : List Nat) | 1 => ([0] : List Nat)⟩,
    rfl, ⟨rfl, rfl, rfl, rfl, rfl⟩, uniTbl_reach 0, ?_, by decide, ⟨1, by decide⟩, by decide⟩
  intro k hk
  have : k = 0 := by simpa using hk
  subst this
  refine ⟨uniRow 0 12 0, ?_, ?_⟩
  · intro j
    match j with
    | 0 => rfl
    | 1 => rfl
  · exact ⟨by simp, fun _ _ => rfl⟩

/-- A table of that kind, as the only table of its universe. -/
abbrev Alone (kind : Kind) : Unit → Schema := fun _ => Demo kind 255

def aloneSig : Sig := ⟨"demo", "alone", 1, [⟨"a", "Vec<u32>", 0⟩, ⟨"b", "Vec<bool>", 0⟩, ⟨"c", "Vec<u32>", 0⟩]⟩

/-- What restoring all of a table's rows into it, from an extraction whose third column is cut to `k`, comes to. -/
def aloneCut {kind : Kind} (k : Nat) (tbl : Tbl (Demo kind 255)) : String ⊕ List (Option (Nat × Bool × Nat)) :=
  match tbl.extractSelection aloneSig .all with
  | .error _ => .inl "extract"
  | .ok x =>
    let x : Extraction (Alone kind ()) :=
      { x with data := fun j => match j with | 0 => x.data 0 | 1 => x.data 1 | 2 => (show List Nat from x.data 2).take k }
    match restoreUpToFlush (t := ()) demoKey (fun _ => FlushLock.new) true aloneSig [] x tbl with
    | .returned _ y => .inr (demoView y 8)
    | .flushes w _ => .inr (demoView w.tbl 8)
    | .fell (.unwound _ y) => .inr (demoView y 8)
    | .fell _ => .inl "gone"

/-- A bag keeps what it took before the bad entry; a sorted table takes nothing. -/
example : bagTbl.len = 4 ∧ aloneCut 2 bagTbl = .inr (demoView bagTbl 4 ++ demoView bagTbl 2 ++ [none, none]) := by decide +kernel

example : aloneCut 2 sortedTbl = .inr (demoView sortedTbl 8) := by decide

end V11
