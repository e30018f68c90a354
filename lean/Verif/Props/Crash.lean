import Verif.Lemmas.Keep
import Verif.Props.Demo

/-!
# What panics leave behind (C70)
-/

set_option linter.unusedSimpArgs false
set_option linter.unusedSectionVars false
set_option linter.unusedVariables false

namespace V11
variable {S : Schema} [LS : LawfulSchema S] [LV : LeavesSchema S] {K : Type} [LinearOrder K] {key : Row S → K}

section
omit LS
variable [LN : LenSchema S]

/-- C70: whatever calls panicked before, and whatever the caller's closures and iterators do, no call reads or writes
outside a column: neither an unchecked access (undefined behaviour) nor a checked one. -/
theorem C70_no_access_out_of_bounds (t : Tbl S) (ht : Salvaged key t) (op : COp S) :
    (op.run key t).2 ≠ .error .ub ∧ (op.run key t).2 ≠ .error .vecOob :=
  ((Tri.run key op) t ht.torn trivial).2.1

/-- C70: the same for reading a row. -/
theorem C70_reads (t : Tbl S) (ht : Salvaged key t) (i : Nat) (hi : i ≤ S.max) :
    t.getRow i ≠ .error .ub ∧ t.getRow i ≠ .error .vecOob := Torn.getRow ht.torn hi

/-- C70: every column covers every id below `len()` that the row-id type can hold, and if no column is indexed all
columns are equally long. -/
theorem C70_column_lengths (t : Tbl S) (ht : Salvaged key t) (j : Fin (S.n + 1)) :
    min t.len (S.max + 1) ≤ (S.C j).len (t.cols j) ∧
    ((∀ k, (S.C k).find = none) → (S.C j).len (t.cols j) = t.len) := by
  obtain ⟨c, d, h⟩ := ht.torn
  have h0 : t.len = c ∧ (BeforeIndex S 0) ∨ t.len = d := by
    rcases index_cases (S := S) 0 with h0 | h0 | h0
    · exact Or.inl ⟨h.before 0 h0, h0⟩
    · exact Or.inr (h.first 0 h0)
    · exact absurd h0 not_after_zero
  have hle := h.le
  refine ⟨?_, fun hn => ?_⟩
  · rcases index_cases (S := S) j with hj | hj | hj
    · rw [h.before j hj]
      rcases h0 with h0 | h0
      · omega
      · rcases index_cases (S := S) 0 with h1 | h1 | h1
        · have := h.before 0 h1
          have e : t.len = (S.C 0).len (t.cols 0) := rfl
          omega
        · exact absurd h1.1 (hj 0 (Fin.zero_le j))
        · exact absurd h1 not_after_zero
    · rw [h.first j hj]; omega
    · rw [h.after j hj]; omega
  · have hb : ∀ k, BeforeIndex S k := fun k i _ => by simp [Indexed, hn i]
    rw [h.before j (hb j)]
    exact (h.before 0 (hb 0)).symm

end

/-- C70: unless a row id overflowed, the columns of a table left by panics are aligned: all have `len()` elements. -/
theorem Survived.aligned {t : Tbl S} (ht : Survived key t) : ∃ L d, Aligned t L d := by
  induction ht with
  | new => exact (Reach.new (key := key) (clean := true)).aligned
  | @step t op _ ha hn ih =>
    rcases ((Keep.run key op ha) t ih trivial).1 with h | h
    · exact absurd h hn
    · exact h

/-- C70: unless a row id overflowed, a table left by panics is as good as any: all columns have `len()` elements, every row that is
there can be read, and a table that is not consistent holds a list of rows. -/
theorem C70_survived (t : Tbl S) (ht : Survived key t) :
    (∀ j, (S.C j).len (t.cols j) = t.len) ∧ t.len ≤ S.max + 1 ∧
    (∀ i, t.contains i = true → ∃ r, t.getRow i = .ok r) ∧
    (S.kind ≠ .consistent → ∃ L, Holds t L) := by
  obtain ⟨L, d, h⟩ := ht.aligned
  refine ⟨fun j => by rw [h.rep.colLen, h.rep.len], by rw [h.rep.len]; exact h.rep.le, fun i hi => ?_, fun hk => ?_⟩
  · have hl : i < L.length ∧ i ∉ t.free := by
      unfold Tbl.contains at hi
      by_cases hk : S.kind = .consistent
      · rw [if_pos hk, h.rep.len] at hi
        simpa using hi
      · rw [if_neg hk, h.rep.len] at hi
        exact ⟨by simpa using hi, by rw [(h.kind hk).1]; simp⟩
    refine ⟨L[i]'hl.1, ?_⟩
    unfold Tbl.getRow
    rw [h.check, if_neg (by have := hl.1; omega), if_neg hl.2, okBind, h.rep.rowAt hl.1]
  · exact ⟨L, (h.wf hk).holds' hk⟩

/-- C70: indexes too: `find` and `range` of a non-consistent table left by panics answer as if nothing had happened. -/
theorem C70_index_survives (t : Tbl S) (ht : Survived key t) (hk : S.kind ≠ .consistent) (L : List (Row S)) (hL : Holds t L)
    (j : Fin (S.n + 1)) (find : (S.C j).σ → S.E j → R (List Nat)) (hf : (S.C j).find = some find) (e : S.E j) :
    ∃ ids, find (t.cols j) e = .ok ids ∧ ids.Pairwise (· < ·) ∧
      ∀ i, i ∈ ids ↔ i < S.max ∧ ∃ r, L[i]? = some r ∧ r j = e := by
  obtain ⟨L', d, h⟩ := ht.aligned
  have hw := h.wf hk
  rw [hL.unique (hw.holds' hk)]
  obtain ⟨l, h1, h2, h3⟩ := (LS.law j).find_ok hf e (hw.rep.inv j)
  refine ⟨l, h1, h2, fun i => ?_⟩
  rw [h3, hw.rep.abs, List.getElem?_map, Option.map_eq_some_iff, (h.kind hk).1]
  constructor
  · rintro ⟨a, b, -⟩; exact ⟨a, b⟩
  · rintro ⟨a, b⟩; exact ⟨a, b, by simp⟩

omit LS in
/-- C70: this model says the same as the one the other properties are about: a call in which the caller's code does not
panic returns the same table, or panics the same way. -/
theorem C70_agrees (t : Tbl S) (op : TOp S) :
    (∀ t', op.run key t = .ok t' ↔ op.toC.run key t = (t', .ok ())) ∧
    (∀ p, op.run key t = .error p ↔ (op.toC.run key t).2 = .error p) := by
  have e : (op.toC.run key).out t = justTbl (op.run key t) := by
    have hret : ∀ {α : Type} (x : Cr S α) (r : R (Tbl S × α)), x.out t = r →
        (x >>= fun _ => Cr.ret ()).out t = justTbl (r >>= fun p => .ok p.1) := by
      intro α x r h
      rw [out_bind, h]
      cases r <;> rfl
    cases op with
    | push row =>
      have := hret (Cr.push row) _ (out_push row (W.lock t))
      refine Eq.trans this ?_
      unfold justTbl
      rw [bindAssoc, bindAssoc]
      show _ = (((W.lock t).push row >>= fun p => .ok p.1.tbl) >>= _)
      rw [bindAssoc]
      exact bindCongr (fun p _ => rfl)
    | pushArray rows =>
      have := hret (Cr.pushArray (rows.map some)) _ (out_pushArray rows (W.lock t))
      refine Eq.trans this ?_
      unfold justTbl
      rw [bindAssoc, bindAssoc]
      show _ = (((W.lock t).pushArray rows >>= fun p => .ok p.1.tbl) >>= _)
      rw [bindAssoc]
      exact bindCongr (fun p _ => rfl)
    | set j i v => exact out_setCell j i v t
    | remove sel => exact out_removeSel sel t
    | bagDelete i => exact out_bagDelete i t
    | clearRaw => exact out_clearRaw t
    | retain f => exact out_merge0 (fun t i (s : Unit) => (.cont (!(f t i)) [], s)) () t
    | visit f => exact out_merge0 (fun t i (_ : Unit) => (f t i, ())) () t
    | merge rows =>
      have := hret _ _ (out_mergeLogged key rows t)
      refine Eq.trans ?_ this
      rfl
    | removeRows ids => exact out_removeRows ids t
  constructor
  · intro t'
    rw [← out_ok, e]
    cases op.run key t <;> simp [justTbl, okBind, errBind]
  · intro p
    rw [← out_err, e]
    cases op.run key t <;> simp [justTbl, okBind, errBind]

omit LS in
theorem TOp.allowed_toC (op : TOp S) (h : op.Allowed S.kind) : op.toC.Allowed S := by
  cases op <;> exact h

omit LS in
/-- C70: so every table of the other properties is one of these. -/
theorem C70_reach {c : Bool} (t : Tbl S) (ht : Reach key c t) : Salvaged key t ∧ Survived key t := by
  induction ht with
  | new => exact ⟨.new, .new⟩
  | @step t t' op _ ha _ hr ih =>
    have e := ((C70_agrees t op).1 t').1 hr
    refine ⟨?_, ?_⟩
    · have := Salvaged.step (op := op.toC) ih.1 (op.allowed_toC ha)
      rwa [e] at this
    · have := Survived.step (op := op.toC) ih.2 (op.allowed_toC ha) (by rw [e]; simp)
      rwa [e] at this

/-! ## Examples -/

/-- What a sequence of calls leaves, all panics caught. -/
def leftBy (key : Row S → K) (ops : List (COp S)) : Tbl S := ops.foldl (fun t op => (op.run key t).1) Tbl.new

omit LS in
theorem leftBy_salvaged (ops : List (COp S)) (h : ∀ op ∈ ops, op.Allowed S) : Salvaged key (leftBy key ops) := by
  have : ∀ t, Salvaged key t → (∀ op ∈ ops, op.Allowed S) → Salvaged key (ops.foldl (fun t op => (op.run key t).1) t) := by
    clear h
    induction ops with
    | nil => intro t ht _; exact ht
    | cons op ops ih => intro t ht h; exact ih _ (.step ht (h op (by simp))) (fun op ho => h op (by simp [ho]))
  exact this _ .new h

/-- A third push where ids end at 1: the columns are left with 3, 2 and 2 rows, the length is 3, and a read of row 2 is refused
by the bit vector's own check rather than going out of bounds of the value column. -/
def tornTbl : Tbl (Demo .append 1) :=
  leftBy demoKey [.push (demoRow 5 true 1), .push (demoRow 6 false 2), .push (demoRow 7 true 3)]

theorem tornTbl_salvaged : Salvaged demoKey tornTbl := leftBy_salvaged _ (by simp [COp.Allowed])

example : (tornTbl.len, (vecCol Nat).len (tornTbl.cols 0).inner, boolCol.len (tornTbl.cols 1), (vecCol Nat).len (tornTbl.cols 2)) = (3, 3, 2, 2) := by
  decide
example : (tornTbl.getRow 1).toOption.map demoVals = some (6, false, 2) := by decide
/-- `C70_reads` is about ids the row-id type can hold; 2 is none. -/
example : (tornTbl.getRow 2).toOption.map demoVals = none := by decide
example (op : COp (Demo .append 1)) : (op.run demoKey tornTbl).2 ≠ .error .ub := (C70_no_access_out_of_bounds tornTbl tornTbl_salvaged op).1

/-- A closure that panics on the third row of a bag, after dropping the first. -/
def burst : COp (Demo .bag) := .retain fun t i => if i = 2 then none else some (i ≠ 0)

example : (burst.run demoKey bagTbl).2 = .error .userPanic := by decide
theorem burst_survived : Survived demoKey (burst.run demoKey bagTbl).1 :=
  .step (C70_reach (c := true) _ bagTbl_reach).2 (by simp [COp.Allowed, burst]) (by decide)
/-- The second row is there twice. -/
example : demoDump (burst.run demoKey bagTbl).1 = .ok [(5, false, 1), (5, false, 1), (5, true, 2), (9, false, 3)] := by decide
example : ∃ L, Holds (burst.run demoKey bagTbl).1 L := (C70_survived _ burst_survived).2.2.2 (by decide)

end V11
