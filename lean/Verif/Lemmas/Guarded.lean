import Verif.Lemmas.System
import Verif.Lemmas.Iter
import Verif.Lemmas.Reach
import Verif.Spec.Mutex

/-!
# Programs that touch rows only through guards they have

`Careful` is a weakest precondition like `Tidy`, without the lock order: rows are touched only under the right guard, what is
stored is a table some history produces, and no unchecked access is out of bounds. `A` are the tables that may be asked for with
`try_write` or `try_read`.
-/

set_option linter.unusedSectionVars false
set_option linter.unusedVariables false

namespace V11
variable {T : Type} [DecidableEq T] {S : T → Schema} [LS : ∀ t, LawfulSchema (S t)] {K : Type} [LinearOrder K]
  {key : (t : T) → Row (S t) → K} {cfg : Cfg S} {A : T → Prop}

/-- A write guard of a table cannot be granted to a thread that has a guard of it. -/
def Grantable (h : List (Lk T × Mode)) (l : Lk T) (m : Mode) : Prop :=
  ∀ t, l = .tbl t → m = .wr → ∀ m', (l, m') ∉ h

def Careful (A : T → Prop) (key : (t : T) → Row (S t) → K) {α : Type} : List (Lk T × Mode) → Prog S α → (List (Lk T × Mode) → α → Prop) → Prop
  | h, .ret a, Q => Q h a
  | _, .fail p, _ => p ≠ .ub
  | h, .acq l m k, Q => Grantable h l m → Careful A key ((l, m) :: h) k Q
  | h, .att t m yes no, Q => A t ∧ (Grantable h (.tbl t) m → Careful A key ((.tbl t, m) :: h) yes Q) ∧ ∀ e, Careful A key h (no e) Q
  | h, .rel l m k, Q => (l, m) ∈ h ∧ Careful A key (h.erase (l, m)) k Q
  | h, .get t k, Q => (∃ m, (.tbl t, m) ∈ h) ∧ ∀ x, Reach (key t) false x → Careful A key h (k x) Q
  | h, .put t x k, Q => (.tbl t, .wr) ∈ h ∧ Reach (key t) false x ∧ Careful A key h k Q
  | h, .getF t k, Q => (∃ m, (.fl t, m) ∈ h) ∧ ∀ f, Careful A key h (k f) Q
  | h, .putF t f k, Q => (.fl t, .wr) ∈ h ∧ Careful A key h k Q
  | h, .forget t k, Q => (.fl t, .rd) ∈ h ∧ Careful A key (h.erase (.fl t, .rd)) k Q
  | h, .see _ _ _ _ k, Q => Careful A key h k Q

theorem Careful.bind {α β : Type} {p : Prog S α} {f : α → Prog S β} {h : List (Lk T × Mode)}
    {Q : List (Lk T × Mode) → α → Prop} {Q' : List (Lk T × Mode) → β → Prop}
    (hp : Careful A key h p Q) (hq : ∀ h a, Q h a → Careful A key h (f a) Q') : Careful A key h (p >>= f) Q' := by
  change Careful A key h (p.bind f) Q'
  induction p generalizing h with
  | ret a => exact hq _ _ hp
  | fail p => exact hp
  | acq l m k ih => exact fun hg => ih (hp hg)
  | att t m yes no ih1 ih2 => exact ⟨hp.1, fun h => ih1 (hp.2.1 h), fun e => ih2 e (hp.2.2 e)⟩
  | rel l m k ih => exact ⟨hp.1, ih hp.2⟩
  | get t k ih => exact ⟨hp.1, fun x hx => ih x (hp.2 x hx)⟩
  | put t x k ih => exact ⟨hp.1, hp.2.1, ih hp.2.2⟩
  | getF t k ih => exact ⟨hp.1, fun x => ih x (hp.2 x)⟩
  | putF t x k ih => exact ⟨hp.1, ih hp.2⟩
  | forget t k ih => exact ⟨hp.1, ih hp.2⟩
  | see p o ev rows k ih => exact ih hp

theorem Careful.mono {α : Type} {p : Prog S α} {h : List (Lk T × Mode)} {Q Q' : List (Lk T × Mode) → α → Prop}
    (hp : Careful A key h p Q) (hq : ∀ h a, Q h a → Q' h a) : Careful A key h p Q' := by
  induction p generalizing h with
  | ret a => exact hq _ _ hp
  | fail p => exact hp
  | acq l m k ih => exact fun hg => ih (hp hg)
  | att t m yes no ih1 ih2 => exact ⟨hp.1, fun h => ih1 (hp.2.1 h), fun e => ih2 e (hp.2.2 e)⟩
  | rel l m k ih => exact ⟨hp.1, ih hp.2⟩
  | get t k ih => exact ⟨hp.1, fun x hx => ih x (hp.2 x hx)⟩
  | put t x k ih => exact ⟨hp.1, hp.2.1, ih hp.2.2⟩
  | getF t k ih => exact ⟨hp.1, fun x => ih x (hp.2 x)⟩
  | putF t x k ih => exact ⟨hp.1, ih hp.2⟩
  | forget t k ih => exact ⟨hp.1, ih hp.2⟩
  | see p o ev rows k ih => exact ih hp

theorem Careful.ofR {α : Type} {r : R α} {h : List (Lk T × Mode)} {Q : List (Lk T × Mode) → α → Prop}
    (hu : r ≠ .error .ub) (hq : ∀ a, r = .ok a → Q h a) : Careful A key h (Prog.ofR r) Q := by
  cases r with
  | error p => exact fun e => hu (by rw [e])
  | ok a => exact hq a rfl

theorem Careful.ite {α : Type} {c : Prop} [Decidable c] {p q : Prog S α} {h : List (Lk T × Mode)}
    {Q : List (Lk T × Mode) → α → Prop} (hp : c → Careful A key h p Q) (hq : ¬ c → Careful A key h q Q) :
    Careful A key h (if c then p else q) Q := by
  split
  · exact hp ‹_›
  · exact hq ‹_›

/-! ## No unchecked access out of bounds -/

section
variable {S : Schema} [LS : LawfulSchema S] {K : Type} [LinearOrder K] {key : Row S → K}

theorem bind_safe {α β : Type} {r : R α} {f : α → R β} (h1 : r ≠ .error .ub) (h2 : ∀ a, r = .ok a → f a ≠ .error .ub) :
    (r >>= f) ≠ .error .ub := by
  cases r with
  | error p => rw [errBind]; intro e; injection e with e; subst e; exact h1 rfl
  | ok a => rw [okBind]; exact h2 a rfl

theorem foldlM_safe {α β : Type} {f : β → α → R β} (l : List α) (b : β) (h : ∀ b, ∀ a ∈ l, f b a ≠ .error .ub) :
    l.foldlM f b ≠ .error .ub := by
  induction l generalizing b with
  | nil => intro e; cases e
  | cons a l ih =>
    rw [List.foldlM_cons]
    exact bind_safe (h b a List.mem_cons_self) (fun b' _ => ih b' (fun b a ha => h b a (List.mem_cons_of_mem _ ha)))

theorem run_safe {c : Bool} {t : Tbl S} (ht : Reach key c t) (op : TOp S) (ha : op.Allowed S.kind) : op.run key t ≠ .error .ub := by
  obtain ⟨L, d, h⟩ := ht.aligned
  rcases aligned_total key h ha with ⟨t1, L1, d1, e1, -⟩ | ⟨p, e1, hp⟩
  · rw [e1]; simp
  · rw [e1]; intro he; injection he with he; subst he; simp [opPanics] at hp

/-- What a call does to the rows, without the change list. -/
def rowsOf {α : Type} (r : R (W S × α)) : R (Tbl S × α) := r >>= fun y => .ok (y.1.tbl, y.2)

theorem rowsOf_err {α : Type} {r : R (W S × α)} {p : Panic} : rowsOf r = .error p ↔ r = .error p := by
  cases r with
  | error q =>
    constructor
    · intro h
      replace h : (Except.error q : R (Tbl S × α)) = .error p := h
      injection h with h; rw [h]
    · intro h
      injection h with h; rw [h]; rfl
  | ok y => exact ⟨fun h => (by cases h), fun h => (by cases h)⟩

theorem pushEnd_same {w v : W S} (h : w.tbl = v.tbl) (row : Row S) : rowsOf (w.pushEnd row) = rowsOf (v.pushEnd row) := by
  unfold W.pushEnd
  rw [h]
  cases v.tbl.pushOnly row with
  | error q => rfl
  | ok y =>
    simp only [okBind, rowsOf]
    rw [eventAdd_tbl, eventAdd_tbl]

theorem push_same {w v : W S} (h : w.tbl = v.tbl) (row : Row S) : rowsOf (w.push row) = rowsOf (v.push row) := by
  unfold W.push
  rw [h]
  cases hf : v.tbl.free with
  | nil => exact pushEnd_same h row
  | cons old rest =>
    simp only []
    rw [eventAdd_tbl, eventAdd_tbl]
    simp only []
    cases Tbl.swapOutRow { v.tbl with free := BSet.erase old (old :: rest) } old row <;> rfl

theorem pushArrayLoop_same {w v : W S} (h : w.tbl = v.tbl) (i : Nat) (rows : List (Row S)) :
    rowsOf (W.pushArrayLoop w i rows) = rowsOf (W.pushArrayLoop v i rows) := by
  induction rows generalizing w v i with
  | nil => unfold W.pushArrayLoop rowsOf; rw [okBind, okBind, h]
  | cons r rs ih =>
    unfold W.pushArrayLoop W.pushEnd
    rw [h]
    cases v.tbl.pushOnly r with
    | error q => rfl
    | ok y =>
      simp only [okBind]
      refine ih ?_ _
      rw [eventAdd_tbl, eventAdd_tbl]

theorem pushArray_same {w v : W S} (h : w.tbl = v.tbl) (rows : List (Row S)) : rowsOf (w.pushArray rows) = rowsOf (v.pushArray rows) := by
  cases rows with
  | nil => unfold W.pushArray rowsOf; simp only [okBind]; rw [h]
  | cons r rs =>
    simp only [W.pushArray, W.pushEnd]
    rw [h]
    cases v.tbl.pushOnly r with
    | error q => rfl
    | ok y =>
      simp only [okBind]
      have := pushArrayLoop_same (w := ({ w with tbl := y.1 } : W S).eventAdd y.2) (v := ({ v with tbl := y.1 } : W S).eventAdd y.2)
        (by rw [eventAdd_tbl, eventAdd_tbl]) y.2 rs
      revert this
      generalize W.pushArrayLoop (({ w with tbl := y.1 } : W S).eventAdd y.2) y.2 rs = a
      generalize W.pushArrayLoop (({ v with tbl := y.1 } : W S).eventAdd y.2) y.2 rs = b
      intro hab
      cases a with
      | error q =>
        cases b with
        | error q' => injection hab with hab; subst hab; rfl
        | ok z => cases hab
      | ok z =>
        cases b with
        | error q' => cases hab
        | ok z' =>
          injection hab with hab
          injection hab with h1 h2
          simp only [okBind]
          rw [h2]
          cases nextId S.max z'.2 with
          | error q => rfl
          | ok e => show Except.ok _ = Except.ok _; rw [h1]

theorem push_safe {c : Bool} {w : W S} (ht : Reach key c w.tbl) (hk : S.kind ≠ .sorted) (row : Row S) : w.push row ≠ .error .ub := by
  intro e
  refine run_safe (key := key) ht (.push row) hk ?_
  have := push_same (w := w) (v := W.lock w.tbl) rfl row
  rw [rowsOf_err.2 e] at this
  simp only [TOp.run]
  rw [rowsOf_err.1 this.symm]; rfl

theorem pushArray_safe {c : Bool} {w : W S} (ht : Reach key c w.tbl) (hk : S.kind ≠ .sorted) (rows : List (Row S)) : w.pushArray rows ≠ .error .ub := by
  intro e
  refine run_safe (key := key) ht (.pushArray rows) hk ?_
  have := pushArray_same (w := w) (v := W.lock w.tbl) rfl rows
  rw [rowsOf_err.2 e] at this
  simp only [TOp.run]
  rw [rowsOf_err.1 this.symm]; rfl

theorem check_safe (t : Tbl S) (i : Nat) : t.check i ≠ .error .ub := by
  unfold Tbl.check
  split
  · simp
  · split <;> simp

theorem clear_safe {c : Bool} {w : W S} (ht : Reach key c w.tbl) : w.clear ≠ .error .ub := by
  have h0 : w.tbl.clearRaw ≠ .error .ub := run_safe ht .clearRaw trivial
  unfold W.clear
  cases S.kind <;> simp only []
  case consistent => simp
  case sorted => simp
  case list => simp
  all_goals exact bind_safe h0 (fun a _ => by simp)

theorem step_safe {c : Bool} {w : W S} (ht : Reach key c w.tbl) (op : LOp S) (ha : op.Allowed S.kind) : w.step key op ≠ .error .ub := by
  unfold W.step
  cases op with
  | push row => exact bind_safe (push_safe ht ha row) (fun a _ => by simp)
  | pushArray rows => exact bind_safe (pushArray_safe ht ha rows) (fun a _ => by simp)
  | delete i =>
    simp only []
    unfold W.deleteRow
    cases hk : S.kind <;> simp only []
    case consistent => exact bind_safe (check_safe _ _) (fun a _ => by simp)
    case bag =>
      have := run_safe ht (.bagDelete i) hk
      simp only [TOp.run, BagIter.bagDelete] at this
      refine bind_safe (check_safe _ _) (fun a e => bind_safe ?_ (fun b _ => by simp))
      rw [e] at this
      exact this
    all_goals simp
  | clear => exact clear_safe ht
  | select i => simp
  | selectAll => simp
  | set j i v => exact bind_safe (run_safe ht (.set j i v) trivial) (fun a _ => by simp)
  | retain f => exact bind_safe (run_safe ht (.retain f) ha) (fun a _ => by simp)
  | visit f => exact bind_safe (run_safe ht (.visit f) ha) (fun a _ => by simp)
  | merge rows => exact bind_safe (run_safe ht (.merge rows) ha) (fun a _ => by simp)
  | removeRows ids => exact bind_safe (run_safe ht (.removeRows ids) ha) (fun a _ => by simp)

theorem drop_safe (w : W S) : w.drop ≠ .error .ub := by
  unfold W.drop
  split <;> simp

theorem seqFin_safe : {n : Nat} → {σ : Fin n → Type} → (f : (j : Fin n) → R (σ j)) → (∀ j, f j ≠ .error .ub) → seqFin n f ≠ .error .ub
  | 0, _, _, _ => by simp [seqFin]
  | n + 1, σ, f, h => by
    unfold seqFin
    exact bind_safe (h 0) (fun a _ => bind_safe (seqFin_safe _ (fun j => h j.succ)) (fun b _ => by simp))

theorem rowNo_safe (x : Extraction S) (k : Nat) : x.rowNo k ≠ .error .ub := by
  unfold Extraction.rowNo
  refine seqFin_safe _ (fun j => ?_)
  split <;> simp

theorem metaLoop_safe (a b : List ColumnMeta) (i : Nat) (m : Bool) : metaLoop a b i m ≠ .error .ub := by
  induction b generalizing i m with
  | nil => simp [metaLoop]
  | cons c b ih =>
    unfold metaLoop
    refine bind_safe ?_ (fun _ _ => ih _ _)
    unfold checkedGet
    split <;> simp

theorem validate_safe (x : Extraction S) (sig : Sig) : x.validate sig ≠ .error .ub := by
  unfold Extraction.validate
  split
  · simp
  split
  · simp
  split
  · simp
  split
  · simp
  refine bind_safe (metaLoop_safe _ _ _ _) (fun a _ => ?_)
  split <;> simp

end

section
variable {fk : FK S}

theorem joinLoop_safe {t : Tbl (S fk.child)} (ids right : List Nat) (h : ∀ i ∈ ids, t.cellChecked fk.col i ≠ .error .ub) :
    fk.joinLoop t ids right ≠ .error .ub := by
  induction ids generalizing right with
  | nil => simp [FK.joinLoop]
  | cons i is ih =>
    have ih' := fun right => ih right (fun i hi => h i (List.mem_cons_of_mem _ hi))
    unfold FK.joinLoop
    refine bind_safe (h i List.mem_cons_self) (fun e _ => ?_)
    split
    · exact bind_safe (ih' _) (fun _ _ => by simp)
    · exact ih' _
    · simp

theorem fkSelect_safe {c : Bool} {t : Tbl (S fk.child)} (ht : Reach (key fk.child) c t) (sel : Select (List Nat)) :
    fk.select t sel ≠ .error .ub := by
  obtain ⟨L, d, h⟩ := ht.aligned
  unfold FK.select
  cases sel with
  | all => simp
  | these rows =>
    simp only []
    split
    · refine bind_safe ?_ (fun _ _ => by simp)
      unfold FK.selectSorted
      by_cases hl : L.length ≤ (S fk.child).max
      · rw [iterIds_ok h hl, okBind]
        refine joinLoop_safe _ _ (fun i hi => ?_)
        have hi' : i < L.length := by
          unfold liveIds at hi
          have := (List.mem_filter.1 hi).1
          rw [List.mem_range'_1] at this
          omega
        unfold Tbl.cellChecked
        rw [((LS fk.child).law fk.col).index_ok i (h.rep.inv fk.col) (by rw [h.rep.abs]; simpa using hi')]
        simp
      · rw [iterIds_full h (by omega), errBind]; simp
    · refine bind_safe ?_ (fun _ _ => by simp)
      unfold FK.selectIndexed
      split
      · simp
      · rename_i find hfind
        refine foldlM_safe _ _ (fun out k _ => ?_)
        obtain ⟨l, e1, -, -⟩ := ((LS fk.child).law fk.col).find_ok hfind (fk.key.symm k) (h.rep.inv fk.col)
        rw [e1, okBind]; simp

end

theorem updateRow_safe {t : T} (fl : T → FlushLock) (own : List (Own S t)) (row : Row (S t)) : updateRow fl own row ≠ .error .ub := by
  unfold updateRow
  refine foldlM_safe _ _ (fun b o _ => ?_)
  split <;> simp

theorem mergeSingle_safe {t : T} {tb : Tbl (S t)} (ht : Reach (key t) false tb) (hk : (S t).kind = .sorted) (row : Row (S t)) :
    tb.mergeSingle (key t) row ≠ .error .ub := by
  have h := run_safe ht (.merge [row]) hk
  simp only [TOp.run] at h
  unfold Tbl.mergeSingle
  cases e : tb.mergeLogged (key t) [row] with
  | error p =>
    rw [e, errBind] at h
    rw [errBind]
    intro he; injection he with he; subst he; exact h rfl
  | ok y =>
    obtain ⟨a, l⟩ := y
    rw [okBind]
    simp only []
    split <;> simp

theorem mergeSingle_reach {t : T} {tb tb' : Tbl (S t)} (ht : Reach (key t) false tb) (hk : (S t).kind = .sorted) {row : Row (S t)} {i : Nat}
    (he : tb.mergeSingle (key t) row = .ok (tb', i)) : Reach (key t) false tb' := by
  unfold Tbl.mergeSingle at he
  cases e : tb.mergeLogged (key t) [row] with
  | error p => rw [e] at he; cases he
  | ok y =>
    obtain ⟨t1, log⟩ := y
    rw [e, okBind] at he
    refine Reach.step (op := .merge [row]) ht hk (fun h => by cases h) ?_
    show (do let (t, _) ← tb.mergeLogged (key t) [row]; .ok t) = _
    rw [e, okBind]
    match log, he with
    | [j], he => injection he with he; injection he with he1 _; subst he1; rfl

theorem closedReach' : Closed key (fun t x => Reach (key t) false x) :=
  ⟨fun t x y op hx ha hr => Reach.step hx ha (fun h => by cases h) hr⟩

theorem restoreMergeEach_safe {t : T} {fl : T → FlushLock} {own : List (Own S t)} {x : Extraction (S t)} (hk : (S t).kind = .sorted)
    (l : List (Nat × Nat)) {w : W (S t)} (hw : Reach (key t) false w.tbl) (rm : List (Nat × Nat)) :
    restoreMergeEach (key t) fl own x l w rm ≠ .error .ub := by
  induction l generalizing w rm with
  | nil => simp [restoreMergeEach]
  | cons a l ih =>
    obtain ⟨old, k⟩ := a
    unfold restoreMergeEach
    refine bind_safe (rowNo_safe x k) (fun row _ => bind_safe (updateRow_safe _ _ _) (fun row' _ => bind_safe (mergeSingle_safe hw hk row') (fun y hy => ?_)))
    obtain ⟨tb, i⟩ := y
    exact ih (w := { w with tbl := tb }) (mergeSingle_reach hw hk hy) _

theorem restorePush_safe {t : T} {fl : T → FlushLock} {own : List (Own S t)} {x : Extraction (S t)} {b : Bool} (hk : (S t).kind ≠ .sorted)
    (l : List (Nat × Nat)) {w : W (S t)} (hw : Reach (key t) false w.tbl) (rm : List (Nat × Nat)) :
    restorePush fl own x b l w rm ≠ .error .ub := by
  induction l generalizing w rm with
  | nil => simp [restorePush]
  | cons a l ih =>
    obtain ⟨old, k⟩ := a
    unfold restorePush
    refine bind_safe (rowNo_safe x k) (fun row _ => bind_safe (updateRow_safe _ _ _) (fun row' _ => bind_safe (push_safe hw hk row') (fun y hy => ?_)))
    obtain ⟨w1, i⟩ := y
    refine ih (w := w1) ?_ _
    refine closed_step (closedReach' (key := key)) (op := .push row') hk (w := w) ?_ hw
    show (do let (w, _) ← w.push row'; .ok w) = _
    rw [hy, okBind]

theorem mapM_safe {α β : Type} {f : α → R β} (l : List α) (h : ∀ a ∈ l, f a ≠ .error .ub) : l.mapM f ≠ .error .ub := by
  induction l with
  | nil => simp [List.mapM_nil]; exact fun e => by cases e
  | cons a l ih =>
    rw [List.mapM_cons]
    exact bind_safe (h a List.mem_cons_self) (fun _ _ => bind_safe (ih (fun a ha => h a (List.mem_cons_of_mem _ ha))) (fun _ _ e => by cases e))

theorem mergeExtract_safe {t : T} {fl : T → FlushLock} {own : List (Own S t)} {x : Extraction (S t)} {b : Bool} {w : W (S t)}
    (hw : Reach (key t) false w.tbl) : mergeExtract (key t) fl own x b w ≠ .error .ub := by
  unfold mergeExtract
  by_cases hk : (S t).kind = .sorted
  · rw [if_pos hk]
    cases b with
    | true =>
      simp only [if_true]
      refine bind_safe (mapM_safe _ (fun k _ => rowNo_safe x k)) (fun rows _ => bind_safe ?_ (fun _ _ => by simp))
      exact run_safe hw (.merge (sortRows (key t) rows)) hk
    | false =>
      simp only [Bool.false_eq_true, if_false]
      exact restoreMergeEach_safe hk _ hw _
  · rw [if_neg hk]
    exact restorePush_safe hk _ hw _

theorem setRemapping_safe (f : FlushLock) (rm : List (Nat × Nat)) : f.setRemapping rm ≠ .error .ub := by
  unfold FlushLock.setRemapping
  split
  · simp
  · split <;> simp


/-! ## The programs -/

local notation "OK" => Careful A key

theorem cf_lockP {h : List (Lk T × Mode)} {t : T} :
    OK h (lockP t) (fun h' w => h' = (.tbl t, .wr) :: h ∧ Reach (key t) false w.tbl ∧ Grantable h (.tbl t) .wr) :=
  fun hg => ⟨⟨.wr, List.mem_cons_self⟩, fun x hx => ⟨rfl, hx, hg⟩⟩

theorem cf_unlockP {h : List (Lk T × Mode)} {t : T} {x : Tbl (S t)} (hm : (.tbl t, .wr) ∈ h) (hx : Reach (key t) false x) :
    OK h (unlockP t x) (fun h' _ => h' = h.erase (.tbl t, .wr)) :=
  ⟨hm, hx, hm, rfl⟩

theorem cf_peekP {h : List (Lk T × Mode)} {t : T} : OK h (peekP t) (fun h' x => h' = h ∧ Reach (key t) false x) := by
  refine fun _ => ⟨⟨.rd, List.mem_cons_self⟩, fun x hx => ⟨List.mem_cons_self, ?_, hx⟩⟩
  rw [List.erase_cons_head]

theorem cf_lock {h : List (Lk T × Mode)} {l : Lk T} {m : Mode} : OK h (Prog.lock l m) (fun h' _ => h' = (l, m) :: h) := fun _ => rfl

theorem cf_unlock {h : List (Lk T × Mode)} {l : Lk T} {m : Mode} : OK ((l, m) :: h) (Prog.unlock l m) (fun h' _ => h' = h) := by
  refine ⟨List.mem_cons_self, ?_⟩
  show List.erase _ _ = _
  rw [List.erase_cons_head]

/-- `f` returns all guards it takes. -/
def CarefulFlush (A : T → Prop) (key : (t : T) → Row (S t) → K) (f : FlushProg S) : Prop :=
  ∀ (t : T) (ev : Event) (pu de : Bool) (sel : Select (List Nat)) (h : List (Lk T × Mode)), Careful A key h (f t ev pu de sel) (fun h' _ => h' = h)

theorem cf_flushWithP {f : FlushProg S} {t : T} (hf : CarefulFlush A key f) {w : W (S t)} {ev : Event} {h : List (Lk T × Mode)}
    (hm : (.tbl t, .wr) ∈ h) (hw : Reach (key t) false w.tbl) :
    OK h (flushWithP f t w ev) (fun h' _ => h' = h.erase (.tbl t, .wr)) := by
  unfold flushWithP
  refine Careful.ite (fun _ => cf_unlockP hm hw) (fun _ => ?_)
  refine Careful.bind (cf_unlockP hm hw) ?_
  rintro h1 - rfl
  refine Careful.bind cf_lock ?_
  rintro h1 - rfl
  refine Careful.bind (hf t ev _ _ _ _) ?_
  rintro h1 ch rfl
  refine Careful.bind cf_unlock ?_
  rintro h1 - rfl
  refine Careful.ite (fun _ => ?_) (fun _ => rfl)
  refine Careful.bind cf_lockP ?_
  rintro h1 w1 ⟨rfl, hw1, -⟩
  refine Careful.bind (Q := fun h' x => h' = (.tbl t, .wr) :: h.erase (.tbl t, .wr) ∧ Reach (key t) false x) (Careful.ofR ?_ ?_) ?_
  · exact run_safe hw1 (.remove ch) trivial
  · intro x hx
    exact ⟨rfl, Reach.step (op := .remove ch) hw1 trivial (fun h => by cases h) hx⟩
  rintro h1 x ⟨rfl, hx⟩
  have := cf_unlockP (A := A) (key := key) (h := (.tbl t, .wr) :: h.erase (.tbl t, .wr)) List.mem_cons_self hx
  rwa [List.erase_cons_head] at this

theorem cf_tableRemoveRowsP {f : FlushProg S} {t : T} (hf : CarefulFlush A key f) {ev : Event} {rows : Select (List Nat)}
    {h : List (Lk T × Mode)} : OK h (tableRemoveRowsP f t ev rows) (fun h' _ => h' = h) := by
  have fin : ∀ w : W (S t), Reach (key t) false w.tbl → OK ((.tbl t, .wr) :: h) (flushWithP f t w ev) (fun h' _ => h' = h) := by
    intro w hw
    have := cf_flushWithP (ev := ev) hf (h := (.tbl t, .wr) :: h) List.mem_cons_self hw
    rwa [List.erase_cons_head] at this
  have viaOp : ∀ (w : W (S t)) (op : TOp (S t)) (r : R (Tbl (S t))), Reach (key t) false w.tbl → op.Allowed (S t).kind → op.run (key t) w.tbl = r →
      OK ((.tbl t, .wr) :: h) (Prog.ofR r) (fun h' x => h' = (.tbl t, .wr) :: h ∧ Reach (key t) false x) := by
    intro w op r hw ha he
    subst he
    exact Careful.ofR (run_safe hw op ha) (fun x hx => ⟨rfl, Reach.step hw ha (fun h => by cases h) hx⟩)
  have clr : ∀ (w : W (S t)) (x : Tbl (S t)), ((S t).kind = .consistent ∨ (S t).kind = .sorted) → Reach (key t) false x →
      OK ((.tbl t, .wr) :: h) (do let w ← Prog.ofR ({ w with tbl := x } : W (S t)).clear; flushWithP f t w ev) (fun h' _ => h' = h) := by
    intro w x hk hx
    refine Careful.bind (Q := fun h' x => h' = (.tbl t, .wr) :: h ∧ Reach (key t) false x.tbl) (Careful.ofR (clear_safe (key := key t) hx) ?_) ?_
    · intro w' hw'
      refine ⟨rfl, ?_⟩
      rw [clear_tbl_removable hk hw']; exact hx
    rintro h1 w' ⟨rfl, hx⟩
    exact fin _ hx
  unfold tableRemoveRowsP
  cases hk : (S t).kind <;> simp only []
  case consistent =>
    refine Careful.bind cf_lockP ?_
    rintro h1 w ⟨rfl, hw, -⟩
    cases rows with
    | these rows =>
      refine Careful.bind (viaOp w (.remove (.these rows)) _ hw trivial rfl) ?_
      rintro h1 x ⟨rfl, hx⟩
      exact fin _ hx
    | all =>
      refine Careful.bind (viaOp w .clearRaw _ hw trivial rfl) ?_
      rintro h1 x ⟨rfl, hx⟩
      exact clr w x (Or.inl hk) hx
  case sorted =>
    refine Careful.bind cf_lockP ?_
    rintro h1 w ⟨rfl, hw, -⟩
    cases rows with
    | these rows =>
      refine Careful.bind (viaOp w (.removeRows rows) _ hw hk rfl) ?_
      rintro h1 x ⟨rfl, hx⟩
      exact fin _ hx
    | all =>
      refine Careful.bind (viaOp w .clearRaw _ hw trivial rfl) ?_
      rintro h1 x ⟨rfl, hx⟩
      exact clr w x (Or.inr hk) hx
  all_goals exact fun e => by cases e

theorem cf_handlerRunP {f : FlushProg S} {t : T} (hf : CarefulFlush A key f) {hd : Handler} {ev : Event}
    {rows : Select (List Nat)} {h : List (Lk T × Mode)} : OK h (handlerRunP f hd t ev rows) (fun h' _ => h' = h) := by
  unfold handlerRunP
  refine Careful.bind (Q := fun h' _ => h' = h) ?_ ?_
  · unfold handlerNeedsSortP
    cases hd with
    | null => rfl
    | panicking => rfl
    | delete =>
      refine Careful.bind cf_peekP ?_
      rintro h1 x ⟨rfl, -⟩
      rfl
  rintro h1 s rfl
  simp only []
  refine Careful.bind (Q := fun h' _ => h' = h1) ?_ ?_
  · unfold handlerHandleP
    cases hd with
    | null => rfl
    | panicking => exact fun e => by cases e
    | delete =>
      refine Careful.bind cf_peekP ?_
      rintro h2 x ⟨rfl, -⟩
      exact cf_tableRemoveRowsP hf
  rintro h2 - rfl
  refine Careful.bind cf_lock ?_
  rintro h3 - rfl
  refine Careful.bind cf_lock ?_
  rintro h3 - rfl
  refine Careful.bind (hf t ev _ _ _ _) ?_
  rintro h3 - rfl
  refine Careful.bind cf_unlock ?_
  rintro h3 - rfl
  exact cf_unlock

theorem Careful.foldlM {α β : Type} {f : β → α → Prog S β} {h : List (Lk T × Mode)} (l : List α) (b : β)
    (hf : ∀ a ∈ l, ∀ b, OK h (f b a) (fun h' _ => h' = h)) : OK h (l.foldlM f b) (fun h' _ => h' = h) := by
  induction l generalizing b with
  | nil => exact rfl
  | cons a l ih =>
    rw [List.foldlM_cons]
    refine Careful.bind (hf a List.mem_cons_self b) ?_
    rintro h1 b1 rfl
    exact ih b1 (fun a ha => hf a (List.mem_cons_of_mem _ ha))

theorem handler_safe (cfg : Cfg S) (ev : Event) : cfg.handler ev ≠ .error .ub := by
  unfold Cfg.handler
  split <;> simp

theorem cf_doFlushP (cfg : Cfg S) (n : Nat) : CarefulFlush A key (doFlushP cfg n) := by
  induction n with
  | zero => intro t ev pu de sel h; exact fun e => by cases e
  | succ n ih =>
    intro t ev pu de sel h
    unfold doFlushP
    refine Careful.ite (fun _ => fun e => by cases e) (fun _ => ?_)
    refine Careful.bind (Q := fun h' _ => h' = h) (Careful.ofR (handler_safe cfg ev) (fun _ _ => rfl)) ?_
    rintro h1 hd rfl
    refine Careful.bind (Q := fun h' _ => h' = h1) (Careful.foldlM _ _ ?_) ?_
    · intro tr htr st
      unfold flushStepP
      refine Careful.ite (fun _ => rfl) (fun _ => ?_)
      simp only []
      refine Careful.bind (Q := fun h' _ => h' = h1) ?_ (by rintro h2 - rfl; exact rfl)
      unfold trackerHandleP
      cases tr with
      | observer o => exact rfl
      | auto fk =>
        refine Careful.bind cf_peekP ?_
        rintro h2 x ⟨rfl, hx⟩
        refine Careful.bind (Q := fun h' _ => h' = h2) (Careful.ofR (fkSelect_safe hx _) (fun _ _ => rfl)) ?_
        rintro h3 sel rfl
        exact cf_handlerRunP ih
    · rintro h2 st rfl; exact rfl

theorem cf_flushP {n : Nat} {t : T} {w : W (S t)} {ev : Event} {h : List (Lk T × Mode)} (hm : (.tbl t, .wr) ∈ h) (hw : Reach (key t) false w.tbl) :
    OK h (flushP cfg n t w ev) (fun h' _ => h' = h.erase (.tbl t, .wr)) := cf_flushWithP (cf_doFlushP cfg n) hm hw

theorem cf_liveFlushP {n : Nat} {t : T} {w : W (S t)} {ev : Event} {h : List (Lk T × Mode)} (hm : (.tbl t, .wr) ∈ h) (hw : Reach (key t) false w.tbl) :
    OK h (liveFlushP cfg n t w ev) (fun h' w' => h' = h ∧ Reach (key t) false w'.tbl) := by
  unfold liveFlushP
  refine Careful.ite (fun _ => ⟨rfl, hw⟩) (fun _ => ?_)
  refine ⟨hm, hw, ?_⟩
  refine Careful.bind cf_lock ?_
  rintro h1 - rfl
  refine Careful.bind (cf_doFlushP cfg n t ev _ _ _ _) ?_
  rintro h1 ch rfl
  refine Careful.bind (Q := fun h' x => h' = (.fl t, .rd) :: h ∧ Reach (key t) false x) (Careful.ofR ?_ ?_) ?_
  · split
    · exact run_safe hw (.remove ch) trivial
    · simp
  · intro x hx
    refine ⟨rfl, ?_⟩
    split at hx
    · exact Reach.step (op := .remove ch) hw trivial (fun h => by cases h) hx
    · injection hx with hx; subst hx; exact hw
  rintro h1 x ⟨rfl, hx⟩
  refine ⟨List.mem_cons_of_mem _ hm, hx, ⟨.rd, List.mem_cons_self⟩, fun f => ?_⟩
  refine Careful.ite (fun _ => ?_) (fun _ => ?_)
  · refine ⟨List.mem_cons_self, ?_, hx⟩
    rw [List.erase_cons_head]
  · refine ⟨List.mem_cons_self, ?_, hx⟩
    rw [List.erase_cons_head]

theorem cf_readSelectP {n : Nat} {t : T} {ev : Event} {sel : Select (List Nat)} {h : List (Lk T × Mode)} (hm : (.tbl t, .rd) ∈ h) :
    OK h (readSelectP cfg n t ev sel) (fun h' _ => h' = h.erase (.tbl t, .rd)) := by
  unfold readSelectP
  refine Careful.bind (Q := fun h' _ => h' = h.erase (.tbl t, .rd)) ⟨hm, rfl⟩ ?_
  rintro h1 - rfl
  refine Careful.bind cf_lock ?_
  rintro h1 - rfl
  refine Careful.bind (cf_doFlushP cfg n t ev _ _ _ _) ?_
  rintro h1 - rfl
  exact cf_unlock

/-- The guards on the parents that `restore_extract` has while it stores the rows. -/
def parentGuards {t : T} : List (Own S t) → List (Lk T × Mode) → List (Lk T × Mode)
  | [], h => h
  | o :: own, h => parentGuards own ((.fl o.parent, .rd) :: (.tbl o.parent, .rd) :: h)

theorem mem_parentGuards {t : T} {own : List (Own S t)} {h : List (Lk T × Mode)} {x : Lk T × Mode} (hx : x ∈ h) : x ∈ parentGuards own h := by
  induction own generalizing h with
  | nil => exact hx
  | cons o own ih => exact ih (List.mem_cons_of_mem _ (List.mem_cons_of_mem _ hx))

theorem cf_lockParents {t : T} (own : List (Own S t)) (fl : T → FlushLock) (h : List (Lk T × Mode)) :
    OK h (lockParents own fl) (fun h' _ => h' = parentGuards own h) := by
  induction own generalizing fl h with
  | nil => exact rfl
  | cons o own ih => exact fun _ _ => ⟨⟨.rd, List.mem_cons_self⟩, fun f => ih _ _⟩

theorem cf_unlockParents {t : T} (own : List (Own S t)) (h : List (Lk T × Mode)) :
    OK (parentGuards own h) (unlockParents own) (fun h' _ => h' = h) := by
  induction own generalizing h with
  | nil => exact rfl
  | cons o own ih =>
    unfold unlockParents
    refine Careful.bind (ih _) ?_
    rintro h1 - rfl
    refine ⟨List.mem_cons_self, ?_⟩
    rw [List.erase_cons_head]
    refine ⟨List.mem_cons_self, ?_⟩
    rw [List.erase_cons_head]
    exact rfl

theorem cf_close {t : T} {w : W (S t)} {h : List (Lk T × Mode)} (hm : (.tbl t, .wr) ∈ h) (hw : Reach (key t) false w.tbl) {α : Type} {k : Prog S α}
    {Q : List (Lk T × Mode) → α → Prop} (hk : OK (h.erase (.tbl t, .wr)) k Q) :
    OK h (do let tb ← Prog.ofR w.drop; unlockP t tb; k) Q := by
  refine Careful.bind (Q := fun h' x => h' = h ∧ x = w.tbl) (Careful.ofR (drop_safe w) (fun x hx => ⟨rfl, drop_tbl hx⟩)) ?_
  rintro h1 x ⟨rfl, rfl⟩
  refine Careful.bind (cf_unlockP hm hw) ?_
  rintro h1 - rfl
  exact hk

theorem cf_restoreP {n : Nat} {t : T} {sig : Sig} {own : List (Own S t)} {x : Extraction (S t)} {w : W (S t)} {ev : Event}
    {h : List (Lk T × Mode)} (hm : (.tbl t, .wr) ∈ h) (hw : Reach (key t) false w.tbl) :
    OK h (restoreP key cfg n t sig own x ev w) (fun h' _ => h' = h.erase (.tbl t, .wr)) := by
  unfold restoreP
  refine Careful.bind (Q := fun h' _ => h' = h) (Careful.ofR (validate_safe x sig) (fun _ _ => rfl)) ?_
  rintro h1 v rfl
  cases v with
  | some e => exact cf_close hm hw rfl
  | none =>
    simp only []
    refine Careful.bind (cf_lockParents own _ h1) ?_
    rintro h2 fl rfl
    refine Careful.bind cf_lock ?_
    rintro h2 - rfl
    refine Careful.bind cf_unlock ?_
    rintro h2 - rfl
    refine Careful.bind (Q := fun h' y => h' = parentGuards own h1 ∧ Reach (key t) false y.1.tbl)
      (Careful.ofR (mergeExtract_safe hw) (fun y hy => ⟨rfl, closed_mergeExtract (closedReach' (key := key)) hy hw⟩)) ?_
    rintro h2 ⟨w1, rm⟩ ⟨rfl, hw1⟩
    simp only []
    refine Careful.bind (cf_unlockParents own h1) ?_
    rintro h2 - rfl
    refine Careful.ite (fun _ => cf_close hm hw1 rfl) (fun _ => ?_)
    refine Careful.bind cf_lock ?_
    rintro h3 - rfl
    refine ⟨⟨.wr, List.mem_cons_self⟩, fun f => ?_⟩
    refine Careful.bind (Q := fun h' y => h' = (.fl t, .wr) :: h2) (Careful.ofR (setRemapping_safe f rm) (fun y hy => rfl)) ?_
    rintro h3 y rfl
    refine ⟨List.mem_cons_self, ?_⟩
    refine Careful.bind cf_unlock ?_
    rintro h3 - rfl
    refine Careful.bind (cf_flushP hm hw1) ?_
    rintro h3 - rfl
    exact rfl

/-- The write guards a thread has are those it is recorded to have; what they show is a table some history produces. -/
structure OpenHas (key : (t : T) → Row (S t) → K) (o : Open S) (h : List (T × Mode)) : Prop where
  isSome : ∀ t, (t, .wr) ∈ h → ∃ w, o t = some w
  inv : ∀ t w, o t = some w → Reach (key t) false w.tbl
  once : ∀ t, h.count (t, .wr) ≤ 1

theorem OpenHas.set {o : Open S} {h : List (T × Mode)} (ho : OpenHas key o h) {t : T} {w : W (S t)} (hw : Reach (key t) false w.tbl) :
    OpenHas key (Function.update o t (some w)) h where
  isSome t' hm' := by
    by_cases e : t' = t
    · subst e; exact ⟨w, Function.update_self ..⟩
    · rw [Function.update_of_ne e]; exact ho.isSome t' hm'
  inv t' w' he := by
    by_cases e : t' = t
    · subst e; rw [Function.update_self] at he; injection he with he; subst he; exact hw
    · rw [Function.update_of_ne e] at he; exact ho.inv t' w' he
  once := ho.once

theorem OpenHas.write {o : Open S} {h : List (T × Mode)} (ho : OpenHas key o h) {t : T} (hg : (t, Mode.wr) ∉ h) {w : W (S t)}
    (hw : Reach (key t) false w.tbl) : OpenHas key (Function.update o t (some w)) ((t, .wr) :: h) where
  isSome t' hm' := by
    by_cases e : t' = t
    · subst e; exact ⟨w, Function.update_self ..⟩
    · rw [Function.update_of_ne e]
      rcases List.mem_cons.1 hm' with he | hm'
      · injection he with he _; exact absurd he e
      · exact ho.isSome t' hm'
  inv := (ho.set hw).inv
  once t' := by
    by_cases e : t' = t
    · subst e; rw [List.count_cons_self, List.count_eq_zero.2 hg]
    · rw [List.count_cons_of_ne (by intro he; injection he with he _; exact e he.symm)]; exact ho.once t'

theorem OpenHas.erase {o : Open S} {h : List (T × Mode)} (ho : OpenHas key o h) (t : T) :
    OpenHas key (Function.update o t none) (h.erase (t, .wr)) where
  isSome t' hm' := by
    by_cases e : t' = t
    · subst e
      have h1 := ho.once t'
      have h2 : (h.erase (t', Mode.wr)).count (t', .wr) = 0 := by rw [List.count_erase_self]; omega
      exact absurd hm' (List.count_eq_zero.1 h2)
    · rw [Function.update_of_ne e]
      exact ho.isSome t' (List.mem_of_mem_erase hm')
  inv t' w' he := by
    by_cases e : t' = t
    · subst e; rw [Function.update_self] at he; cases he
    · rw [Function.update_of_ne e] at he; exact ho.inv t' w' he
  once t' := (List.Sublist.count_le _ List.erase_sublist).trans (ho.once t')

theorem OpenHas.eraseRd {o : Open S} {h : List (T × Mode)} (ho : OpenHas key o h) (t : T) : OpenHas key o (h.erase (t, .rd)) where
  isSome t' hm' := ho.isSome t' (List.mem_of_mem_erase hm')
  inv := ho.inv
  once t' := (List.Sublist.count_le _ List.erase_sublist).trans (ho.once t')

theorem OpenHas.read {o : Open S} {h : List (T × Mode)} (ho : OpenHas key o h) (t : T) : OpenHas key o ((t, .rd) :: h) where
  isSome t' hm' := by
    rcases List.mem_cons.1 hm' with he | hm'
    · injection he with _ he; cases he
    · exact ho.isSome t' hm'
  inv := ho.inv
  once t' := by rw [List.count_cons_of_ne (by intro he; injection he with _ he; cases he)]; exact ho.once t'

theorem cf_scriptTo {E : List (T × Mode) → Prop} (n : Nat) (sc : Script S) (o : Open S) (h : List (T × Mode)) (ho : OpenHas key o h)
    (hs : GuardedTo E h sc) (hA : ∀ t, ¬ A t → sc.Spares t) : OK (guards h) (sc.prog key cfg n o) (fun h' _ => ∃ g, h' = guards g ∧ E g) := by
  induction sc generalizing o h with
  | done => exact ⟨h, rfl, hs⟩
  | write t k ih =>
    refine Careful.bind cf_lockP ?_
    rintro h1 w ⟨rfl, hw, hg⟩
    refine ih _ _ (ho.write (fun hm => hg t rfl rfl .wr (mem_guards.2 hm)) hw) hs (fun t ht => (hA t ht).2)
  | call t op k ih =>
    obtain ⟨w, hw⟩ := ho.isSome t hs.1
    show OK _ (match o t with | none => _ | some w => _) _
    rw [hw]
    refine Careful.bind (Q := fun h' w' => h' = guards h ∧ Reach (key t) false w'.tbl)
      (Careful.ofR (step_safe (ho.inv t w hw) op hs.2.1) (fun w' hw' => ⟨rfl, closed_step (closedReach' (key := key)) hs.2.1 hw' (ho.inv t w hw)⟩)) ?_
    rintro h1 w' ⟨rfl, hw'⟩
    exact ih _ _ (ho.set hw') hs.2.2 hA
  | look t k ih =>
    simp only [Script.prog]
    cases e : o t with
    | some w => exact ih _ _ _ ho (hs.2 _) (fun t ht => hA t ht _)
    | none =>
      obtain ⟨m, hm⟩ := hs.1
      exact ⟨⟨m, mem_guards.2 hm⟩, fun x _ => ih x _ _ ho (hs.2 x) (fun t ht => hA t ht _)⟩
  | flush t ev k ih =>
    obtain ⟨w, hw⟩ := ho.isSome t hs.1
    show OK _ (match o t with | none => _ | some w => _) _
    rw [hw]
    refine Careful.bind (cf_flushP (mem_guards.2 hs.1) (ho.inv t w hw)) ?_
    rintro h1 - rfl
    rw [guards_erase]
    exact ih _ _ (ho.erase t) hs.2 hA
  | liveFlush t ev k ih =>
    obtain ⟨w, hw⟩ := ho.isSome t hs.1
    show OK _ (match o t with | none => _ | some w => _) _
    rw [hw]
    refine Careful.bind (cf_liveFlushP (mem_guards.2 hs.1) (ho.inv t w hw)) ?_
    rintro h1 w' ⟨rfl, hw'⟩
    exact ih _ _ (ho.set hw') hs.2 hA
  | restore t sig own x ev k ih =>
    obtain ⟨w, hw⟩ := ho.isSome t hs.1
    show OK _ (match o t with | none => _ | some w => _) _
    rw [hw]
    refine Careful.bind (cf_restoreP (mem_guards.2 hs.1) (ho.inv t w hw)) ?_
    rintro h1 - rfl
    rw [guards_erase]
    exact ih _ _ (ho.erase t) hs.2 hA
  | close t k ih =>
    obtain ⟨w, hw⟩ := ho.isSome t hs.1
    show OK _ (match o t with | none => _ | some w => _) _
    rw [hw]
    refine cf_close (mem_guards.2 hs.1) (ho.inv t w hw) ?_
    rw [guards_erase]
    exact ih _ _ (ho.erase t) hs.2 hA
  | read t k ih =>
    refine Careful.bind (cf_lock (l := .tbl t) (m := .rd)) ?_
    rintro h1 - rfl
    exact ih _ ((t, .rd) :: h) (ho.read t) hs (fun t ht => (hA t ht).2)
  | unread t k ih =>
    refine Careful.bind (Q := fun h' _ => h' = guards (h.erase (t, .rd))) ⟨mem_guards.2 hs.1, guards_erase h t .rd⟩ ?_
    rintro h1 - rfl
    exact ih _ _ (ho.eraseRd t) hs.2 hA
  | select t ev sel k ih =>
    refine Careful.bind (cf_readSelectP (mem_guards.2 hs.1)) ?_
    rintro h1 - rfl
    rw [guards_erase]
    exact ih _ _ (ho.eraseRd t) hs.2 hA
  | tryWrite t yes no ih1 ih2 =>
    refine ⟨by_contra fun hn => (hA t hn).1 rfl, fun hg => ⟨⟨.wr, List.mem_cons_self⟩, fun x hx => ?_⟩,
      fun e => ih2 e _ _ ho (hs.2 e) (fun t ht => (hA t ht).2.2 e)⟩
    exact ih1 _ ((t, .wr) :: h) (ho.write (fun hm => hg t rfl rfl .wr (mem_guards.2 hm)) hx) hs.1 (fun t ht => (hA t ht).2.1)
  | tryRead t yes no ih1 ih2 =>
    exact ⟨by_contra fun hn => (hA t hn).1 rfl, fun hg => ih1 _ ((t, .rd) :: h) (ho.read t) hs.1 (fun t ht => (hA t ht).2.1),
      fun e => ih2 e _ _ ho (hs.2 e) (fun t ht => (hA t ht).2.2 e)⟩

theorem cf_script (n : Nat) (sc : Script S) (o : Open S) (h : List (T × Mode)) (ho : OpenHas key o h) (hs : Guarded h sc) :
    Careful (fun _ => True) key (guards h) (sc.prog key cfg n o) (fun _ _ => True) :=
  (cf_scriptTo n sc o h ho hs (fun _ h => absurd trivial h)).mono (fun _ _ _ => trivial)

/-! ## Interleavings -/

section
variable {ι : Type} [DecidableEq ι]
open Sys

/-- Every thread is careful, guards exclude each other, and every table is what some history produces. -/
structure SysSound (key : (t : T) → Row (S t) → K) (s : Sys S ι) : Prop where
  careful : ∀ i, Careful (fun _ => True) key (s.th i).held (s.th i).prog (fun _ _ => True)
  excl : ∀ i j l m, i ≠ j → (l, .wr) ∈ (s.th i).held → (l, m) ∉ (s.th j).held
  rows : ∀ t, Reach (key t) false (s.tbl t)

theorem SysSound.move {s s' : Sys S ι} (hg : SysSound key s) {i : ι} {p : Prog S Unit} {h : List (Lk T × Mode)}
    (hth : s'.th = (s.go i p h).th) (hsub : ∀ x ∈ h, x ∈ (s.th i).held)
    (hp : Careful (fun _ => True) key h p (fun _ _ => True)) (hr : ∀ t, Reach (key t) false (s'.tbl t)) : SysSound key s' where
  careful j := by
    rw [hth]
    by_cases e : j = i
    · subst e; rw [go_self]; exact hp
    · rw [go_other _ e]; exact hg.careful j
  excl a b l m hab ha hb := by
    rw [hth] at ha hb
    have ha' : (l, Mode.wr) ∈ (s.th a).held := by
      by_cases e : a = i
      · subst e; rw [go_self] at ha; exact hsub _ ha
      · rwa [go_other _ e] at ha
    have hb' : (l, m) ∈ (s.th b).held := by
      by_cases e : b = i
      · subst e; rw [go_self] at hb; exact hsub _ hb
      · rwa [go_other _ e] at hb
    exact hg.excl a b l m hab ha' hb'
  rows := hr

theorem SysSound.take {s : Sys S ι} (hg : SysSound key s) {i : ι} {p : Prog S Unit} {l : Lk T} {m : Mode} (hf : s.Free l m)
    (ht : Grantable (s.th i).held l m → Careful (fun _ => True) key ((l, m) :: (s.th i).held) p (fun _ _ => True)) :
    SysSound key (s.go i p ((l, m) :: (s.th i).held)) := by
  have hfree := free_excl hf
  constructor
  · intro j
    by_cases e : j = i
    · subst e; rw [go_self]
      exact ht (fun t hl hm m' => hfree.2 hm j m')
    · rw [go_other _ e]; exact hg.careful j
  · intro a b l' m' hab ha hb
    by_cases ea : a = i
    · subst ea
      rw [go_self] at ha
      rw [go_other _ (Ne.symm hab)] at hb
      rcases List.mem_cons.1 ha with he | ha
      · injection he with h1 h2; subst h1 h2
        exact hfree.2 rfl b m' hb
      · exact hg.excl a b l' m' hab ha hb
    · rw [go_other _ ea] at ha
      by_cases eb : b = i
      · subst eb
        rw [go_self] at hb
        rcases List.mem_cons.1 hb with he | hb
        · injection he with h1 h2; subst h1 h2
          exact hfree.1 a ha
        · exact hg.excl a b l' m' hab ha hb
      · rw [go_other _ eb] at hb
        exact hg.excl a b l' m' hab ha hb
  · exact hg.rows

theorem SysSound.step {s s' : Sys S ι} (hg : SysSound key s) {i : ι} (hs : Step s i s') : SysSound key s' := by
  have ht := hg.careful i
  cases hs with
  | @acq l m k hp hf hn =>
    rw [hp] at ht
    exact hg.take hf ht
  | acqPoisoned hp hf hn => exact hg.move rfl (fun x hx => hx) (fun e => by cases e) hg.rows
  | att hp hf hn => rw [hp] at ht; exact hg.take hf ht.2.1
  | attPoisoned hp hf hn => rw [hp] at ht; exact hg.move rfl (fun x hx => hx) (ht.2.2 _) hg.rows
  | attBusy hp hb => rw [hp] at ht; exact hg.move rfl (fun x hx => hx) (ht.2.2 _) hg.rows
  | rel hp =>
    rw [hp] at ht
    exact hg.move rfl (fun x hx => List.mem_of_mem_erase hx) ht.2 hg.rows
  | get hp =>
    rw [hp] at ht
    exact hg.move rfl (fun x hx => hx) (ht.2 _ (hg.rows _)) hg.rows
  | @put t x k hp =>
    rw [hp] at ht
    refine hg.move (i := i) (p := k) (h := (s.th i).held) rfl (fun x hx => hx) ht.2.2 (fun t' => ?_)
    show Reach (key t') false (Function.update s.tbl t x t')
    by_cases e : t' = t
    · subst e; rw [Function.update_self]; exact ht.2.1
    · rw [Function.update_of_ne e]; exact hg.rows t'
  | getF hp =>
    rw [hp] at ht
    exact hg.move rfl (fun x hx => hx) (ht.2 _) hg.rows
  | @putF t x k hp =>
    rw [hp] at ht
    exact hg.move (i := i) (p := k) (h := (s.th i).held) rfl (fun x hx => hx) ht.2 hg.rows
  | @forget t k hp =>
    rw [hp] at ht
    exact hg.move (i := i) (p := k) (h := (s.th i).held.erase (.fl t, .rd)) rfl (fun x hx => List.mem_of_mem_erase hx) ht.2 hg.rows
  | see hp =>
    rw [hp] at ht
    exact hg.move rfl (fun x hx => hx) ht hg.rows
  | @unwind p hp hh =>
    rw [hp] at ht
    exact hg.move (i := i) (p := .fail p) (h := []) rfl (fun x hx => by cases hx) ht hg.rows

theorem SysSound.run {waits : Sys S ι → ι → Prop} {s s' : Sys S ι} (hg : SysSound key s) (hr : Run waits s s') : SysSound key s' := by
  induction hr with
  | start => exact hg
  | step _ hs _ ih => exact ih.step hs

theorem start_sound (n : Nat) (scripts : ι → Script S) (ho : ∀ i, Guarded [] (scripts i)) (tbl : (t : T) → Tbl (S t))
    (ht : ∀ t, Reach (key t) false (tbl t)) (fl : T → FlushLock) : SysSound key (startSys key cfg n tbl fl scripts) where
  careful i := cf_script n (scripts i) (fun _ => none) [] ⟨fun _ h => by (cases h), fun _ _ h => by (cases h), fun _ => Nat.zero_le _⟩ (ho i)
  excl i j l m _ h := by cases h
  rows := ht

end


/-! ## One thread alone -/

/-- The guards of a thread are those the universe knows of. -/
structure Recorded (env : Env S) (h : List (Lk T × Mode)) : Prop where
  wr : ∀ t, (.tbl t, .wr) ∈ h → env.writer t = true
  rd : ∀ t, h.count (.tbl t, .rd) ≤ env.reads t
  once : ∀ t, h.count (.tbl t, .wr) ≤ 1

theorem Recorded.addWr {env : Env S} {h : List (Lk T × Mode)} (hr : Recorded env h) {t : T} (hc : ¬ (env.reads t ≠ 0 ∨ env.writer t = true)) :
    Grantable h (.tbl t) .wr ∧ Recorded { env with writer := Function.update env.writer t true } ((.tbl t, .wr) :: h) := by
  push Not at hc
  have hnw : (Lk.tbl t, Mode.wr) ∉ h := fun hm => by rw [hr.wr t hm] at hc; exact hc.2 rfl
  have hnr : (Lk.tbl t, Mode.rd) ∉ h := List.count_eq_zero.1 (by have := hr.rd t; omega)
  refine ⟨?_, ?_, ?_, ?_⟩
  · intro t' e _ m'
    cases m'
    · exact hnr
    · exact hnw
  · intro t' hm
    by_cases e : t' = t
    · subst e; exact Function.update_self ..
    · show Function.update env.writer t true t' = true
      rw [Function.update_of_ne e]
      rcases List.mem_cons.1 hm with he | hm
      · injection he with he _; injection he with he; exact absurd he e
      · exact hr.wr t' hm
  · intro t'
    rw [List.count_cons_of_ne (by intro he; injection he with _ he; cases he)]
    exact hr.rd t'
  · intro t'
    by_cases e : t' = t
    · subst e; rw [List.count_cons_self, List.count_eq_zero.2 hnw]
    · rw [List.count_cons_of_ne (by intro he; injection he with he _; injection he with he; exact e he.symm)]
      exact hr.once t'

theorem Recorded.addRd {env : Env S} {h : List (Lk T × Mode)} (hr : Recorded env h) (t : T) :
    Recorded { env with reads := Function.update env.reads t (env.reads t + 1) } ((.tbl t, .rd) :: h) := by
  refine ⟨?_, ?_, ?_⟩
  · intro t' hm
    rcases List.mem_cons.1 hm with he | hm
    · injection he with _ he; cases he
    · exact hr.wr t' hm
  · intro t'
    show _ ≤ Function.update env.reads t (env.reads t + 1) t'
    by_cases e : t' = t
    · subst e; rw [List.count_cons_self, Function.update_self]; exact Nat.succ_le_succ (hr.rd t')
    · rw [List.count_cons_of_ne (by intro he; injection he with he _; injection he with he; exact e he.symm), Function.update_of_ne e]
      exact hr.rd t'
  · intro t'
    rw [List.count_cons_of_ne (by intro he; injection he with _ he; cases he)]
    exact hr.once t'

theorem careful_run {α : Type} {Q : List (Lk T × Mode) → α → Prop} (p : Prog S α) : ∀ (h : List (Lk T × Mode)) (u : Uni S), Careful A key h p Q →
    Recorded u.env h → (∀ t, Reach (key t) false (u.env.tbl t)) →
    p.run u ≠ .error .ub ∧ ∀ a u', p.run u = .ok (a, u') → ∀ t, Reach (key t) false (u'.env.tbl t) := by
  induction p with
  | ret a =>
    intro h u hp hr ht
    refine ⟨fun e => (by cases e), fun a' u' e => ?_⟩
    unfold Prog.run at e
    injection e with e; injection e with _ e; subst e; exact ht
  | fail p =>
    intro h u hp hr ht
    refine ⟨fun e => ?_, fun a' u' e => (by cases e)⟩
    unfold Prog.run at e
    injection e with e; exact hp e
  | acq l m k ih =>
    intro h u hp hr ht
    cases l with
    | tbl t =>
      cases m with
      | wr =>
        unfold Prog.run
        by_cases hc : u.env.reads t ≠ 0 ∨ u.env.writer t = true
        · rw [if_pos hc]; exact ⟨fun e => (by cases e), fun _ _ e => (by cases e)⟩
        · rw [if_neg hc]
          obtain ⟨g, r⟩ := hr.addWr hc
          exact ih _ _ (hp g) r ht
      | rd =>
        unfold Prog.run
        by_cases hc : u.env.writer t = true
        · rw [if_pos hc]; exact ⟨fun e => (by cases e), fun _ _ e => (by cases e)⟩
        · rw [if_neg hc]
          exact ih _ _ (hp (fun _ _ e => by cases e)) (hr.addRd t) ht
    | fl t =>
      have hr' : Recorded u.env ((Lk.fl t, m) :: h) := by
        refine ⟨?_, ?_, ?_⟩
        · intro t' hm
          rcases List.mem_cons.1 hm with he | hm
          · injection he with he _; cases he
          · exact hr.wr t' hm
        · intro t'
          rw [List.count_cons_of_ne (by intro he; injection he with he _; cases he)]; exact hr.rd t'
        · intro t'
          rw [List.count_cons_of_ne (by intro he; injection he with he _; cases he)]; exact hr.once t'
      have go := ih _ u (hp (fun _ e _ => by cases e)) hr' ht
      cases m with
      | rd => unfold Prog.run; exact go
      | wr =>
        unfold Prog.run
        by_cases hc : (u.fl t).leaked ≠ 0
        · rw [if_pos hc]; exact ⟨fun e => (by cases e), fun _ _ e => (by cases e)⟩
        · rw [if_neg hc]; exact go
  | att t m yes no ih1 ih2 =>
    intro h u hp hr ht
    cases m with
    | wr =>
      unfold Prog.run
      by_cases hc : u.env.reads t ≠ 0 ∨ u.env.writer t = true
      · rw [if_pos hc]; exact ih2 _ _ _ (hp.2.2 _) hr ht
      · rw [if_neg hc]
        obtain ⟨g, r⟩ := hr.addWr hc
        exact ih1 _ _ (hp.2.1 g) r ht
    | rd =>
      unfold Prog.run
      by_cases hc : u.env.writer t = true
      · rw [if_pos hc]; exact ih2 _ _ _ (hp.2.2 _) hr ht
      · rw [if_neg hc]; exact ih1 _ _ (hp.2.1 (fun _ _ e => by cases e)) (hr.addRd t) ht
  | rel l m k ih =>
    intro h u hp hr ht
    have hmem : ∀ x, x ∈ h.erase (l, m) → x ∈ h := fun x hx => List.mem_of_mem_erase hx
    have hcnt : ∀ x, (h.erase (l, m)).count x ≤ h.count x := fun x => List.Sublist.count_le _ List.erase_sublist
    cases l with
    | tbl t =>
      cases m with
      | wr =>
        unfold Prog.run
        refine ih _ _ hp.2 ⟨?_, fun t' => (hcnt _).trans (hr.rd t'), fun t' => (hcnt _).trans (hr.once t')⟩ ht
        intro t' hm
        show Function.update u.env.writer t false t' = true
        by_cases e : t' = t
        · subst e
          have h2 : (h.erase (Lk.tbl t', Mode.wr)).count (.tbl t', .wr) = 0 := by rw [List.count_erase_self]; have := hr.once t'; omega
          exact absurd hm (List.count_eq_zero.1 h2)
        · rw [Function.update_of_ne e]; exact hr.wr t' (hmem _ hm)
      | rd =>
        unfold Prog.run
        refine ih _ _ hp.2 ⟨fun t' hm => hr.wr t' (hmem _ hm), ?_, fun t' => (hcnt _).trans (hr.once t')⟩ ht
        intro t'
        show _ ≤ Function.update u.env.reads t (u.env.reads t - 1) t'
        by_cases e : t' = t
        · subst e; rw [List.count_erase_self, Function.update_self]; have := hr.rd t'; omega
        · rw [Function.update_of_ne e]; exact (hcnt _).trans (hr.rd t')
    | fl t =>
      unfold Prog.run
      exact ih _ _ hp.2 ⟨fun t' hm => hr.wr t' (hmem _ hm), fun t' => (hcnt _).trans (hr.rd t'), fun t' => (hcnt _).trans (hr.once t')⟩ ht
  | get t k ih => intro h u hp hr ht; unfold Prog.run; exact ih _ _ _ (hp.2 _ (ht t)) hr ht
  | put t x k ih =>
    intro h u hp hr ht
    unfold Prog.run
    refine ih _ _ hp.2.2 ⟨hr.wr, hr.rd, hr.once⟩ (fun t' => ?_)
    show Reach (key t') false (Function.update u.env.tbl t x t')
    by_cases e : t' = t
    · subst e; rw [Function.update_self]; exact hp.2.1
    · rw [Function.update_of_ne e]; exact ht t'
  | getF t k ih => intro h u hp hr ht; unfold Prog.run; exact ih _ _ _ (hp.2 _) hr ht
  | putF t f k ih => intro h u hp hr ht; unfold Prog.run; exact ih _ _ hp.2 hr ht
  | forget t k ih =>
    intro h u hp hr ht
    have hmem : ∀ x, x ∈ h.erase (.fl t, .rd) → x ∈ h := fun x hx => List.mem_of_mem_erase hx
    have hcnt : ∀ x, (h.erase (.fl t, .rd)).count x ≤ h.count x := fun x => List.Sublist.count_le _ List.erase_sublist
    unfold Prog.run
    exact ih _ _ hp.2 ⟨fun t' hm => hr.wr t' (hmem _ hm), fun t' => (hcnt _).trans (hr.rd t'), fun t' => (hcnt _).trans (hr.once t')⟩ ht
  | see p o ev rows k ih => intro h u hp hr ht; unfold Prog.run; exact ih _ _ hp ⟨hr.wr, hr.rd, hr.once⟩ ht

end V11
