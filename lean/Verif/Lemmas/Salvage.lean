import Verif.Lemmas.TornOps
import Verif.Lemmas.Reach
import Verif.Lemmas.RunAlone

/-!
# The crash model agrees with the other model

`Cr.out x t` forgets the table that a panicking call leaves; what remains is the function of the other model.
-/

set_option linter.unusedSimpArgs false
set_option linter.unusedSectionVars false
set_option linter.unusedVariables false

namespace V11
variable {S : Schema} {α β : Type}

/-- The result without the table that a panic leaves. -/
def Cr.outOf : Tbl S × R α → R (Tbl S × α)
  | (t, .ok a) => .ok (t, a)
  | (_, .error p) => .error p

/-- The same for a call. -/
def Cr.out (x : Cr S α) (t : Tbl S) : R (Tbl S × α) := Cr.outOf (x t)

theorem out_ret (a : α) (t : Tbl S) : (Cr.ret a).out t = .ok (t, a) := rfl
theorem out_fail (p : Panic) (t : Tbl S) : (Cr.fail p : Cr S α).out t = .error p := rfl

theorem out_bind (x : Cr S α) (f : α → Cr S β) (t : Tbl S) : (x >>= f).out t = x.out t >>= fun p => (f p.2).out p.1 := by
  have e : (x >>= f) t = match x t with | (t, .ok a) => f a t | (t, .error p) => (t, .error p) := rfl
  unfold Cr.out
  rw [e]
  cases x t with
  | mk t' r => cases r <;> rfl

theorem out_look (f : Tbl S → R α) (t : Tbl S) : (Cr.look f).out t = f t >>= fun a => .ok (t, a) := by
  unfold Cr.out Cr.look
  cases h : f t <;> simp only [Cr.outOf, h] <;> rfl

theorem out_lift (r : R α) (t : Tbl S) : (Cr.lift r : Cr S α).out t = r >>= fun a => .ok (t, a) := by
  unfold Cr.out Cr.lift
  cases r <;> rfl

theorem out_ite {b : Prop} [Decidable b] (x y : Cr S α) (t : Tbl S) :
    (if b then x else y : Cr S α).out t = if b then x.out t else y.out t := by
  split <;> rfl

/-- What a call that returned did. -/
theorem out_ok {x : Cr S α} {t t' : Tbl S} {a : α} : x.out t = .ok (t', a) ↔ x t = (t', .ok a) := by
  unfold Cr.out
  cases h : x t with
  | mk t1 r =>
    cases r with
    | ok b =>
      simp only [Cr.outOf]
      constructor
      · intro h; injection h with h; injection h with h1 h2; subst h1 h2; rfl
      · intro h; injection h with h1 h2; injection h2 with h2; subst h1 h2; rfl
    | error p => simp [Cr.outOf]

theorem out_err {x : Cr S α} {t : Tbl S} {p : Panic} : x.out t = .error p ↔ (x t).2 = .error p := by
  unfold Cr.out
  cases h : x t with
  | mk t1 r => cases r <;> simp [Cr.outOf]

theorem seqTear_succ_ok {n : Nat} {σ α : Fin (n + 1) → Type} {s : (j : Fin (n + 1)) → σ j}
    {f : (j : Fin (n + 1)) → σ j → σ j × R (α j)} {a : σ 0} {x : α 0} (h : f 0 (s 0) = (a, .ok x)) :
    seqTear (n + 1) s f = (Fin.cons (α := σ) a (seqTear n (fun j => s j.succ) (fun j => f j.succ)).1,
      (seqTear n (fun j => s j.succ) (fun j => f j.succ)).2.map (Fin.cons (α := α) x)) := by
  rw [seqTear, h]

theorem seqTear_succ_err {n : Nat} {σ α : Fin (n + 1) → Type} {s : (j : Fin (n + 1)) → σ j}
    {f : (j : Fin (n + 1)) → σ j → σ j × R (α j)} {a : σ 0} {p : Panic} (h : f 0 (s 0) = (a, .error p)) :
    seqTear (n + 1) s f = (Fin.cons (α := σ) a (fun j => s j.succ), .error p) := by
  rw [seqTear, h]

theorem seqTear_unit : ∀ (n : Nat) {σ : Fin n → Type} (s : (j : Fin n) → σ j) (g : (j : Fin n) → σ j → R (σ j))
    (l : (j : Fin n) → σ j → σ j),
    ((seqTear n (α := fun _ => Unit) s fun j x => colStep (g j x) (l j x)).2.map fun _ =>
      (seqTear n (α := fun _ => Unit) s fun j x => colStep (g j x) (l j x)).1) = seqFin n (fun j => g j (s j))
  | 0, σ, s, g, l => by
    simp only [seqTear, seqFin, Except.map]
    congr 1
    funext j; exact j.elim0
  | n + 1, σ, s, g, l => by
    have ih := seqTear_unit n (fun j => s j.succ) (fun j => g j.succ) (fun j => l j.succ)
    unfold seqFin
    cases h : g 0 (s 0) with
    | error p =>
      rw [seqTear_succ_err (a := l 0 (s 0)) (p := p) (by simp only [colStep, h])]; simp only [h]; rfl
    | ok a =>
      rw [seqTear_succ_ok (a := a) (x := ()) (by simp only [colStep, h])]
      simp only [h, okBind, ← ih]
      generalize seqTear n (σ := fun j => σ j.succ) (α := fun _ => Unit) (fun j => s j.succ)
        (fun j x => colStep (g j.succ x) (l j.succ x)) = q
      obtain ⟨q1, q2⟩ := q
      cases q2 <;> rfl

theorem seqTear_out : ∀ (n : Nat) {σ E : Fin n → Type} (s : (j : Fin n) → σ j) (g : (j : Fin n) → σ j → R (σ j × E j))
    (l : (j : Fin n) → σ j → σ j),
    ((seqTear n (α := E) s fun j x => outStep (g j x) (l j x)).2.map fun x j =>
      ((seqTear n (α := E) s fun j x => outStep (g j x) (l j x)).1 j, x j)) = seqFin n (σ := fun j => σ j × E j) (fun j => g j (s j))
  | 0, σ, E, s, g, l => by
    simp only [seqTear, seqFin, Except.map]
    congr 1
    funext j; exact j.elim0
  | n + 1, σ, E, s, g, l => by
    have ih := seqTear_out n (fun j => s j.succ) (fun j => g j.succ) (fun j => l j.succ)
    unfold seqFin
    cases h : g 0 (s 0) with
    | error p =>
      rw [seqTear_succ_err (a := l 0 (s 0)) (p := p) (by simp only [outStep, h])]; simp only [h]; rfl
    | ok a =>
      rw [seqTear_succ_ok (a := a.1) (x := a.2) (by simp only [outStep, h])]
      simp only [h, okBind, ← ih]
      generalize seqTear n (σ := fun j => σ j.succ) (α := fun j => E j.succ) (fun j => s j.succ)
        (fun j x => outStep (g j.succ x) (l j.succ x)) = q
      obtain ⟨q1, q2⟩ := q
      cases q2 with
      | error p => rfl
      | ok y =>
        show Except.ok _ = Except.ok _
        congr 1
        funext j
        refine Fin.cases ?_ ?_ j
        · rfl
        · intro k; rfl

variable [LV : LeavesSchema S]

/-- A table without a result. -/
def justTbl (r : R (Tbl S)) : R (Tbl S × Unit) := r >>= fun t => .ok (t, ())

omit LV in
theorem out_cols (g : (j : Fin (S.n + 1)) → (S.C j).σ → R (S.C j).σ) (l : (j : Fin (S.n + 1)) → (S.C j).σ → (S.C j).σ) (t : Tbl S) :
    (Cr.cols (S := S) fun j s => colStep (g j s) (l j s)).out t = justTbl (t.mapCols g) := by
  have := seqTear_unit (S.n + 1) t.cols g l
  unfold Cr.out Cr.cols Tbl.mapCols justTbl
  rw [← this]
  show Cr.outOf (({ t with cols := (seqTear (S.n + 1) (α := fun _ => Unit) t.cols fun j s => colStep (g j s) (l j s)).1 },
    (seqTear (S.n + 1) (α := fun _ => Unit) t.cols fun j s => colStep (g j s) (l j s)).2.map fun _ => ()) : Tbl S × R Unit) = _
  generalize seqTear (S.n + 1) (α := fun _ => Unit) t.cols (fun j s => colStep (g j s) (l j s)) = q
  obtain ⟨q1, q2⟩ := q
  cases q2 <;> rfl

omit LV in
theorem out_clearRaw (t : Tbl S) : (Cr.clearRaw (S := S)).out t = justTbl t.clearRaw := out_cols _ _ t

theorem out_truncate (n : Nat) (t : Tbl S) : (Cr.truncate (S := S) n).out t = justTbl (t.truncate n) := out_cols _ _ t

omit LV in
theorem out_swapRaw (a b : Nat) (t : Tbl S) : (Cr.swapRaw (S := S) a b).out t = justTbl (t.swapRaw a b) := out_cols _ _ t

theorem out_pushOnly (row : Row S) (t : Tbl S) : (Cr.pushOnly (S := S) row).out t = t.pushOnly row := by
  unfold Cr.pushOnly Tbl.pushOnly
  rw [out_bind, out_cols]
  unfold justTbl
  rw [bindAssoc]
  refine bindCongr (fun t1 _ => ?_)
  rw [okBind, out_bind, out_look, bindAssoc]
  refine bindCongr (fun o _ => ?_)
  rw [okBind]
  cases o <;> rfl

omit LV in
theorem out_swapOutRow (i : Nat) (row : Row S) (t : Tbl S) : (Cr.swapOutRow (S := S) i row).out t = t.swapOutRow i row := by
  unfold Cr.swapOutRow Tbl.swapOutRow
  rw [out_bind, out_look, bindAssoc]
  refine bindCongr (fun i _ => ?_)
  rw [okBind]
  have := seqTear_out (S.n + 1) t.cols (fun j s => (S.C j).swapOut s i (row j)) (fun j s => s)
  unfold Tbl.swapOutRaw
  rw [← this]
  show Cr.outOf (({ t with cols := (seqTear (S.n + 1) (α := S.E) t.cols fun j s => outStep ((S.C j).swapOut s i (row j)) s).1 },
    (seqTear (S.n + 1) (α := S.E) t.cols fun j s => outStep ((S.C j).swapOut s i (row j)) s).2) : Tbl S × R (Row S)) = _
  generalize seqTear (S.n + 1) (α := S.E) t.cols (fun j s => outStep ((S.C j).swapOut s i (row j)) s) = q
  obtain ⟨q1, q2⟩ := q
  cases q2 <;> rfl

theorem out_deleteRaw (i : Nat) (t : Tbl S) : (Cr.deleteRaw (S := S) i).out t = justTbl (t.deleteRaw i) := by
  unfold Cr.deleteRaw Tbl.deleteRaw
  generalize S.kind = kd
  cases kd with
  | consistent =>
    simp only []
    rw [out_bind, out_cols]
    unfold justTbl
    rw [bindAssoc, bindAssoc]
    refine bindCongr (fun t1 _ => ?_)
    rw [okBind, out_bind, out_lift, bindAssoc, bindAssoc]
    refine bindCongr (fun a _ => ?_)
    rfl
  | bag =>
    simp only []
    rw [out_bind, out_look, okBind, okBind, out_ite]
    by_cases h0 : t.len = 0
    · rw [if_pos h0, if_pos h0]; rfl
    · rw [if_neg h0, if_neg h0, out_ite]
      by_cases hi : i < t.len - 1
      · rw [if_pos hi, if_pos hi, out_bind, out_swapRaw]
        unfold justTbl
        rw [bindAssoc, bindAssoc]
        refine bindCongr (fun t1 _ => ?_)
        rw [okBind, out_truncate]; rfl
      · rw [if_neg hi, if_neg hi, out_bind, out_ret, okBind, out_truncate]; rfl
  | append => rfl
  | list => rfl
  | sorted => rfl

omit LV in
theorem eventAdd_tbl' (w : W S) (i : Nat) : (w.eventAdd i).tbl = w.tbl := by
  unfold W.eventAdd; split <;> rfl

omit LV in
theorem W.pushEnd_tbl (w : W S) (row : Row S) : (w.pushEnd row >>= fun p => .ok (p.1.tbl, p.2)) = w.tbl.pushOnly row := by
  unfold W.pushEnd
  rw [bindAssoc]
  cases h : w.tbl.pushOnly row with
  | error p => rfl
  | ok x =>
    rw [okBind, okBind]
    show Except.ok _ = _
    obtain ⟨t, i⟩ := x
    simp only []
    rw [eventAdd_tbl']

theorem out_push (row : Row S) (w : W S) : (Cr.push (S := S) row).out w.tbl = w.push row >>= fun p => .ok (p.1.tbl, p.2) := by
  unfold Cr.push W.push
  rw [out_bind, out_look, okBind, okBind]
  cases hf : w.tbl.free with
  | nil =>
    simp only []
    rw [out_pushOnly, W.pushEnd_tbl]
  | cons old rest =>
    simp only []
    rw [out_bind]
    have e : ∀ t : Tbl S, (Cr.setFree (BSet.erase old)).out t = .ok ({ t with free := BSet.erase old t.free }, ()) := fun t => rfl
    rw [e, okBind, out_bind, out_swapOutRow, bindAssoc]
    simp only [hf, eventAdd_tbl']
    refine bindCongr (fun x _ => ?_)
    obtain ⟨t1, r⟩ := x
    rfl

theorem out_pushAll (rows : List (Row S)) (w : W S) :
    (Cr.pushAll (S := S) (rows.map some)).out w.tbl = justTbl (w.pushAll rows >>= fun w => .ok w.tbl) := by
  induction rows generalizing w with
  | nil => rfl
  | cons r rs ih =>
    show (Cr.push r >>= fun _ => Cr.pushAll (rs.map some)).out w.tbl = _
    rw [out_bind, out_push, bindAssoc]
    unfold W.pushAll
    rw [List.foldlM_cons]
    unfold justTbl
    rw [bindAssoc, bindAssoc, bindAssoc]
    refine bindCongr (fun x _ => ?_)
    obtain ⟨w1, i⟩ := x
    rw [okBind, okBind]
    have := ih w1
    unfold justTbl W.pushAll at this
    rw [bindAssoc] at this
    exact this

theorem out_pushArrayLoop (rows : List (Row S)) (w : W S) (last : Nat) :
    (Cr.pushArrayLoop (S := S) last (rows.map some)).out w.tbl = w.pushArrayLoop last rows >>= fun p => .ok (p.1.tbl, p.2) := by
  induction rows generalizing w last with
  | nil => rfl
  | cons r rs ih =>
    show (Cr.pushOnly r >>= fun i => Cr.pushArrayLoop i (rs.map some)).out w.tbl = _
    rw [out_bind, out_pushOnly, ← W.pushEnd_tbl, bindAssoc]
    unfold W.pushArrayLoop
    rw [bindAssoc]
    refine bindCongr (fun x _ => ?_)
    rw [okBind]
    exact ih x.1 x.2

theorem out_pushArray (rows : List (Row S)) (w : W S) :
    (Cr.pushArray (S := S) (rows.map some)).out w.tbl = w.pushArray rows >>= fun p => .ok (p.1.tbl, p.2) := by
  cases rows with
  | nil => rfl
  | cons r rs =>
    show (Cr.pushOnly r >>= fun start => Cr.pushArrayLoop start (rs.map some) >>= fun last =>
      Cr.lift (nextId S.max last) >>= fun e => Cr.ret (start, e)).out w.tbl = _
    rw [out_bind, out_pushOnly, ← W.pushEnd_tbl, bindAssoc]
    unfold W.pushArray
    rw [bindAssoc]
    refine bindCongr (fun x _ => ?_)
    rw [okBind, out_bind, out_pushArrayLoop, bindAssoc, bindAssoc]
    refine bindCongr (fun y _ => ?_)
    rw [okBind, out_bind, out_lift, bindAssoc, bindAssoc]
    refine bindCongr (fun e _ => ?_)
    rfl

omit LV in
theorem out_setCell (j : Fin (S.n + 1)) (i : Nat) (v : S.E j) (t : Tbl S) :
    (Cr.setCell (S := S) j i v).out t = justTbl (t.setCell j i v) := by
  unfold Cr.out Cr.setCell justTbl
  cases t.setCell j i v <;> rfl

theorem out_deleteLoop (len : Nat) (rows : List Nat) (t : Tbl S) :
    (Cr.deleteLoop (S := S) len rows).out t = justTbl (t.deleteLoop len rows) := by
  induction rows generalizing t with
  | nil => rfl
  | cons r rs ih =>
    unfold Cr.deleteLoop Tbl.deleteLoop
    rw [out_ite, List.foldlM_cons]
    by_cases h : r < len
    · rw [if_pos h, if_pos h, out_bind, out_deleteRaw]
      unfold justTbl
      rw [bindAssoc, bindAssoc]
      refine bindCongr (fun t1 _ => ?_)
      rw [okBind]
      exact ih t1
    · rw [if_neg h, if_neg h]; rfl

theorem out_removeSel (sel : Select (List Nat)) (t : Tbl S) : (Cr.removeSel (S := S) sel).out t = justTbl (t.removeSel sel) := by
  cases sel with
  | all => exact out_clearRaw t
  | these rows =>
    unfold Cr.removeSel Tbl.removeSel
    rw [out_bind, out_look, okBind, okBind]
    exact out_deleteLoop _ _ _

theorem out_bagDelete (i : Nat) (t : Tbl S) : (Cr.bagDelete (S := S) i).out t = justTbl (BagIter.bagDelete t i) := by
  unfold Cr.bagDelete BagIter.bagDelete
  rw [out_bind, out_look]
  unfold justTbl
  rw [bindAssoc, bindAssoc]
  refine bindCongr (fun a _ => ?_)
  rw [okBind, out_deleteRaw]; rfl

theorem out_bagDrop (it : BagIter S) : (Cr.bagDrop (S := S) it.last it.delete).out it.tbl = justTbl it.drop := by
  unfold Cr.bagDrop BagIter.drop
  cases it.last with
  | none => rfl
  | some l =>
    cases it.delete with
    | false => rfl
    | true =>
      simp only []
      rw [out_bind, out_lift]
      unfold justTbl
      rw [bindAssoc, bindAssoc]
      refine bindCongr (fun a _ => ?_)
      rw [okBind, out_bagDelete]; rfl

/-! ## `retain` and `visit` -/

/-- A rug without panics. -/
def liftRug : Rug S → Cr.CrRug S := List.map (Sum.map id (List.map some))

omit LV in
theorem pullRug_lift (rug : Rug S) :
    Cr.pullRug (liftRug rug) = .ok ((pullRug rug).map fun x => (x.1, liftRug x.2)) := by
  induction rug with
  | nil => rfl
  | cons x q ih =>
    rcases x with r | xs
    · rfl
    · cases xs with
      | nil => exact ih
      | cons y ys => rfl

omit LV in
theorem out_fillGap (k : Nat) (rug : Rug S) (front : Nat) (t : Tbl S) :
    (Cr.fillGap (S := S) (liftRug rug) front k).out t = fillGap t rug front k >>= fun x => .ok (x.1, (liftRug x.2.1, x.2.2)) := by
  induction k generalizing rug front t with
  | zero => rfl
  | succ k ih =>
    unfold Cr.fillGap fillGap
    rw [out_bind, out_lift, pullRug_lift, okBind, okBind]
    cases h : pullRug rug with
    | none => rfl
    | some x =>
      obtain ⟨row, q⟩ := x
      simp only [Option.map]
      rw [out_bind, out_swapOutRow, bindAssoc]
      refine bindCongr (fun y _ => ?_)
      obtain ⟨t1, o⟩ := y
      simp only []
      rw [out_bind, out_lift, bindAssoc, bindAssoc]
      refine bindCongr (fun fr _ => ?_)
      rw [okBind]
      exact ih q fr t1

omit LV in
theorem liftRug_nil (rug : Rug S) : liftRug rug = [] ↔ rug = [] := by simp [liftRug]

/-- A closure that does not panic. -/
def liftVisit {σ : Type} (f : Tbl S → Nat → σ → Action (Row S) × σ) :
    Tbl S → Nat → σ → Option (Action (Option (Row S)) × σ) :=
  fun t i s => some (liftAction (f t i s).1, (f t i s).2)

/-- The outcome of the scan, without the closure's state. -/
def scanOut {σ : Type} : Scan S σ → Tbl S × Option (Cr.CrRug S × Nat)
  | .noop t _ => (t, none)
  | .done t rug front _ => (t, some (liftRug rug, front))

omit LV in
theorem out_scanLoop {σ : Type} (f : Tbl S → Nat → σ → Action (Row S) × σ) (k : Nat) (rug : Rug S) (front back : Nat)
    (stopped : Bool) (s : σ) (t : Tbl S) :
    (Cr.scanLoop (S := S) (liftVisit f) (liftRug rug) front back stopped s k).out t =
      scanLoop f t rug front back stopped s k >>= fun x => .ok (scanOut x) := by
  induction k generalizing rug front back stopped s t with
  | zero => rfl
  | succ k ih =>
    have tail : ∀ (t : Tbl S) (rug : Rug S) (stopped : Bool) (s : σ),
        (Cr.lift (nextId S.max back) >>= fun back => Cr.fillGap (liftRug rug) front (back - front) >>= fun x =>
          Cr.scanLoop (S := S) (liftVisit f) x.1 x.2 back stopped s k).out t =
        (nextId S.max back >>= fun back => fillGap t rug front (back - front) >>= fun x =>
          scanLoop f x.1 x.2.1 x.2.2 back stopped s k) >>= fun x => .ok (scanOut x) := by
      intro t rug stopped s
      rw [out_bind, out_lift, bindAssoc, bindAssoc]
      refine bindCongr (fun b _ => ?_)
      rw [okBind, out_bind, out_fillGap, bindAssoc, bindAssoc]
      refine bindCongr (fun x _ => ?_)
      rw [okBind]
      exact ih _ _ _ _ _ _
    have app : ∀ (rug : Rug S) (x : Row S ⊕ List (Row S)), liftRug (rug ++ [x]) = liftRug rug ++ [Sum.map id (List.map some) x] := by
      intro rug x; simp [liftRug]
    have hask : ∀ (t : Tbl S), (Cr.ask (S := S) (liftVisit f) stopped back s).out t =
        .ok (t, (liftAction (if stopped then (.brk, s) else f t back s).1, (if stopped then (Action.brk, s) else f t back s).2)) := by
      intro t
      cases stopped <;> rfl
    unfold Cr.scanLoop scanLoop
    rw [out_bind, hask, okBind]
    generalize (if stopped then (Action.brk, s) else f t back s) = p
    obtain ⟨action, s'⟩ := p
    cases action with
    | cont remove add =>
      simp only [liftAction]
      rw [out_bind]
      have e : (Cr.keepRow (S := S) remove back (liftRug rug)).out t =
          (if remove then .ok rug else do let r ← t.getRow back; .ok (rug ++ [.inl r])) >>= fun rug => .ok (t, liftRug rug) := by
        unfold Cr.keepRow
        cases remove with
        | true => rfl
        | false =>
          show (Cr.look (Tbl.getRow · back) >>= fun r => Cr.ret (liftRug rug ++ [Sum.inl r])).out t = (t.getRow back >>= _) >>= _
          rw [out_bind, out_look, bindAssoc, bindAssoc]
          refine bindCongr (fun r _ => ?_)
          rw [okBind, okBind, app]; rfl
      rw [e]
      cases remove with
      | true =>
        simp only [if_true, okBind]
        have := tail t (rug ++ [Sum.inr add]) stopped s'
        rw [app] at this
        exact this
      | false =>
        simp only [Bool.false_eq_true, if_false, bindAssoc]
        refine bindCongr (fun r _ => ?_)
        rw [okBind, okBind]
        have := tail t (rug ++ [Sum.inl r] ++ [Sum.inr add]) stopped s'
        rw [app (rug ++ [Sum.inl r])] at this
        simp only [bindAssoc] at this
        exact this
    | brk =>
      simp only [liftAction, liftRug_nil]
      rw [out_ite]
      by_cases hno : front = back ∧ rug = []
      · rw [if_pos hno, if_pos hno]; rfl
      · rw [if_neg hno, if_neg hno, out_bind, out_look, bindAssoc, bindAssoc]
        refine bindCongr (fun r _ => ?_)
        rw [okBind]
        have := tail t (rug ++ [Sum.inl r]) true s'
        rw [app] at this
        exact this

omit LV in
theorem rugSize_lift (rug : Rug S) : Cr.rugSize (liftRug rug) = (rugRows rug).length := by
  induction rug with
  | nil => rfl
  | cons x q ih =>
    rcases x with r | xs
    · show 1 + Cr.rugSize (liftRug q) = (r :: rugRows q).length
      rw [ih]; simp; omega
    · show (xs.map some).length + Cr.rugSize (liftRug q) = (xs ++ rugRows q).length
      rw [ih]; simp

theorem out_unrollRug (k : Nat) (rug : Rug S) (t : Tbl S) :
    (Cr.unrollRug (S := S) (liftRug rug) k).out t = justTbl (unrollRug t rug k) := by
  induction k generalizing rug t with
  | zero => rfl
  | succ k ih =>
    unfold Cr.unrollRug unrollRug
    rw [out_bind, out_lift, pullRug_lift, okBind, okBind]
    cases h : pullRug rug with
    | none => rfl
    | some x =>
      obtain ⟨row, q⟩ := x
      simp only [Option.map]
      rw [out_bind, out_pushOnly]
      unfold justTbl
      rw [bindAssoc]
      refine bindCongr (fun y _ => ?_)
      exact ih q y.1

theorem out_merge0 {σ : Type} (f : Tbl S → Nat → σ → Action (Row S) × σ) (s : σ) (t : Tbl S) :
    (Cr.merge0 (S := S) (liftVisit f) s).out t = justTbl (t.merge0 f s >>= fun x => .ok x.1) := by
  unfold Cr.merge0 Tbl.merge0
  rw [out_bind, out_look, okBind, okBind, out_bind]
  have := out_scanLoop f t.len [] 0 0 false s t
  rw [show liftRug ([] : Rug S) = [] from rfl] at this
  rw [this]
  unfold justTbl
  rw [bindAssoc, bindAssoc, bindAssoc]
  refine bindCongr (fun x _ => ?_)
  rw [okBind]
  cases x with
  | noop t1 s1 => rfl
  | done t1 rug front s1 =>
    simp only [scanOut]
    rw [out_bind, out_truncate]
    unfold justTbl
    rw [bindAssoc, bindAssoc]
    refine bindCongr (fun t2 _ => ?_)
    rw [okBind, rugSize_lift, out_unrollRug]
    unfold justTbl
    rw [bindAssoc]
    refine bindCongr (fun t3 _ => ?_)
    rfl

/-! ## `merge` -/

section
variable {K : Type} [LinearOrder K]

omit LV in
theorem chooseSide_lift (key : Row S → K) (rug iter : List (Row S)) :
    Cr.chooseSide key rug (iter.map some) = .ok (chooseSide key rug iter) := by
  unfold Cr.chooseSide chooseSide
  cases rug with
  | nil => cases iter <;> rfl
  | cons r rs =>
    cases iter with
    | nil => rfl
    | cons i is =>
      simp only [List.map, Cr.peek, okBind]
      split <;> rfl

/-- A log that never panics and collects the ids. -/
def collectLog : Tbl S → Nat → List Nat → Option (List Nat) := fun _ i l => some (l ++ [i])

/-- The part of the state besides the table. -/
def mstOf (st : MergeSt S) : Cr.MSt S (List Nat) := { rug := st.rug, iter := st.iter.map some, log := st.log }

omit LV in
theorem out_mergeBump (key : Row S → K) (st : MergeSt S) (c : Nat) :
    (Cr.mergeBump (S := S) key collectLog (mstOf st) c).out st.tbl = mergeBump key st c >>= fun st => .ok (st.tbl, mstOf st) := by
  unfold Cr.mergeBump mergeBump
  rw [out_bind, out_lift]
  show ((Cr.chooseSide key st.rug (st.iter.map some) >>= _) >>= _) = _
  rw [chooseSide_lift, okBind, okBind]
  cases h : chooseSide key st.rug st.iter with
  | none => rfl
  | some side =>
    cases side with
    | rug =>
      simp only [mstOf]
      cases st.rug with
      | nil => rfl
      | cons v rug =>
        simp only []
        rw [out_bind, out_swapOutRow, bindAssoc]
        refine bindCongr (fun x _ => ?_)
        rfl
    | iter =>
      simp only [mstOf]
      cases st.iter with
      | nil => rfl
      | cons v iter =>
        simp only [List.map]
        rw [out_bind, out_swapOutRow, bindAssoc]
        refine bindCongr (fun x _ => ?_)
        rfl

omit LV in
theorem out_mergeBumps (key : Row S → K) (cs : List Nat) (st : MergeSt S) :
    (Cr.mergeBumps (S := S) key collectLog cs (mstOf st)).out st.tbl = cs.foldlM (mergeBump key) st >>= fun st => .ok (st.tbl, mstOf st) := by
  induction cs generalizing st with
  | nil => rfl
  | cons c cs ih =>
    unfold Cr.mergeBumps
    rw [out_bind, out_mergeBump, List.foldlM_cons, bindAssoc, bindAssoc]
    refine bindCongr (fun st1 _ => ?_)
    rw [okBind]
    exact ih st1

theorem out_mergeFlush (key : Row S → K) (k : Nat) (st : MergeSt S) :
    (Cr.mergeFlush (S := S) key collectLog k (mstOf st)).out st.tbl = mergeFlush key k st >>= fun st => .ok (st.tbl, st.log) := by
  induction k generalizing st with
  | zero => rfl
  | succ k ih =>
    unfold Cr.mergeFlush mergeFlush
    rw [out_bind, out_lift]
    show ((Cr.chooseSide key st.rug (st.iter.map some) >>= _) >>= _) = _
    rw [chooseSide_lift, okBind, okBind]
    cases h : chooseSide key st.rug st.iter with
    | none => rfl
    | some side =>
      cases side with
      | rug =>
        obtain ⟨tb, rg, it, lg⟩ := st
        simp only [mstOf]
        cases rg with
        | nil => rfl
        | cons v rug =>
          simp only []
          rw [out_bind, out_pushOnly, bindAssoc]
          refine bindCongr (fun x _ => ?_)
          exact ih { tbl := x.1, rug := rug, iter := it, log := lg }
      | iter =>
        obtain ⟨tb, rg, it, lg⟩ := st
        simp only [mstOf]
        cases it with
        | nil => rfl
        | cons v iter =>
          simp only [List.map]
          rw [out_bind, out_pushOnly, bindAssoc]
          refine bindCongr (fun x _ => ?_)
          rw [out_bind]
          have e : (Cr.callLog (S := S) collectLog x.2 lg).out x.1 = .ok (x.1, lg ++ [x.2]) := rfl
          rw [e, okBind]
          exact ih { tbl := x.1, rug := rg, iter := iter, log := lg ++ [x.2] }

theorem out_mergeLogged (key : Row S → K) (rows : List (Row S)) (t : Tbl S) :
    (Cr.mergeLogged (S := S) key collectLog (rows.map some) []).out t = t.mergeLogged key rows := by
  unfold Cr.mergeLogged Tbl.mergeLogged
  cases rows with
  | nil => rfl
  | cons first rest =>
    rw [out_bind, out_lift]
    simp only [List.map, Cr.peek, okBind]
    rw [out_bind, out_look, bindAssoc]
    refine bindCongr (fun c _ => ?_)
    rw [okBind, out_bind, out_look, bindAssoc]
    refine bindCongr (fun e _ => ?_)
    rw [okBind, out_bind, out_lift, bindAssoc]
    refine bindCongr (fun ids _ => ?_)
    rw [okBind, out_bind]
    have := out_mergeBumps key ids { tbl := t, rug := [], iter := first :: rest, log := [] }
    simp only [mstOf, List.map] at this
    rw [this, bindAssoc]
    refine bindCongr (fun st _ => ?_)
    rw [okBind]
    have := out_mergeFlush key (st.rug.length + st.iter.length + 1) st
    simp only [mstOf, List.length_map] at this ⊢
    exact this

omit LV in
theorem removeLoop_out {E : Type} (C : TCol E) (k : Nat) (s : C.σ) (ids : List Nat) (bad ugly : Nat) :
    removeLoop C s ids bad ugly k =
      match Cr.removeLoop C s ids bad ugly k with
      | (s, .ok b) => .ok (s, b)
      | (_, .error p) => .error p := by
  induction k generalizing s ids bad ugly with
  | zero => rfl
  | succ k ih =>
    have step : ∀ ids : List Nat, (if bad ≠ ugly then do
          let s ← C.swap s bad ugly
          removeLoop C s ids (bad + 1) (ugly + 1) k
        else removeLoop C s ids (bad + 1) (ugly + 1) k) =
        match (match if bad ≠ ugly then C.swap s bad ugly else .ok s with
          | .ok s => Cr.removeLoop C s ids (bad + 1) (ugly + 1) k
          | .error p => (s, .error p)) with
        | (s, .ok b) => .ok (s, b)
        | (_, .error p) => .error p := by
      intro ids
      by_cases hb : bad ≠ ugly
      · rw [if_pos hb, if_pos hb]
        cases C.swap s bad ugly with
        | ok s1 => rw [okBind]; exact ih s1 ids _ _
        | error p => rfl
      · rw [if_neg hb, if_neg hb]; exact ih s ids _ _
    unfold removeLoop Cr.removeLoop
    cases ids with
    | nil =>
      have h0 : ¬ (([] : List Nat).head? = some ugly) := by simp
      rw [if_neg h0]
      exact step []
    | cons r rs =>
      simp only [List.head?_cons, List.tail_cons, Option.some.injEq]
      by_cases hr : r = ugly
      · rw [if_pos hr, if_pos hr]; exact ih _ _ _ _
      · rw [if_neg hr, if_neg hr]; exact step (r :: rs)

theorem out_removeRows (ids : List Nat) (t : Tbl S) : (Cr.removeRows (S := S) ids).out t = justTbl (t.removeRows ids) := by
  cases ids with
  | nil => rfl
  | cons r rs =>
    unfold Cr.removeRows Tbl.removeRows
    simp only []
    rw [out_bind, out_lift]
    unfold justTbl
    rw [bindAssoc, bindAssoc]
    refine bindCongr (fun _ _ => ?_)
    rw [okBind, out_bind, out_look, okBind, okBind, out_ite]
    simp only []
    by_cases h : ((r :: rs).getLast?).getD 0 < t.len
    · rw [if_pos h, if_pos h]
      have := out_cols (S := S) (fun j s => do
          let (s, bad) ← removeLoop (S.C j) s (r :: rs) 0 0 t.len
          (S.C j).truncate s bad)
        (fun j s => match Cr.removeLoop (S.C j) s (r :: rs) 0 0 t.len with
          | (s, .ok bad) => Leaves.truncate s bad
          | (s, .error _) => s) t
      unfold justTbl at this
      rw [← this]
      congr 2
      funext j s
      rw [removeLoop_out]
      cases hl : Cr.removeLoop (S.C j) s (r :: rs) 0 0 t.len with
      | mk s' x =>
        cases x with
        | ok bad => rfl
        | error p => rfl
    · rw [if_neg h, if_neg h]; rfl

end
end V11
