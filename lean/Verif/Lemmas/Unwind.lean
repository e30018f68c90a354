import Verif.Spec.Unwind
import Verif.Lemmas.Leftovers

/-!
# Calls on a write lock that may panic
-/

set_option linter.unusedSimpArgs false
set_option linter.unusedSectionVars false
set_option linter.unusedVariables false

namespace V11
variable {S : Schema} {α β : Type}

theorem wr_ok {x : Wr S α} {f : α → Wr S β} {w w1 : W S} {a : α} (h : x w = (w1, .ok a)) : (x >>= f) w = f a w1 := by
  show Wr.andThen x f w = _
  unfold Wr.andThen
  rw [h]

theorem wr_err {x : Wr S α} {f : α → Wr S β} {w w1 : W S} {p : Panic} (h : x w = (w1, .error p)) : (x >>= f) w = (w1, .error p) := by
  show Wr.andThen x f w = _
  unfold Wr.andThen
  rw [h]

/-- The result without the lock that a panic leaves. -/
def Wr.outOf : W S × R α → R (W S × α)
  | (w, .ok a) => .ok (w, a)
  | (_, .error p) => .error p

/-- The same for a call. -/
def Wr.out (x : Wr S α) (w : W S) : R (W S × α) := Wr.outOf (x w)

theorem wout_bind (x : Wr S α) (f : α → Wr S β) (w : W S) : (x >>= f).out w = x.out w >>= fun p => (f p.2).out p.1 := by
  unfold Wr.out
  rcases h : x w with ⟨w1, r⟩
  cases r with
  | ok a => rw [wr_ok h]; rfl
  | error p => rw [wr_err h]; rfl

theorem wout_ok {x : Wr S α} {w w' : W S} {a : α} : x.out w = .ok (w', a) ↔ x w = (w', .ok a) := by
  unfold Wr.out
  rcases h : x w with ⟨w1, r⟩
  cases r with
  | ok b =>
    simp only [Wr.outOf]
    constructor
    · intro h; injection h with h; injection h with h1 h2; subst h1 h2; rfl
    · intro h; injection h with h1 h2; injection h2 with h2; subst h1 h2; rfl
  | error p => simp [Wr.outOf]

theorem wout_err {x : Wr S α} {w : W S} {p : Panic} : x.out w = .error p ↔ (x w).2 = .error p := by
  unfold Wr.out
  rcases h : x w with ⟨w1, r⟩
  cases r <;> simp [Wr.outOf]

theorem wout_onTbl (x : Cr S α) (w : W S) : (Wr.onTbl x).out w = x.out w.tbl >>= fun p => .ok ({ w with tbl := p.1 }, p.2) := by
  unfold Wr.out Wr.onTbl Cr.out
  rcases x w.tbl with ⟨t1, r⟩
  cases r <;> rfl

theorem wout_mark (f : W S → W S) (w : W S) : (Wr.mark f).out w = .ok (f w, ()) := rfl

theorem wout_ret (a : α) (w : W S) : (Wr.ret a).out w = .ok (w, a) := rfl

variable [LV : LeavesSchema S]

theorem wout_pushEnd (row : Row S) (w : W S) : (Wr.pushEnd row).out w = w.pushEnd row := by
  unfold Wr.pushEnd W.pushEnd
  rw [wout_bind, wout_onTbl, out_pushOnly, bindAssoc]
  refine bindCongr (fun x _ => ?_)
  rfl

theorem wout_push (row : Row S) (w : W S) : (Wr.push row).out w = w.push row := by
  unfold Wr.push W.push
  rw [wout_bind, wout_onTbl, out_look, okBind, okBind, okBind]
  cases hf : w.tbl.free with
  | nil =>
    simp only []
    exact wout_pushEnd row w
  | cons old rest =>
    simp only []
    rw [wout_bind, wout_onTbl]
    have e : ∀ t : Tbl S, (Cr.setFree (BSet.erase old)).out t = .ok ({ t with free := BSet.erase old t.free }, ()) := fun t => rfl
    rw [e, okBind, okBind, wout_bind, wout_mark, okBind, wout_bind, wout_onTbl, out_swapOutRow, bindAssoc, hf]
    refine bindCongr (fun x _ => ?_)
    rfl

theorem wout_pushAll (rows : List (Row S)) (w : W S) : (Wr.pushAll (rows.map some)).out w = w.pushAll rows >>= fun w => .ok (w, ()) := by
  induction rows generalizing w with
  | nil => rfl
  | cons r rs ih =>
    show (Wr.push r >>= fun _ => Wr.pushAll (rs.map some)).out w = _
    rw [wout_bind, wout_push]
    unfold W.pushAll
    rw [List.foldlM_cons, bindAssoc, bindAssoc]
    refine bindCongr (fun x _ => ?_)
    rw [okBind]
    exact ih x.1

theorem wout_pushArrayLoop (rows : List (Row S)) (last : Nat) (w : W S) :
    (Wr.pushArrayLoop last (rows.map some)).out w = w.pushArrayLoop last rows := by
  induction rows generalizing w last with
  | nil => rfl
  | cons r rs ih =>
    show (Wr.pushEnd r >>= fun i => Wr.pushArrayLoop i (rs.map some)).out w = _
    rw [wout_bind, wout_pushEnd]
    unfold W.pushArrayLoop
    refine bindCongr (fun x _ => ?_)
    exact ih x.2 x.1

theorem wout_pushArray (rows : List (Row S)) (w : W S) : (Wr.pushArray (rows.map some)).out w = w.pushArray rows := by
  cases rows with
  | nil => rfl
  | cons r rs =>
    show (Wr.pushEnd r >>= fun start => Wr.pushArrayLoop start (rs.map some) >>= fun last =>
      Wr.onTbl (Cr.lift (nextId S.max last)) >>= fun e => Wr.ret (start, e)).out w = _
    rw [wout_bind, wout_pushEnd]
    unfold W.pushArray
    refine bindCongr (fun x _ => ?_)
    rw [wout_bind, wout_pushArrayLoop]
    refine bindCongr (fun y _ => ?_)
    rw [wout_bind, wout_onTbl, out_lift, bindAssoc, bindAssoc]
    refine bindCongr (fun e _ => ?_)
    rfl

theorem wout_delete (i : Nat) (w : W S) : (Wr.delete i).out w = w.deleteRow i >>= fun w => .ok (w, ()) := by
  unfold Wr.delete W.deleteRow
  generalize S.kind = kd
  cases kd with
  | consistent =>
    simp only []
    rw [wout_bind, wout_onTbl, out_look, bindAssoc, bindAssoc, bindAssoc]
    refine bindCongr (fun x _ => ?_)
    rfl
  | bag =>
    simp only []
    rw [wout_onTbl, out_bagDelete]
    unfold BagIter.bagDelete justTbl
    rw [bindAssoc, bindAssoc, bindAssoc]
    refine bindCongr (fun x _ => ?_)
    rw [bindAssoc]
    refine bindCongr (fun y _ => ?_)
    rfl
  | append => rfl
  | list => rfl
  | sorted => rfl

theorem wout_clear (w : W S) : (Wr.clear (S := S)).out w = w.clear >>= fun w => .ok (w, ()) := by
  unfold Wr.clear W.clear
  generalize S.kind = kd
  cases kd with
  | consistent => rfl
  | bag =>
    simp only []
    rw [wout_onTbl, out_clearRaw]
    unfold justTbl
    rw [bindAssoc, bindAssoc]
    refine bindCongr (fun x _ => ?_)
    rfl
  | append =>
    simp only []
    rw [wout_onTbl, out_clearRaw]
    unfold justTbl
    rw [bindAssoc, bindAssoc]
    refine bindCongr (fun x _ => ?_)
    rfl
  | list => rfl
  | sorted => rfl

/-! ## The change list -/

omit LV in
theorem push_isEmpty (c : Select (List Nat)) (i : Nat) : (c.push i).isEmpty = false := by
  cases c with
  | all => rfl
  | these l => simp [Select.push, Select.isEmpty]

omit LV in
theorem eventAdd_changes (w : W S) (i : Nat) (hk : S.kind = .consistent) : (w.eventAdd i).changes.isEmpty = false := by
  unfold W.eventAdd
  rw [if_pos hk]
  exact push_isEmpty _ _

/-- What is listed stays listed. -/
def Wr.Keeps (x : Wr S α) : Prop := ∀ w, w.changes.isEmpty = false → (x w).1.changes.isEmpty = false

omit LV in
theorem Wr.Keeps.bind {x : Wr S α} {f : α → Wr S β} (hx : x.Keeps) (hf : ∀ a, (f a).Keeps) : (x >>= f).Keeps := by
  intro w hw
  have := hx w hw
  rcases h : x w with ⟨w1, r⟩
  rw [h] at this
  cases r with
  | ok a => rw [wr_ok h]; exact hf a w1 this
  | error p => rw [wr_err h]; exact this

omit LV in
theorem Wr.Keeps.onTbl (x : Cr S α) : (Wr.onTbl x).Keeps := fun _ hw => hw

omit LV in
theorem Wr.Keeps.ret (a : α) : (Wr.ret a : Wr S α).Keeps := fun _ hw => hw

omit LV in
theorem Wr.Keeps.fail (p : Panic) : (Wr.fail p : Wr S α).Keeps := fun _ hw => hw

omit LV in
theorem Wr.Keeps.add (i : Nat) : (Wr.mark (S := S) (·.eventAdd i)).Keeps := by
  intro w hw
  show (w.eventAdd i).changes.isEmpty = false
  by_cases hk : S.kind = .consistent
  · exact eventAdd_changes w i hk
  · unfold W.eventAdd; rw [if_neg hk]; exact hw

theorem Wr.Keeps.pushEnd (row : Row S) : (Wr.pushEnd row).Keeps :=
  (Wr.Keeps.onTbl _).bind fun i => (Wr.Keeps.add i).bind fun _ => Wr.Keeps.ret i

theorem Wr.Keeps.push (row : Row S) : (Wr.push row).Keeps := by
  refine (Wr.Keeps.onTbl _).bind fun free => ?_
  cases free with
  | nil => exact Wr.Keeps.pushEnd row
  | cons old rest =>
    exact (Wr.Keeps.onTbl _).bind fun _ => (Wr.Keeps.add old).bind fun _ => (Wr.Keeps.onTbl _).bind fun _ => Wr.Keeps.ret old

theorem Wr.Keeps.pushAll (rows : List (Option (Row S))) : (Wr.pushAll rows).Keeps := by
  induction rows with
  | nil => exact Wr.Keeps.ret ()
  | cons r rows ih =>
    cases r with
    | none => exact Wr.Keeps.fail _
    | some r => exact (Wr.Keeps.push r).bind fun _ => ih

theorem Wr.Keeps.pushArrayLoop (rows : List (Option (Row S))) (last : Nat) : (Wr.pushArrayLoop last rows).Keeps := by
  induction rows generalizing last with
  | nil => exact Wr.Keeps.ret last
  | cons r rows ih =>
    cases r with
    | none => exact Wr.Keeps.fail _
    | some r => exact (Wr.Keeps.pushEnd r).bind fun i => ih i

theorem Wr.Keeps.pushArray (rows : List (Option (Row S))) : (Wr.pushArray rows).Keeps := by
  cases rows with
  | nil => exact Wr.Keeps.ret _
  | cons r rows =>
    cases r with
    | none => exact Wr.Keeps.fail _
    | some r =>
      exact (Wr.Keeps.pushEnd r).bind fun i => (Wr.Keeps.pushArrayLoop rows i).bind fun _ => (Wr.Keeps.onTbl _).bind fun _ =>
        Wr.Keeps.ret _

variable {K : Type} [LinearOrder K] {key : Row S → K}

theorem UOp.keeps (op : UOp S) : (op.run key).Keeps := by
  cases op with
  | push row => exact (Wr.Keeps.push row).bind fun _ => Wr.Keeps.ret ()
  | pushAll rows => exact Wr.Keeps.pushAll rows
  | pushArray rows => exact (Wr.Keeps.pushArray rows).bind fun _ => Wr.Keeps.ret ()
  | delete i =>
    show (Wr.delete i).Keeps
    unfold Wr.delete
    generalize hk : S.kind = kd
    cases kd with
    | consistent =>
      refine (Wr.Keeps.onTbl _).bind fun i => ?_
      intro w hw
      show (w.eventDel i).changes.isEmpty = false
      unfold W.eventDel
      rw [if_pos hk]
      exact push_isEmpty _ _
    | bag => exact Wr.Keeps.onTbl _
    | append => exact Wr.Keeps.fail _
    | list => exact Wr.Keeps.fail _
    | sorted => exact Wr.Keeps.fail _
  | clear =>
    show (Wr.clear (S := S)).Keeps
    unfold Wr.clear
    generalize S.kind = kd
    cases kd with
    | consistent => exact fun w _ => rfl
    | bag => exact Wr.Keeps.onTbl _
    | append => exact Wr.Keeps.onTbl _
    | list => exact Wr.Keeps.ret ()
    | sorted => exact Wr.Keeps.ret ()
  | select i => exact fun w _ => push_isEmpty _ _
  | selectAll => exact fun w _ => rfl
  | set j i v => exact Wr.Keeps.onTbl _
  | other op => exact Wr.Keeps.onTbl _
  | user => exact Wr.Keeps.fail _

/-! ## The table -/

/-- A call on the lock does to the table what the call on the table does. -/
def Wr.Does (x : Wr S α) (y : Cr S α) : Prop := ∀ w, (x w).1.tbl = (y w.tbl).1 ∧ (x w).2 = (y w.tbl).2

omit LV in
theorem Wr.Does.bind {x : Wr S α} {y : Cr S α} {f : α → Wr S β} {g : α → Cr S β} (hx : x.Does y) (hf : ∀ a, (f a).Does (g a)) :
    (x >>= f).Does (y >>= g) := by
  intro w
  obtain ⟨h1, h2⟩ := hx w
  rcases h : x w with ⟨w1, r⟩
  rcases h' : y w.tbl with ⟨t1, r'⟩
  rw [h, h'] at h1 h2
  simp only [] at h1 h2
  subst h1 h2
  cases r with
  | ok a => rw [wr_ok h, cr_ok h']; exact hf a w1
  | error p => rw [wr_err h, cr_err h']; exact ⟨rfl, rfl⟩

omit LV in
theorem Wr.Does.onTbl (x : Cr S α) : (Wr.onTbl x).Does x := fun _ => ⟨rfl, rfl⟩

omit LV in
theorem Wr.Does.ret (a : α) : (Wr.ret a : Wr S α).Does (Cr.ret a) := fun _ => ⟨rfl, rfl⟩

omit LV in
theorem Wr.Does.fail (p : Panic) : (Wr.fail p : Wr S α).Does (Cr.fail p) := fun _ => ⟨rfl, rfl⟩

omit LV in
theorem Wr.Does.marked {f : W S → W S} (hf : ∀ w, (f w).tbl = w.tbl) {x : Wr S α} {y : Cr S α} (h : x.Does y) :
    (Wr.mark f >>= fun _ => x).Does y := by
  intro w
  rw [wr_ok (x := Wr.mark f) (w1 := f w) (a := ()) rfl, ← hf w]
  exact h (f w)

theorem Wr.Does.pushEnd (row : Row S) : (Wr.pushEnd row).Does (Cr.pushOnly row) := by
  have : (Wr.pushEnd row).Does (Cr.pushOnly row >>= fun i => Cr.ret i) :=
    (Wr.Does.onTbl _).bind fun i => (Wr.Does.ret i).marked fun w => eventAdd_tbl' w i
  intro w
  have := this w
  rcases h : Cr.pushOnly row w.tbl with ⟨t1, r⟩
  cases r with
  | ok a => rw [cr_ok h] at this; exact this
  | error p => rw [cr_err h] at this; exact this

theorem Wr.Does.push (row : Row S) : (Wr.push row).Does (Cr.push row) := by
  refine (Wr.Does.onTbl _).bind fun free => ?_
  cases free with
  | nil => exact Wr.Does.pushEnd row
  | cons old rest =>
    exact (Wr.Does.onTbl _).bind fun _ => ((Wr.Does.onTbl _).bind fun _ => Wr.Does.ret old).marked fun w => eventAdd_tbl' w old

theorem Wr.Does.pushAll (rows : List (Option (Row S))) : (Wr.pushAll rows).Does (Cr.pushAll rows) := by
  induction rows with
  | nil => exact Wr.Does.ret ()
  | cons r rows ih =>
    cases r with
    | none => exact Wr.Does.fail _
    | some r => exact (Wr.Does.push r).bind fun _ => ih

theorem Wr.Does.pushArrayLoop (rows : List (Option (Row S))) (last : Nat) :
    (Wr.pushArrayLoop last rows).Does (Cr.pushArrayLoop last rows) := by
  induction rows generalizing last with
  | nil => exact Wr.Does.ret last
  | cons r rows ih =>
    cases r with
    | none => exact Wr.Does.fail _
    | some r => exact (Wr.Does.pushEnd r).bind fun i => ih i

theorem Wr.Does.pushArray (rows : List (Option (Row S))) : (Wr.pushArray rows).Does (Cr.pushArray rows) := by
  cases rows with
  | nil => exact Wr.Does.ret _
  | cons r rows =>
    cases r with
    | none => exact Wr.Does.fail _
    | some r =>
      exact (Wr.Does.pushEnd r).bind fun i => (Wr.Does.pushArrayLoop rows i).bind fun _ => (Wr.Does.onTbl _).bind fun _ =>
        Wr.Does.ret _

/-- On a table that is not consistent, every call is one of `Model/Crash`, or does nothing to the table. -/
theorem UOp.does (op : UOp S) (ha : op.Allowed S) (hk : S.kind ≠ .consistent) (w : W S) :
    (∃ c : COp S, c.Allowed S ∧ (op.run key w).1.tbl = (c.run key w.tbl).1 ∧ (op.run key w).2 = (c.run key w.tbl).2) ∨
    ((op.run key w).1.tbl = w.tbl ∧ (op.run key w).2 ≠ .error .idxOverflow) := by
  cases op with
  | push row => exact Or.inl ⟨.push row, ha, ((Wr.Does.push row).bind fun _ => Wr.Does.ret ()) w⟩
  | pushAll rows => exact Or.inl ⟨.pushAll rows, ha, Wr.Does.pushAll rows w⟩
  | pushArray rows => exact Or.inl ⟨.pushArray rows, ha, ((Wr.Does.pushArray rows).bind fun _ => Wr.Does.ret ()) w⟩
  | delete i =>
    by_cases hb : S.kind = .bag
    · refine Or.inl ⟨.bagDelete i, hb, ?_⟩
      show ((Wr.delete i) w).1.tbl = (Cr.bagDelete i w.tbl).1 ∧ ((Wr.delete i) w).2 = (Cr.bagDelete i w.tbl).2
      unfold Wr.delete
      simp only [hb]
      exact Wr.Does.onTbl _ w
    · right
      show ((Wr.delete i) w).1.tbl = w.tbl ∧ ((Wr.delete i) w).2 ≠ _
      unfold Wr.delete
      generalize S.kind = kd at hk hb
      cases kd <;> first | exact absurd rfl hk | exact absurd rfl hb | exact ⟨rfl, fun h => by cases h⟩
  | clear =>
    show (∃ c : COp S, c.Allowed S ∧ ((Wr.clear (S := S)) w).1.tbl = (c.run key w.tbl).1 ∧ ((Wr.clear (S := S)) w).2 = (c.run key w.tbl).2) ∨
      (((Wr.clear (S := S)) w).1.tbl = w.tbl ∧ ((Wr.clear (S := S)) w).2 ≠ _)
    by_cases hb : S.kind = .bag ∨ S.kind = .append
    · refine Or.inl ⟨.clearRaw, trivial, ?_⟩
      show _ = (Cr.clearRaw w.tbl).1 ∧ _ = (Cr.clearRaw w.tbl).2
      unfold Wr.clear
      rcases hb with hb | hb <;> simp only [hb] <;> exact Wr.Does.onTbl _ w
    · right
      unfold Wr.clear
      generalize S.kind = kd at hk hb
      cases kd <;> first | exact absurd rfl hk | exact absurd (Or.inl rfl) hb | exact absurd (Or.inr rfl) hb |
        exact ⟨rfl, fun h => by cases h⟩
  | select i => exact Or.inr ⟨rfl, fun h => by cases h⟩
  | selectAll => exact Or.inr ⟨rfl, fun h => by cases h⟩
  | set j i v => exact Or.inl ⟨.set j i v, trivial, Wr.Does.onTbl _ w⟩
  | other op => exact Or.inl ⟨op, ha.1, Wr.Does.onTbl _ w⟩
  | user => exact Or.inr ⟨rfl, fun h => by cases h⟩

/-! ## A call on a consistent table -/

variable [LS : LawfulSchema S]

/-- A push on a consistent table. -/
theorem wr_push {w : W S} (hk : S.kind = .consistent) {L : List (Row S)} (h : WF w.tbl L) (row : Row S) :
    (∃ w' i L', Wr.push row w = (w', .ok i) ∧ w'.changes.isEmpty = false ∧ WF w'.tbl L') ∨
    (w.tbl.free = [] ∧ L.length = S.max + 1 ∧ (Wr.push row w).2 = .error .idxOverflow ∧ (Wr.push row w).1.changes = w.changes) := by
  rcases h.push row with ⟨old, rest, t', hf, e1, e2, e3⟩ | ⟨t', hf, hle, e1, e2, e3⟩ | ⟨hf, hlen, e1⟩
  · exact Or.inl ⟨_, _, _, wout_ok.1 ((wout_push row w).trans e1), eventAdd_changes w _ hk, e3⟩
  · exact Or.inl ⟨_, _, _, wout_ok.1 ((wout_push row w).trans e1), eventAdd_changes w _ hk, e3⟩
  · refine Or.inr ⟨hf, hlen, wout_err.1 ((wout_push row w).trans e1), ?_⟩
    have he := wout_err.1 ((wout_push row w).trans e1)
    unfold Wr.push at he ⊢
    rw [wr_ok (x := Wr.onTbl (Cr.look fun t : Tbl S => .ok t.free)) (w1 := w) (a := w.tbl.free) rfl, hf] at he ⊢
    simp only [] at he ⊢
    unfold Wr.pushEnd at he ⊢
    rcases hx : Wr.onTbl (Cr.pushOnly row) w with ⟨w1, r⟩
    have hc : w1.changes = w.changes := by
      have : (Wr.onTbl (Cr.pushOnly row) w).1.changes = w.changes := rfl
      rw [hx] at this; exact this
    cases r with
    | ok a => rw [wr_ok hx] at he; cases he
    | error p => rw [wr_err hx]; exact hc

/-- The same at the end. -/
theorem wr_pushEnd {w : W S} (hk : S.kind = .consistent) {L : List (Row S)} (h : WF w.tbl L) (row : Row S) :
    (∃ w' i L', L.length ≤ S.max ∧ Wr.pushEnd row w = (w', .ok i) ∧ w'.changes.isEmpty = false ∧ WF w'.tbl L') ∨
    (L.length = S.max + 1 ∧ (Wr.pushEnd row w).2 = .error .idxOverflow ∧ (Wr.pushEnd row w).1.changes = w.changes) := by
  by_cases hl : L.length ≤ S.max
  · obtain ⟨t', e1, e2, e3⟩ := h.pushOnly row hl
    have e : w.pushEnd row = .ok (({ w with tbl := t' } : W S).eventAdd L.length, L.length) := by
      unfold W.pushEnd; rw [e1]; rfl
    exact Or.inl ⟨_, _, _, hl, wout_ok.1 ((wout_pushEnd row w).trans e), eventAdd_changes _ _ hk, by rw [eventAdd_tbl']; exact e3⟩
  · have hlen : L.length = S.max + 1 := by have := h.rep.le; omega
    have e : w.pushEnd row = .error .idxOverflow := by
      unfold W.pushEnd; rw [h.rep.pushOnly_full row hlen]; rfl
    have he := wout_err.1 ((wout_pushEnd row w).trans e)
    refine Or.inr ⟨hlen, he, ?_⟩
    unfold Wr.pushEnd at he ⊢
    rcases hx : Wr.onTbl (Cr.pushOnly row) w with ⟨w1, r⟩
    have hc : w1.changes = w.changes := by
      have : (Wr.onTbl (Cr.pushOnly row) w).1.changes = w.changes := rfl
      rw [hx] at this; exact this
    cases r with
    | ok a => rw [wr_ok hx] at he; cases he
    | error p => rw [wr_err hx]; exact hc

theorem WF.gap {t : Tbl S} {L : List (Row S)} (h : WF t L) : HasGap t ↔ t.free ≠ [] := by
  constructor
  · rintro ⟨i, hi, hc⟩ hf
    have := (h.contains_iff i).2 ⟨h.len ▸ hi, by rw [hf]; simp⟩
    rw [this] at hc; cases hc
  · intro hf
    obtain ⟨i, hi⟩ := List.exists_mem_of_ne_nil _ hf
    refine ⟨i, h.len ▸ h.lt i hi, ?_⟩
    by_contra hc
    exact ((h.contains_iff i).1 (Bool.of_not_eq_false hc)).2 hi

/-- `push_all` keeps the table well-formed as long as it does not panic. -/
theorem wr_pushAll_wf (hk : S.kind = .consistent) (rows : List (Option (Row S))) {w w' : W S} {L : List (Row S)} (h : WF w.tbl L)
    (e : Wr.pushAll rows w = (w', .ok ())) : ∃ L', WF w'.tbl L' := by
  induction rows generalizing w L with
  | nil => injection e with e1 e2; subst e1; exact ⟨L, h⟩
  | cons r rows ih =>
    cases r with
    | none => injection e with e1 e2; cases e2
    | some r =>
      replace e : (Wr.push r >>= fun _ => Wr.pushAll rows) w = (w', .ok ()) := e
      rcases wr_push hk h r with ⟨w1, i, L1, e1, _, h1⟩ | ⟨_, _, e2, _⟩
      · rw [wr_ok e1] at e; exact ih h1 e
      · rcases hx : Wr.push r w with ⟨w1, q⟩
        rw [hx] at e2
        simp only [] at e2; subst e2
        rw [wr_err hx] at e; injection e with _ e; cases e

theorem wr_pushArrayLoop_wf (hk : S.kind = .consistent) (rows : List (Option (Row S))) {last a : Nat} {w w' : W S} {L : List (Row S)}
    (h : WF w.tbl L) (e : Wr.pushArrayLoop last rows w = (w', .ok a)) : ∃ L', WF w'.tbl L' := by
  induction rows generalizing w L last with
  | nil => injection e with e1 e2; subst e1; exact ⟨L, h⟩
  | cons r rows ih =>
    cases r with
    | none => injection e with e1 e2; cases e2
    | some r =>
      replace e : (Wr.pushEnd r >>= fun i => Wr.pushArrayLoop i rows) w = (w', .ok a) := e
      rcases wr_pushEnd hk h r with ⟨w1, i, L1, _, e1, _, h1⟩ | ⟨_, e2, _⟩
      · rw [wr_ok e1] at e; exact ih h1 e
      · rcases hx : Wr.pushEnd r w with ⟨w1, q⟩
        rw [hx] at e2
        simp only [] at e2; subst e2
        rw [wr_err hx] at e; injection e with _ e; cases e

omit LV LS in
/-- Reading off a call whose result is dropped. -/
theorem wr_unit {x : Wr S α} {w : W S} : ((x >>= fun _ => Wr.ret ()) w).1 = (x w).1 ∧
    (∀ p, ((x >>= fun _ => Wr.ret ()) w).2 = .error p ↔ (x w).2 = .error p) ∧
    (((x >>= fun _ => Wr.ret ()) w).2 = .ok () ↔ ∃ a, (x w).2 = .ok a) := by
  rcases hx : x w with ⟨w1, r⟩
  cases r with
  | ok a => rw [wr_ok hx]; exact ⟨rfl, fun p => ⟨fun h => (by cases h), fun h => (by cases h)⟩, ⟨fun _ => ⟨a, rfl⟩, fun _ => rfl⟩⟩
  | error p =>
    rw [wr_err hx]
    exact ⟨rfl, fun q => by simp, ⟨fun h => (by cases h), fun ⟨a, h⟩ => (by cases h)⟩⟩

/-- A call that returned. -/
theorem UOp.returned (hk : S.kind = .consistent) (op : UOp S) (ha : op.Allowed S) {w w' : W S} {L : List (Row S)} (h : WF w.tbl L)
    (e : op.run key w = (w', .ok ())) :
    (∃ L', WF w'.tbl L') ∧ (w'.changes.isEmpty = false ↔ w.changes.isEmpty = false ∨ op.Marks) ∧
    (¬ op.Marks → w'.tbl.free = w.tbl.free ∧ w'.tbl.len = w.tbl.len ∧ (¬ op.IsSet → w'.tbl = w.tbl)) := by
  cases op with
  | push row =>
    rcases wr_push hk h row with ⟨w1, i, L1, e1, e2, h1⟩ | ⟨_, _, e2, _⟩
    · have : (UOp.push row).run key w = (w1, .ok ()) := by
        show (Wr.push row >>= fun _ => Wr.ret ()) w = _
        rw [wr_ok e1]; rfl
      rw [this] at e; injection e with e _; subst e
      exact ⟨⟨L1, h1⟩, ⟨fun _ => Or.inr trivial, fun _ => e2⟩, fun hm => absurd trivial hm⟩
    · have := (wr_unit (x := Wr.push row) (w := w)).2.1 .idxOverflow |>.2 e2
      replace e : (Wr.push row >>= fun _ => Wr.ret ()) w = (w', .ok ()) := e
      rw [e] at this; cases this
  | pushAll rows =>
    refine ⟨wr_pushAll_wf hk rows h e, ?_⟩
    cases rows with
    | nil => injection e with e _; subst e; simp [UOp.Marks]
    | cons r rows =>
      refine ⟨⟨fun _ => Or.inr (by simp [UOp.Marks]), fun _ => ?_⟩, fun hm => absurd (by simp [UOp.Marks]) hm⟩
      cases r with
      | none => injection e with _ e; cases e
      | some r =>
        replace e : (Wr.push r >>= fun _ => Wr.pushAll rows) w = (w', .ok ()) := e
        rcases wr_push hk h r with ⟨w1, i, L1, e1, e2, h1⟩ | ⟨_, _, e2, _⟩
        · rw [wr_ok e1] at e
          have := Wr.Keeps.pushAll rows w1 e2
          rw [e] at this; exact this
        · rcases hx : Wr.push r w with ⟨w1, q⟩
          rw [hx] at e2
          simp only [] at e2; subst e2
          rw [wr_err hx] at e; injection e with _ e; cases e
  | pushArray rows =>
    cases rows with
    | nil =>
      have : (UOp.pushArray ([] : List (Option (Row S)))).run key w = (w, .ok ()) := rfl
      rw [this] at e; injection e with e _; subst e; exact ⟨⟨L, h⟩, by simp [UOp.Marks]⟩
    | cons r rows =>
      cases r with
      | none => injection e with _ e; cases e
      | some r =>
        obtain ⟨u1, u2, u3⟩ := wr_unit (x := Wr.pushArray (some r :: rows)) (w := w)
        replace e : (Wr.pushArray (some r :: rows) >>= fun _ => Wr.ret ()) w = (w', .ok ()) := e
        rw [e] at u1 u2 u3
        obtain ⟨a, ea⟩ := u3.1 rfl
        have hx : Wr.pushArray (some r :: rows) w = (w', .ok a) := by rw [← ea, show w' = _ from u1]
        replace hx : (Wr.pushEnd r >>= fun start => Wr.pushArrayLoop start rows >>= fun last =>
          Wr.onTbl (Cr.lift (nextId S.max last)) >>= fun e => Wr.ret (start, e)) w = (w', .ok a) := hx
        rcases wr_pushEnd hk h r with ⟨w1, i, L1, _, e1, e2, h1⟩ | ⟨_, e2, _⟩
        · rw [wr_ok e1] at hx
          rcases hl : Wr.pushArrayLoop i rows w1 with ⟨w2, q⟩
          cases q with
          | error p => rw [wr_err hl] at hx; injection hx with _ hx; cases hx
          | ok last =>
            obtain ⟨L2, h2⟩ := wr_pushArrayLoop_wf hk rows h1 hl
            have hk2 := Wr.Keeps.pushArrayLoop rows i w1 e2
            rw [hl] at hk2
            rw [wr_ok hl] at hx
            have hw : w' = w2 := by
              cases hn : nextId S.max last with
              | error p =>
                rw [wr_err (x := Wr.onTbl (Cr.lift (nextId S.max last))) (w1 := w2) (p := p) (by unfold Wr.onTbl Cr.lift; rw [hn])] at hx
                injection hx with _ hx; cases hx
              | ok n =>
                rw [wr_ok (x := Wr.onTbl (Cr.lift (nextId S.max last))) (w1 := w2) (a := n) (by unfold Wr.onTbl Cr.lift; rw [hn])] at hx
                injection hx with hx _; exact hx.symm
            subst hw
            exact ⟨⟨L2, h2⟩, ⟨fun _ => Or.inr (by simp [UOp.Marks]), fun _ => hk2⟩, fun hm => absurd (by simp [UOp.Marks]) hm⟩
        · rcases hy : Wr.pushEnd r w with ⟨w1, q⟩
          rw [hy] at e2
          simp only [] at e2; subst e2
          rw [wr_err hy] at hx; injection hx with _ hx; cases hx
  | delete i =>
    replace e : Wr.delete i w = (w', .ok ()) := e
    unfold Wr.delete at e
    simp only [hk] at e
    cases hc : w.tbl.check i with
    | error p =>
      rw [wr_err (x := Wr.onTbl (Cr.look (Tbl.check · i))) (w1 := w) (p := p) (by unfold Wr.onTbl Cr.look; simp only [hc])] at e
      injection e with _ e; cases e
    | ok a =>
      rw [wr_ok (x := Wr.onTbl (Cr.look (Tbl.check · i))) (w1 := w) (a := a) (by unfold Wr.onTbl Cr.look; simp only [hc])] at e
      have e' : w.eventDel a = w' := congrArg Prod.fst e
      have ht : w'.tbl = w.tbl := by rw [← e']; unfold W.eventDel; split <;> rfl
      have hc : w'.changes.isEmpty = false := by rw [← e']; unfold W.eventDel; rw [if_pos hk]; exact push_isEmpty _ _
      exact ⟨⟨L, ht ▸ h⟩, ⟨fun _ => Or.inr trivial, fun _ => hc⟩, fun hm => absurd trivial hm⟩
  | clear =>
    replace e : Wr.clear w = (w', .ok ()) := e
    unfold Wr.clear at e
    simp only [hk] at e
    have e' : ({ w with delete := true, changes := .all } : W S) = w' := congrArg Prod.fst e
    subst e'
    exact ⟨⟨L, h⟩, ⟨fun _ => Or.inr trivial, fun _ => rfl⟩, fun hm => absurd trivial hm⟩
  | select i =>
    have e' : w.select i = w' := congrArg Prod.fst e
    subst e'
    exact ⟨⟨L, h⟩, ⟨fun _ => Or.inr trivial, fun _ => push_isEmpty _ _⟩, fun hm => absurd trivial hm⟩
  | selectAll =>
    have e' : w.selectAll = w' := congrArg Prod.fst e
    subst e'
    exact ⟨⟨L, h⟩, ⟨fun _ => Or.inr trivial, fun _ => rfl⟩, fun hm => absurd trivial hm⟩
  | set j i v =>
    replace e : Wr.onTbl (Cr.setCell j i v) w = (w', .ok ()) := e
    have h1 : w'.tbl = (Cr.setCell j i v w.tbl).1 := (congrArg (W.tbl ∘ Prod.fst) e).symm
    have h2 : (Cr.setCell j i v w.tbl).2 = .ok () := congrArg Prod.snd e
    have h3 : w'.changes = w.changes := (congrArg (W.changes ∘ Prod.fst) e).symm
    unfold Cr.setCell at h1 h2
    have hi : i < L.length := by
      by_contra hc
      rw [h.rep.setCell_oob j v (not_lt.1 hc)] at h2
      cases h2
    rcases h.setCell j v hi with he | ⟨t', he, hf, hw⟩
    · rw [he] at h2; cases h2
    · rw [he] at h1
      simp only [] at h1
      rw [h1]
      exact ⟨⟨_, hw⟩, by simp [h3, UOp.Marks], fun _ => ⟨hf, by rw [hw.len, h.len]; simp, fun hs => absurd trivial hs⟩⟩
  | other op => exact absurd hk ha.2
  | user => injection e with _ e; cases e

/-- A call that panicked. -/
theorem UOp.panicked (hk : S.kind = .consistent) (op : UOp S) (ha : op.Allowed S) {w w' : W S} {p : Panic} {L : List (Row S)}
    (h : WF w.tbl L) (e : op.run key w = (w', .error p)) :
    (w'.changes.isEmpty = false ↔ w.changes.isEmpty = false ∨ op.GivesOne w.tbl) ∧
    (¬ op.GivesOne w.tbl → p ≠ .idxOverflow → w'.tbl = w.tbl) := by
  cases op with
  | push row =>
    replace e : (Wr.push row >>= fun _ => Wr.ret ()) w = (w', .error p) := e
    rcases wr_push hk h row with ⟨w1, i, L1, e1, e2, h1⟩ | ⟨_, _, e2, e3⟩
    · rw [wr_ok e1] at e; injection e with _ e; cases e
    · obtain ⟨u1, u2, _⟩ := wr_unit (x := Wr.push row) (w := w)
      rw [e] at u1 u2
      have hp : p = .idxOverflow := by
        have := (u2 .idxOverflow).2 e2
        injection this
      rw [← show w' = (Wr.push row w).1 from u1] at e3
      exact ⟨by simp [e3, UOp.GivesOne], fun _ hn => absurd hp hn⟩
  | pushAll rows =>
    cases rows with
    | nil => injection e with _ e; cases e
    | cons r rows =>
      cases r with
      | none => injection e with e _; subst e; simp [UOp.GivesOne]
      | some r =>
        replace e : (Wr.push r >>= fun _ => Wr.pushAll rows) w = (w', .error p) := e
        rcases wr_push hk h r with ⟨w1, i, L1, e1, e2, h1⟩ | ⟨hf, hl, e2, e3⟩
        · rw [wr_ok e1] at e
          have := Wr.Keeps.pushAll rows w1 e2
          rw [e] at this
          have hroom : UOp.GivesOne w.tbl (.pushAll (some r :: rows)) := by
            show HasGap w.tbl ∨ w.tbl.len ≤ S.max
            by_contra hc
            push Not at hc
            have hf : w.tbl.free = [] := by by_contra hx; exact hc.1 (h.gap.2 hx)
            have hlen : L.length = S.max + 1 := by have := h.rep.le; have := h.len; omega
            rcases h.push r with ⟨old, rest, t', hf', _⟩ | ⟨t', _, hle, _⟩ | ⟨_, _, e5⟩
            · rw [hf] at hf'; cases hf'
            · omega
            · have := wout_err.1 ((wout_push r w).trans e5)
              rw [e1] at this; cases this
          exact ⟨⟨fun _ => Or.inr hroom, fun _ => this⟩, fun hn => absurd hroom hn⟩
        · rcases hx : Wr.push r w with ⟨w1, q⟩
          rw [hx] at e2 e3
          simp only [] at e2 e3; subst e2
          rw [wr_err hx] at e; injection e with e e'
          injection e' with e'; subst e e'
          have hroom : ¬ UOp.GivesOne w.tbl (.pushAll (some r :: rows)) := by
            rintro (hg | hg)
            · exact h.gap.1 hg hf
            · rw [h.len] at hg; omega
          rw [e3]
          exact ⟨⟨Or.inl, fun hc => hc.resolve_right hroom⟩, fun _ hn => absurd rfl hn⟩
  | pushArray rows =>
    cases rows with
    | nil => injection e with _ e; cases e
    | cons r rows =>
      cases r with
      | none => injection e with e _; subst e; simp [UOp.GivesOne, Wr.pushArray, Wr.fail]
      | some r =>
        obtain ⟨u1, u2, u3⟩ := wr_unit (x := Wr.pushArray (some r :: rows)) (w := w)
        replace e : (Wr.pushArray (some r :: rows) >>= fun _ => Wr.ret ()) w = (w', .error p) := e
        rw [e] at u1 u2
        have hx : Wr.pushArray (some r :: rows) w = (w', .error p) := by rw [← (u2 p).1 rfl, show w' = _ from u1]
        replace hx : (Wr.pushEnd r >>= fun start => Wr.pushArrayLoop start rows >>= fun last =>
          Wr.onTbl (Cr.lift (nextId S.max last)) >>= fun e => Wr.ret (start, e)) w = (w', .error p) := hx
        rcases wr_pushEnd hk h r with ⟨w1, i, L1, hl, e1, e2, h1⟩ | ⟨hl, e2, e3⟩
        · have hroom : UOp.GivesOne w.tbl (.pushArray (some r :: rows)) := by
            show w.tbl.len ≤ S.max
            rw [h.len]; exact hl
          rw [wr_ok e1] at hx
          have hke : (Wr.pushArrayLoop i rows >>= fun last =>
            Wr.onTbl (Cr.lift (nextId S.max last)) >>= fun e => Wr.ret (i, e)).Keeps :=
            (Wr.Keeps.pushArrayLoop rows i).bind fun _ => (Wr.Keeps.onTbl _).bind fun _ => Wr.Keeps.ret _
          have := hke w1 e2
          rw [hx] at this
          exact ⟨⟨fun _ => Or.inr hroom, fun _ => this⟩, fun hn => absurd hroom hn⟩
        · rcases hy : Wr.pushEnd r w with ⟨w1, q⟩
          rw [hy] at e2 e3
          simp only [] at e2 e3; subst e2
          rw [wr_err hy] at hx; injection hx with hx hx'
          injection hx' with hx'; subst hx hx'
          have hroom : ¬ UOp.GivesOne w.tbl (.pushArray (some r :: rows)) := by
            intro hg
            replace hg : w.tbl.len ≤ S.max := hg
            rw [h.len] at hg; omega
          rw [e3]
          exact ⟨⟨Or.inl, fun hc => hc.resolve_right hroom⟩, fun _ hn => absurd rfl hn⟩
  | delete i =>
    replace e : Wr.delete i w = (w', .error p) := e
    unfold Wr.delete at e
    simp only [hk] at e
    cases hc : w.tbl.check i with
    | error q =>
      rw [wr_err (x := Wr.onTbl (Cr.look (Tbl.check · i))) (w1 := w) (p := q) (by unfold Wr.onTbl Cr.look; simp only [hc])] at e
      injection e with e _; subst e; simp [UOp.GivesOne]
    | ok a =>
      rw [wr_ok (x := Wr.onTbl (Cr.look (Tbl.check · i))) (w1 := w) (a := a) (by unfold Wr.onTbl Cr.look; simp only [hc])] at e
      injection e with _ e; cases e
  | clear =>
    replace e : Wr.clear w = (w', .error p) := e
    unfold Wr.clear at e
    simp only [hk] at e
    injection e with _ e; cases e
  | select i => injection e with _ e; cases e
  | selectAll => injection e with _ e; cases e
  | set j i v =>
    replace e : Wr.onTbl (Cr.setCell j i v) w = (w', .error p) := e
    have h1 : w'.tbl = (Cr.setCell j i v w.tbl).1 := (congrArg (W.tbl ∘ Prod.fst) e).symm
    have h2 : (Cr.setCell j i v w.tbl).2 = .error p := congrArg Prod.snd e
    have h3 : w'.changes = w.changes := (congrArg (W.changes ∘ Prod.fst) e).symm
    refine ⟨by simp [h3, UOp.GivesOne], fun _ _ => ?_⟩
    rw [h1]
    unfold Cr.setCell at h2 ⊢
    cases hx : w.tbl.setCell j i v with
    | ok t' => rw [hx] at h2; cases h2
    | error q => rfl
  | other op => exact absurd hk ha.2
  | user => injection e with e _; subst e; simp [UOp.GivesOne]

end V11
