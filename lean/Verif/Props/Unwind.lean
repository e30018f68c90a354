import Verif.Lemmas.Unwind
import Verif.Props.Crash
import Verif.Props.Consistent

/-!
# A panic under a write lock (C79)
-/

set_option linter.unusedSimpArgs false
set_option linter.unusedSectionVars false
set_option linter.unusedVariables false

namespace V11
variable {S : Schema} [LS : LawfulSchema S] [LV : LeavesSchema S] {K : Type} [LinearOrder K] {key : Row S → K}

/-- A call of the other model, as one whose closures and iterators may panic but do not. -/
def LOp.toU : LOp S → UOp S
  | .push row => .push row
  | .pushArray rows => .pushArray (rows.map some)
  | .delete i => .delete i
  | .clear => .clear
  | .select i => .select i
  | .selectAll => .selectAll
  | .set j i v => .set j i v
  | .retain f => .other (TOp.retain f).toC
  | .visit f => .other (TOp.visit f).toC
  | .merge rows => .other (TOp.merge rows).toC
  | .removeRows ids => .other (TOp.removeRows ids).toC

omit LS in
/-- C79: this model says the same of calls in which the caller's code does not panic as the model of the other
properties. -/
theorem C79_agrees (w : W S) (op : LOp S) :
    (∀ w', w.step key op = .ok w' ↔ op.toU.run key w = (w', .ok ())) ∧
    (∀ p, w.step key op = .error p ↔ (op.toU.run key w).2 = .error p) := by
  have main : (op.toU.run key).out w = w.step key op >>= fun w => .ok (w, ()) := by
    have hother : ∀ o : TOp S, (Wr.onTbl (o.toC.run key)).out w =
        (do let x ← o.run key w.tbl; .ok ({ w with tbl := x } : W S)) >>= fun w => .ok (w, ()) := by
      intro o
      rw [wout_onTbl]
      have := C70_agrees (key := key) w.tbl o
      cases h : o.run key w.tbl with
      | ok t' => rw [out_ok.2 ((this.1 t').1 h)]; rfl
      | error p => rw [out_err.2 ((this.2 p).1 h)]; rfl
    cases op with
    | push row =>
      show (Wr.push row >>= fun _ => Wr.ret ()).out w = (w.push row >>= fun x => .ok x.1) >>= fun w => .ok (w, ())
      rw [wout_bind, wout_push, bindAssoc]
      exact bindCongr fun x _ => rfl
    | pushArray rows =>
      show (Wr.pushArray (rows.map some) >>= fun _ => Wr.ret ()).out w = (w.pushArray rows >>= fun x => .ok x.1) >>= fun w => .ok (w, ())
      rw [wout_bind, wout_pushArray, bindAssoc]
      exact bindCongr fun x _ => rfl
    | delete i => exact wout_delete i w
    | clear => exact wout_clear w
    | select i => rfl
    | selectAll => rfl
    | set j i v =>
      show (Wr.onTbl (Cr.setCell j i v)).out w = (w.tbl.setCell j i v >>= fun t => .ok { w with tbl := t }) >>= fun w => .ok (w, ())
      rw [wout_onTbl, out_setCell]
      unfold justTbl
      rw [bindAssoc, bindAssoc]
      exact bindCongr fun x _ => rfl
    | retain f => exact hother _
    | visit f => exact hother _
    | merge rows => exact hother _
    | removeRows ids => exact hother _
  constructor
  · intro w'
    rw [← wout_ok, main]
    cases w.step key op with
    | ok a => rw [okBind]; simp
    | error p => simp [errBind]
  · intro p
    rw [← wout_err, main]
    cases w.step key op with
    | ok a => simp [okBind]
    | error p => rw [errBind]; simp

/-- Using a lock: the calls before the one that panics returned. -/
theorem use_split (w w1 w2 : W S) (pre post : List (UOp S)) (op : UOp S) (p : Panic) (h : w.use key pre = .held w1)
    (e : op.run key w1 = (w2, .error p)) : w.use key (pre ++ op :: post) = w2.unwind p := by
  induction pre generalizing w with
  | nil =>
    have : w = w1 := by injection h
    subst this
    show w.use key (op :: post) = _
    unfold W.use
    rw [e]
  | cons o pre ih =>
    unfold W.use at h
    rcases ho : o.run key w with ⟨w', r⟩
    rw [ho] at h
    cases r with
    | ok a =>
      show w.use key (o :: (pre ++ op :: post)) = _
      unfold W.use
      rw [ho]
      exact ih w' h
    | error q =>
      simp only [] at h
      unfold W.unwind at h
      cases hd : w'.drop <;> rw [hd] at h <;> cases h

/-- Every use of a lock ends with a panic or does not. -/
theorem use_cases (w : W S) (ops : List (UOp S)) :
    (∃ w', w.use key ops = .held w') ∨
    (∃ pre op post w1 w2 p, ops = pre ++ op :: post ∧ w.use key pre = .held w1 ∧ op.run key w1 = (w2, .error p) ∧
      w.use key ops = w2.unwind p) := by
  induction ops generalizing w with
  | nil => exact Or.inl ⟨w, rfl⟩
  | cons o ops ih =>
    rcases ho : o.run key w with ⟨w', r⟩
    have e : w.use key (o :: ops) = match o.run key w with | (w, .ok _) => w.use key ops | (w, .error p) => w.unwind p := rfl
    rw [ho] at e
    cases r with
    | error q => exact Or.inr ⟨[], o, ops, w, w', q, rfl, rfl, ho, e⟩
    | ok a =>
      simp only [] at e
      rcases ih w' with ⟨w2, h⟩ | ⟨pre, op, post, w1, w2, p, e1, e2, e3, e4⟩
      · exact Or.inl ⟨w2, e.trans h⟩
      · refine Or.inr ⟨o :: pre, op, post, w1, w2, p, by rw [e1]; rfl, ?_, e3, e.trans e4⟩
        unfold W.use
        rw [ho]; exact e2

/-- The lock after calls that returned. -/
theorem use_held (hk : S.kind = .consistent) (pre : List (UOp S)) (ha : ∀ o ∈ pre, o.Allowed S) {w w1 : W S} {L : List (Row S)}
    (h : WF w.tbl L) (e : w.use key pre = .held w1) :
    (∃ L', WF w1.tbl L') ∧ (w1.changes.isEmpty = false ↔ w.changes.isEmpty = false ∨ ∃ o ∈ pre, o.Marks) ∧
    ((∀ o ∈ pre, ¬ o.Marks) → w1.tbl.free = w.tbl.free ∧ w1.tbl.len = w.tbl.len ∧ ((∀ o ∈ pre, ¬ o.IsSet) → w1.tbl = w.tbl)) := by
  induction pre generalizing w L with
  | nil =>
    have : w = w1 := by injection e
    subst this
    exact ⟨⟨L, h⟩, by simp, fun _ => ⟨rfl, rfl, fun _ => rfl⟩⟩
  | cons o pre ih =>
    unfold W.use at e
    rcases ho : o.run key w with ⟨w', r⟩
    rw [ho] at e
    cases r with
    | error q =>
      simp only [] at e
      unfold W.unwind at e
      cases hd : w'.drop <;> rw [hd] at e <;> cases e
    | ok a =>
      obtain ⟨⟨L', h'⟩, h2, h3⟩ := o.returned hk (ha o (by simp)) h ho
      obtain ⟨i1, i2, i3⟩ := ih (fun o ho => ha o (by simp [ho])) h' e
      refine ⟨i1, ?_, ?_⟩
      · rw [i2, h2]
        simp only [List.mem_cons, exists_eq_or_imp]
        exact or_assoc
      · intro hm
        obtain ⟨a1, a2, a3⟩ := h3 (hm o (by simp))
        obtain ⟨b1, b2, b3⟩ := i3 (fun o ho => hm o (by simp [ho]))
        refine ⟨b1.trans a1, b2.trans a2, fun hs => ?_⟩
        rw [b3 (fun o ho => hs o (by simp [ho])), a3 (hs o (by simp))]

omit LS in
/-- C79: a panic under the write lock of a table that is not consistent never ends the process, and the table it leaves is
one of those C70 and C71 are about. -/
theorem C79_other_kinds (hk : S.kind ≠ .consistent) (t : Tbl S) (ht : Salvaged key t) (ops : List (UOp S))
    (ha : ∀ o ∈ ops, o.Allowed S) :
    (∃ w, (W.lock t).use key ops = .held w ∧ Salvaged key w.tbl) ∨
    (∃ p x, (W.lock t).use key ops = .unwound p x ∧ Salvaged key x) := by
  have main : ∀ (ops : List (UOp S)) (w : W S), Salvaged key w.tbl → (∀ o ∈ ops, o.Allowed S) →
      (∃ w', w.use key ops = .held w' ∧ Salvaged key w'.tbl) ∨ (∃ p x, w.use key ops = .unwound p x ∧ Salvaged key x) := by
    intro ops
    induction ops with
    | nil => exact fun w hw _ => Or.inl ⟨w, rfl, hw⟩
    | cons o ops ih =>
      intro w hw ha
      have hs : Salvaged key (o.run key w).1.tbl := by
        rcases o.does (key := key) (ha o (by simp)) hk w with ⟨c, hc, e, _⟩ | ⟨e, _⟩
        · rw [e]; exact hw.step hc
        · rw [e]; exact hw
      rcases ho : o.run key w with ⟨w', r⟩
      rw [ho] at hs
      have e : w.use key (o :: ops) = match o.run key w with | (w, .ok _) => w.use key ops | (w, .error p) => w.unwind p := rfl
      rw [e, ho]
      cases r with
      | ok a => exact ih w' hs (fun o ho => ha o (by simp [ho]))
      | error p =>
        refine Or.inr ⟨p, w'.tbl, ?_, hs⟩
        show w'.unwind p = _
        unfold W.unwind W.drop
        rw [if_neg (fun h => hk h.1)]
  exact main ops _ ht ha

/-- C79: a panic under the write lock of a consistent table ends the process exactly if some call before it left
something to flush, or the panicking call itself had handed out a row id by then. Otherwise it only unwinds. -/
theorem C79_aborts_iff (hk : S.kind = .consistent) (t : Tbl S) (ht : Reach key true t) (pre post : List (UOp S)) (op : UOp S)
    (ha : ∀ o ∈ pre ++ [op], o.Allowed S) (w w' : W S) (p : Panic) (hpre : (W.lock t).use key pre = .held w)
    (hop : op.run key w = (w', .error p)) :
    ((W.lock t).use key (pre ++ op :: post) = .aborted p ↔ (∃ o ∈ pre, o.Marks) ∨ op.GivesOne w.tbl) ∧
    ((W.lock t).use key (pre ++ op :: post) = .unwound p w'.tbl ↔ (∀ o ∈ pre, ¬ o.Marks) ∧ ¬ op.GivesOne w.tbl) := by
  obtain ⟨L, hL⟩ := ht.wf
  obtain ⟨⟨L', h'⟩, h2, _⟩ := use_held hk pre (fun o ho => ha o (by simp [ho])) (w := W.lock t) hL hpre
  obtain ⟨h3, _⟩ := op.panicked hk (ha op (by simp)) h' hop
  have he : (W.lock t).changes.isEmpty = true := rfl
  rw [h2, he] at h3
  simp only [Bool.true_eq_false, false_or] at h3
  rw [use_split _ w w' pre post op p hpre hop]
  unfold W.unwind W.drop
  by_cases hc : w'.changes.isEmpty = false
  · rw [if_pos ⟨hk, hc⟩]
    have := h3.1 hc
    refine ⟨⟨fun _ => this, fun _ => rfl⟩, ⟨fun h => (by cases h), fun h => ?_⟩⟩
    rcases this with ⟨o, ho, hm⟩ | hg
    · exact absurd hm (h.1 o ho)
    · exact absurd hg h.2
  · rw [if_neg (fun h => hc h.2)]
    have hn := fun h => hc (h3.2 h)
    refine ⟨⟨fun h => (by cases h), fun h => absurd h hn⟩, ⟨fun _ => ⟨fun o ho hm => hn (Or.inl ⟨o, ho, hm⟩), fun hg => hn (Or.inr hg)⟩,
      fun _ => rfl⟩⟩

/-- C79, all or nothing: a panic under the write lock of a consistent table either ends the process, or leaves the table
with the ids it had when it was locked and, unless cells were edited in place, with exactly its contents then. (Except that
a push onto a full table panics and leaves the table as C72 says.) -/
theorem C79_all_or_nothing (hk : S.kind = .consistent) (t : Tbl S) (ht : Reach key true t) (ops : List (UOp S))
    (ha : ∀ o ∈ ops, o.Allowed S) (p : Panic) (x : Tbl S) (h : (W.lock t).use key ops = .unwound p x) (hp : p ≠ .idxOverflow) :
    (∀ i, x.contains i = t.contains i) ∧ x.len = t.len ∧ ((∀ o ∈ ops, ¬ o.IsSet) → x = t) := by
  obtain ⟨L, hL⟩ := ht.wf
  rcases use_cases (key := key) (W.lock t) ops with ⟨w, e⟩ | ⟨pre, op, post, w1, w2, q, e1, e2, e3, e4⟩
  · rw [e] at h; cases h
  · have ha' : ∀ o ∈ pre ++ [op], o.Allowed S := by
      intro o ho
      apply ha
      rw [e1]
      rcases List.mem_append.1 ho with ho | ho
      · exact List.mem_append_left _ ho
      · rw [List.mem_singleton.1 ho]; simp
    have hq : q = p ∧ x = w2.tbl := by
      rw [h] at e4
      unfold W.unwind at e4
      unfold W.drop at e4
      split at e4
      · rename_i y hy
        split at hy
        · cases hy
        · injection e4 with a b
          injection hy with hy
          exact ⟨a.symm, b.trans hy.symm⟩
      · cases e4
    obtain ⟨rfl, rfl⟩ := hq
    have hs := ((C79_aborts_iff hk t ht pre post op ha' w1 w2 q e2 e3).2.1 (by rw [← e1]; exact h))
    obtain ⟨⟨L', h'⟩, _, h3⟩ := use_held hk pre (fun o ho => ha' o (by simp [ho])) (w := W.lock t) hL e2
    obtain ⟨h4, h5, h6⟩ := h3 hs.1
    have ht2 : w2.tbl = w1.tbl := (op.panicked hk (ha' op (by simp)) h' e3).2 hs.2 hp
    rw [ht2]
    refine ⟨fun i => ?_, h5, fun hn => h6 (fun o ho => hn o (by rw [e1]; simp [ho]))⟩
    have hlen : L'.length = L.length := by rw [← h'.len, ← hL.len]; exact h5
    rw [Bool.eq_iff_iff, h'.contains_iff, hL.contains_iff, h4, hlen]
    exact Iff.rfl

/-- C79: pushing onto a consistent table that was cleared while some of its rows were deleted (property C09) ends the
process: the stale id is listed before the push finds that it is out of range. -/
theorem C79_stale_push_aborts (hk : S.kind = .consistent) (t t' : Tbl S) (ht : Reach key true t) (i : Nat)
    (hi : i < t.len) (hdead : t.contains i = false) (h : t.removeSel .all = .ok t') (row : Row S) (post : List (UOp S)) :
    (W.lock t').use key (.push row :: post) = .aborted .indexOob := by
  have e := C09_clear_then_push_panics t t' ht i hi hdead h row
  have he := wout_err.1 ((wout_push row (W.lock t')).trans e)
  rcases hx : Wr.push row (W.lock t') with ⟨w, r⟩
  rw [hx] at he
  simp only [] at he; subst he
  have hrun : (UOp.push row).run key (W.lock t') = (w, .error .indexOob) := by
    show (Wr.push row >>= fun _ => Wr.ret ()) (W.lock t') = _
    rw [wr_err hx]
  have huse : (W.lock t').use key (.push row :: post) = w.unwind .indexOob := by
    unfold W.use; rw [hrun]
  rw [huse]
  have hc : w.changes.isEmpty = false := by
    unfold Wr.push at hx
    rw [wr_ok (x := Wr.onTbl (Cr.look fun t : Tbl S => .ok t.free)) (w1 := W.lock t') (a := t'.free) rfl] at hx
    have hne : t'.free ≠ [] := by
      obtain ⟨L, hwf⟩ := ht.wf
      obtain ⟨t1, e1, e2, e3⟩ := hwf.aligned.clearRaw
      simp only [Tbl.removeSel] at h
      rw [e1] at h; injection h with h; subst h
      rw [e2]
      exact hwf.gap.1 ⟨i, hi, hdead⟩
    cases hf : t'.free with
    | nil => exact absurd hf hne
    | cons old rest =>
      rw [hf] at hx
      simp only [] at hx
      rw [wr_ok (x := Wr.onTbl (Cr.setFree (S := S) (BSet.erase old))) (w1 := { W.lock t' with tbl := { t' with free := BSet.erase old t'.free } })
        (a := ()) rfl] at hx
      rw [wr_ok (x := Wr.mark (S := S) (·.eventAdd old)) (a := ()) rfl] at hx
      have hke : (Wr.onTbl (Cr.swapOutRow old row) >>= fun _ => Wr.ret old : Wr S Nat).Keeps :=
        (Wr.Keeps.onTbl _).bind fun _ => Wr.Keeps.ret old
      have := hke _ (eventAdd_changes ({ W.lock t' with tbl := { t' with free := BSet.erase old t'.free } } : W S) old hk)
      rw [hx] at this
      exact this
  unfold W.unwind W.drop
  rw [if_pos ⟨hk, hc⟩]

/-! The demo table (rows 0 and 2, row 1 deleted): a closure panic before anything was pushed leaves it as it was; one after
a push ends the process; a push after `clear` does too. -/

/-- What became of the demo table. -/
def demoFate (f : Fate (Demo .consistent 255)) : String ⊕ List (Option (Nat × Bool × Nat)) :=
  match f with
  | .held _ => .inl "held"
  | .aborted _ => .inl "aborted"
  | .unwound _ x => .inr (demoView x 4)

example : demoFate ((W.lock (demoTbl 255)).use demoKey [.set 2 0 9, .pushAll [none, some (demoRow 1 true 1)]]) =
    .inr [some (5, true, 9), none, some (5, true, 3), none] := by decide

example : demoFate ((W.lock (demoTbl 255)).use demoKey [.delete 7, .selectAll]) =
    .inr [some (5, true, 1), none, some (5, true, 3), none] := by decide

example : demoFate ((W.lock (demoTbl 255)).use demoKey [.pushAll [some (demoRow 1 true 1), none]]) = .inl "aborted" := by decide

example : demoFate ((W.lock (demoTbl 255)).use demoKey [.delete 0, .user]) = .inl "aborted" := by decide

example : demoFate ((W.lock (demoTbl 255)).use demoKey [.push (demoRow 1 true 1), .delete 0]) = .inl "held" := by decide

example : (match (demoTbl 255).removeSel .all with
    | .ok t => demoFate ((W.lock t).use demoKey [.push (demoRow 1 true 1)])
    | .error _ => .inl "") = .inl "aborted" := by decide

example (S : Schema) [LeavesSchema S] (row : Row S) (h : S.kind = .bag) :
    ∀ o ∈ [UOp.push row, .other (.bagLoop (fun _ _ _ => (true, true)) 3), .user], o.Allowed S := by
  intro o ho
  simp only [List.mem_cons, List.not_mem_nil, or_false] at ho
  rcases ho with rfl | rfl | rfl <;> simp [UOp.Allowed, COp.Allowed, h]

end V11
