import Verif.Lemmas.FlushPanic
import Verif.Spec.Cascade

/-!
# A flush under a write lock on `p`, and without it

Nothing a flush does depends on the lock except what waits for it.
-/

set_option linter.unusedSimpArgs false
set_option linter.unusedSectionVars false
set_option linter.unusedVariables false

namespace V11
variable {T : Type} [DecidableEq T] {S : T → Schema}

/-- Without the write lock on `p`. -/
def Env.shed (p : T) (env : Env S) : Env S := { env with writer := Function.update env.writer p false }

/-- `p` is locked for writing, and holds `z`. -/
def Env.Locked (env : Env S) (p : T) (z : Tbl (S p)) : Prop := env.writer p = true ∧ env.tbl p = z

/-- `y` is `x` without the write lock on `p`; or, if `D`, `x` waits for it. -/
def LiveRel {α : Type} (D : Prop) (p : T) (z : Tbl (S p)) (get : α → Env S) (g : α → α) (x y : R α) : Prop :=
  (D ∧ x = .error .deadlock) ∨ (y = x.map g ∧ ∀ a, x = .ok a → (get a).Locked p z)

theorem LiveRel.bind {α β : Type} {D : Prop} {p : T} {z : Tbl (S p)} {get : α → Env S} {g : α → α} {get' : β → Env S} {g' : β → β} {x y : R α}
    {k l : α → R β} (h : LiveRel D p z get g x y) (hk : ∀ a, (get a).Locked p z → LiveRel D p z get' g' (k a) (l (g a))) :
    LiveRel D p z get' g' (x >>= k) (y >>= l) := by
  rcases h with ⟨hd, e⟩ | ⟨e, hw⟩
  · left; exact ⟨hd, by rw [e]; rfl⟩
  · cases x with
    | error q => right; rw [e]; exact ⟨rfl, fun a h => by cases h⟩
    | ok a =>
      rw [e]
      exact hk a (hw a rfl)

theorem LiveRel.pure {α : Type} {D : Prop} {p : T} {z : Tbl (S p)} {get : α → Env S} {g : α → α} {a : α} (h : (get a).Locked p z) :
    LiveRel D p z get g (.ok a) (.ok (g a)) := Or.inr ⟨rfl, fun b hb => by injection hb with hb; subst hb; exact h⟩

theorem LiveRel.err {α : Type} {D : Prop} {p : T} {z : Tbl (S p)} {get : α → Env S} {g : α → α} (q : Panic) :
    LiveRel D p z get g (.error q) (.error q) := Or.inr ⟨rfl, fun b hb => by cases hb⟩

/-- A computation that has nothing to do with the universe comes first. -/
theorem LiveRel.same {α β : Type} {D : Prop} {p : T} {z : Tbl (S p)} {get' : β → Env S} {g' : β → β} (x : R α)
    {k l : α → R β} (hk : ∀ a, LiveRel D p z get' g' (k a) (l a)) : LiveRel D p z get' g' (x >>= k) (x >>= l) := by
  cases x with
  | error q => exact LiveRel.err q
  | ok a => exact hk a

abbrev LiveEnv (D : Prop) (p : T) (z : Tbl (S p)) (x y : R (Env S)) : Prop := LiveRel D p z id (Env.shed p) x y

/-- For `do_flush` of `t`. -/
def LiveFn (D : Prop) (p : T) (z : Tbl (S p)) (f : FlushFn S) (t : T) : Prop :=
  ∀ ev a b sel env, env.Locked p z →
    LiveRel D p z (Prod.snd : Select (List Nat) × Env S → Env S) (fun r => (r.1, r.2.shed p)) (f t ev a b sel env) (f t ev a b sel (env.shed p))

theorem shed_writer {p t : T} (h : t ≠ p) (env : Env S) : (env.shed p).writer t = env.writer t := by
  simp [Env.shed, Function.update_of_ne h]

theorem live_lock {D : Prop} {p t : T} {z : Tbl (S p)} (h : t = p → D) {env : Env S} (hw : env.Locked p z) :
    LiveRel D p z (Prod.snd : W (S t) × Env S → Env S) (fun r => (r.1, r.2.shed p)) (env.lock t) ((env.shed p).lock t) := by
  by_cases ht : t = p
  · left
    refine ⟨h ht, ?_⟩
    subst ht
    unfold Env.lock
    rw [if_pos (Or.inr hw.1)]
  · right
    have e := shed_writer ht env
    unfold Env.lock
    rw [e]
    show (if env.reads t ≠ 0 ∨ env.writer t = true then _ else _) = _ ∧ _
    by_cases hc : env.reads t ≠ 0 ∨ env.writer t = true
    · rw [if_pos hc, if_pos hc]
      exact ⟨rfl, fun a h => by cases h⟩
    · rw [if_neg hc, if_neg hc]
      refine ⟨?_, ?_⟩
      · simp only [Except.map, Env.shed]
        rw [Function.update_comm ht]
      · intro a h; injection h with h; subst h
        refine ⟨?_, hw.2⟩
        simp only []
        rw [Function.update_of_ne (Ne.symm ht)]
        exact hw.1

theorem live_peek {D : Prop} {p t : T} {z : Tbl (S p)} (h : t = p → D) {env : Env S} (hw : env.Locked p z) :
    (D ∧ env.peek t = .error .deadlock) ∨ (env.shed p).peek t = env.peek t := by
  by_cases ht : t = p
  · left
    refine ⟨h ht, ?_⟩
    subst ht
    unfold Env.peek
    rw [if_pos hw.1]
  · right
    unfold Env.peek
    rw [shed_writer ht]
    rfl

theorem shed_unlock {p t : T} (ht : t ≠ p) (env : Env S) (x : Tbl (S t)) : (env.shed p).unlock t x = (env.unlock t x).shed p := by
  simp only [Env.shed, Env.unlock, Env.put]
  rw [Function.update_comm ht]

theorem Env.Locked.unlock {p t : T} {z : Tbl (S p)} (ht : t ≠ p) {env : Env S} (h : env.Locked p z) (x : Tbl (S t)) : (env.unlock t x).Locked p z := by
  refine ⟨?_, ?_⟩
  · simp only [Env.unlock]
    rw [Function.update_of_ne (Ne.symm ht)]
    exact h.1
  · simp only [Env.unlock, Env.put]
    rw [Function.update_of_ne (Ne.symm ht)]
    exact h.2

theorem live_flushWith {D : Prop} {p : T} {z : Tbl (S p)} {f : FlushFn S} {t : T} (ht : t ≠ p) (hf : LiveFn D p z f t) (w : W (S t)) (ev : Event)
    {env : Env S} (hw : env.Locked p z) : LiveEnv D p z (flushWith f t w ev env) (flushWith f t w ev (env.shed p)) := by
  unfold flushWith
  by_cases he : w.changes.isEmpty = true
  · rw [if_pos he, if_pos he, shed_unlock ht]
    exact LiveRel.pure (hw.unlock ht _)
  · rw [if_neg he, if_neg he, shed_unlock ht]
    refine LiveRel.bind (hf ev w.pushed w.delete w.changes (env.unlock t w.tbl) (hw.unlock ht _)) ?_
    rintro ⟨changes, e⟩ hwe
    simp only [] at hwe ⊢
    by_cases hb : (ev.isRemoval && !changes.isEmpty) = true
    · rw [if_pos hb, if_pos hb]
      refine LiveRel.bind (live_lock (fun h => absurd h ht) hwe) ?_
      rintro ⟨w2, e2⟩ hw2
      simp only [] at hw2 ⊢
      refine LiveRel.same _ ?_
      intro x
      rw [shed_unlock ht]
      exact LiveRel.pure (hw2.unlock ht _)
    · rw [if_neg hb, if_neg hb]
      exact LiveRel.pure hwe

theorem live_tableRemoveRows {D : Prop} {p : T} {z : Tbl (S p)} {f : FlushFn S} {t : T} (ht : t = p → D) (hf : LiveFn D p z f t) (ev : Event)
    (rows : Select (List Nat)) {env : Env S} (hw : env.Locked p z) :
    LiveEnv D p z (tableRemoveRows f t ev rows env) (tableRemoveRows f t ev rows (env.shed p)) := by
  rw [tableRemoveRows_eq, tableRemoveRows_eq]
  by_cases hk : (S t).kind = .consistent ∨ (S t).kind = .sorted
  · rw [if_pos hk, if_pos hk]
    by_cases htp : t = p
    · left
      refine ⟨ht htp, ?_⟩
      subst htp
      unfold Env.lock
      rw [if_pos (Or.inr hw.1)]
      rfl
    · refine LiveRel.bind (live_lock ht hw) ?_
      rintro ⟨w, e⟩ hwe
      simp only [] at hwe ⊢
      refine LiveRel.same _ ?_
      intro w2
      exact live_flushWith htp hf w2 ev hwe
  · rw [if_neg hk, if_neg hk]
    exact LiveRel.err _

theorem live_handlerHandle {D : Prop} {p : T} {z : Tbl (S p)} {f : FlushFn S} {t : T} (ht : t = p → D) (hf : LiveFn D p z f t) (h : Handler) (ev : Event)
    (rows : Select (List Nat)) {env : Env S} (hw : env.Locked p z) :
    LiveEnv D p z (handlerHandle f h t ev rows env) (handlerHandle f h t ev rows (env.shed p)) := by
  unfold handlerHandle
  cases h with
  | null => exact LiveRel.pure hw
  | delete =>
    simp only []
    rcases live_peek ht hw with ⟨hd, e⟩ | e
    · left; exact ⟨hd, by rw [e]; rfl⟩
    · rw [e]
      refine LiveRel.same _ ?_
      intro x
      exact live_tableRemoveRows ht hf ev rows hw
  | panicking => exact LiveRel.err _

theorem live_handlerRun {D : Prop} {p : T} {z : Tbl (S p)} {f : FlushFn S} {t : T} (ht : t = p → D) (hf : LiveFn D p z f t) (h : Handler) (ev : Event)
    (rows : Select (List Nat)) {env : Env S} (hw : env.Locked p z) :
    LiveEnv D p z (handlerRun f h t ev rows env) (handlerRun f h t ev rows (env.shed p)) := by
  unfold handlerRun
  have hns : (D ∧ handlerNeedsSort h t env = .error .deadlock) ∨ handlerNeedsSort h t (env.shed p) = handlerNeedsSort h t env := by
    unfold handlerNeedsSort
    cases h with
    | delete =>
      simp only []
      rcases live_peek ht hw with ⟨hd, e⟩ | e
      · left; exact ⟨hd, by rw [e]; rfl⟩
      · right; rw [e]
    | null => exact Or.inr rfl
    | panicking => exact Or.inr rfl
  rcases hns with ⟨hd, e⟩ | e
  · left; exact ⟨hd, by rw [e]; rfl⟩
  rw [e]
  refine LiveRel.same _ ?_
  intro s
  simp only []
  refine LiveRel.bind (live_handlerHandle ht hf h ev _ hw) ?_
  intro e1 hw1
  simp only [id] at hw1
  have ha : LiveEnv D p z (e1.acquireRead t) ((e1.shed p).acquireRead t) := by
    by_cases htp : t = p
    · left
      refine ⟨ht htp, ?_⟩
      subst htp
      unfold Env.acquireRead
      rw [if_pos hw1.1]
    · right
      unfold Env.acquireRead
      rw [shed_writer htp]
      by_cases hc : e1.writer t = true
      · rw [if_pos hc, if_pos hc]; exact ⟨rfl, fun a h => by cases h⟩
      · rw [if_neg hc, if_neg hc]
        refine ⟨rfl, ?_⟩
        intro a h; injection h with h; subst h
        exact hw1
  refine LiveRel.bind ha ?_
  intro e2 hw2
  simp only [id] at hw2
  refine LiveRel.bind (hf ev _ _ _ e2 hw2) ?_
  rintro ⟨s2, e3⟩ hw3
  exact LiveRel.pure (g := Env.shed p) (get := id) (a := e3.releaseRead t) hw3

theorem live_trackerHandle {D : Prop} {p : T} {z : Tbl (S p)} {f : FlushFn S} {q : T} {tr : Tracker S}
    (hc : ∀ fk, tr = .auto fk → (fk.child = p → D) ∧ LiveFn D p z f fk.child) (ev : Event) (rows : Select (List Nat)) (h : Handler)
    {env : Env S} (hw : env.Locked p z) :
    LiveEnv D p z (trackerHandle f q tr ev rows h env) (trackerHandle f q tr ev rows h (env.shed p)) := by
  unfold trackerHandle
  cases tr with
  | auto fk =>
    simp only []
    obtain ⟨ht, hf⟩ := hc fk rfl
    rcases live_peek ht hw with ⟨hd, e⟩ | e
    · left; exact ⟨hd, by rw [e]; rfl⟩
    · rw [e]
      refine LiveRel.same _ ?_
      intro x
      refine LiveRel.same _ ?_
      intro sel
      exact live_handlerRun ht hf h ev sel hw
  | observer o => exact LiveRel.pure (g := Env.shed p) (get := id) hw

/-- The lock dropped from the state of the loop. -/
def FlushSt.shed (p : T) (st : FlushSt S) : FlushSt S := { st with env := st.env.shed p }

theorem live_flushStep {D : Prop} {p : T} {z : Tbl (S p)} {f : FlushFn S} {q : T} {tr : Tracker S}
    (hc : ∀ fk, tr = .auto fk → (fk.child = p → D) ∧ LiveFn D p z f fk.child) (ev : Event) (h : Handler)
    {st : FlushSt S} (hw : st.env.Locked p z) :
    LiveRel D p z FlushSt.env (FlushSt.shed p) (flushStep f q ev h st tr) (flushStep f q ev h (st.shed p) tr) := by
  unfold flushStep
  by_cases hn : tr.considers ev = false
  · rw [if_pos hn, if_pos hn]
    exact LiveRel.pure hw
  · rw [if_neg hn, if_neg hn]
    have e : (if (!(st.shed p).sorted && tr.sort) = true then { st.shed p with sel := (st.shed p).sel.sort, sorted := true } else st.shed p) =
        (if (!st.sorted && tr.sort) = true then { st with sel := st.sel.sort, sorted := true } else st : FlushSt S).shed p := by
      show (if (!st.sorted && tr.sort) = true then _ else _) = _
      split <;> rfl
    have e2 : (if (!st.sorted && tr.sort) = true then { st with sel := st.sel.sort, sorted := true } else st : FlushSt S).env = st.env := by
      split <;> rfl
    simp only [e]
    generalize (if (!st.sorted && tr.sort) = true then { st with sel := st.sel.sort, sorted := true } else st : FlushSt S) = st2 at *
    refine LiveRel.bind (live_trackerHandle (q := q) hc ev st2.sel h (by rw [e2]; exact hw)) ?_
    intro e3 hw3
    exact LiveRel.pure (g := FlushSt.shed p) (get := FlushSt.env) (a := { st2 with env := e3 }) hw3

theorem live_loop {D : Prop} {p : T} {z : Tbl (S p)} {f : FlushFn S} {q : T} (ev : Event) (h : Handler) (ts : List (Tracker S))
    (hc : ∀ fk, .auto fk ∈ ts → (fk.child = p → D) ∧ LiveFn D p z f fk.child) {st : FlushSt S} (hw : st.env.Locked p z) :
    LiveRel D p z FlushSt.env (FlushSt.shed p) (ts.foldlM (flushStep f q ev h) st) (ts.foldlM (flushStep f q ev h) (st.shed p)) := by
  induction ts generalizing st with
  | nil => exact LiveRel.pure hw
  | cons tr ts ih =>
    rw [List.foldlM_cons, List.foldlM_cons]
    refine LiveRel.bind (live_flushStep (fun fk e => hc fk (by simp [e])) ev h hw) ?_
    intro st2 hw2
    exact ih (fun fk hm => hc fk (by simp [hm])) hw2

/-- `do_flush` of any table of a set closed under dependants. -/
theorem live_doFlush {D : Prop} {p : T} {z : Tbl (S p)} {cfg : Cfg S} {ok : T → Prop}
    (hcl : ∀ t fk, ok t → IsFK cfg t fk → ok fk.child ∧ (fk.child = p → D)) (n : Nat) : ∀ t, ok t → LiveFn D p z (doFlush cfg n) t := by
  induction n with
  | zero => intro t _ ev a b sel env hw; exact LiveRel.err _
  | succ n ih =>
    intro t ht ev a b sel env hw
    unfold doFlush
    by_cases hb : ((a && b) || (ev.isRemoval && ev.isCreation)) = true
    · rw [if_pos hb, if_pos hb]; exact LiveRel.err _
    · rw [if_neg hb, if_neg hb]
      refine LiveRel.same _ ?_
      intro h
      refine LiveRel.bind (live_loop ev h (cfg.trackers t) (fun fk hm => ⟨(hcl t fk ht hm).2, ih _ (hcl t fk ht hm).1⟩)
        (st := ⟨sel, sel.isAll, env⟩) hw) ?_
      intro st hst
      exact LiveRel.pure (g := fun r : Select (List Nat) × Env S => (r.1, r.2.shed p)) (get := Prod.snd) (a := (st.sel, st.env)) hst

end V11
