import Verif.Lemmas.PropLocksEnd

/-!
# Property locks among threads: who panics, who waits for ever, and updates
-/

set_option linter.unusedSimpArgs false
set_option linter.unusedSectionVars false
set_option linter.unusedVariables false

namespace V11
variable {Ty : Type} [DecidableEq Ty] {V : Ty → Type} {P : Type} [DecidableEq P] {ι : Type} [DecidableEq ι] {decl : P → PropDecl V}
variable {s s' : PlSys ι decl} {i : ι} {ops0 : List (ROp decl)} {progs : ι → PScript decl}

/-- A thread panics of itself, because the property is not there, or because the lock is poisoned. -/
theorem step_dies (hv : PlInv ops0 s) (hs : PlStep s i s') (hf : (s.th i).falling = false) (hf' : (s'.th i).falling = true) :
    (s.th i).script = .panic ∨ ∃ k p m, (s.th i).script.asks = some (k, p, m) ∧ ((∃ e, (s.w.get decl k p).1 = .error e) ∨ Spoiled s.log (PropDecl.key decl k p)) := by
  cases hs with
  | @absent k p m e h1 h2 h3 => exact Or.inr ⟨k, p, m, h2, Or.inl ⟨e, h3⟩⟩
  | @poisoned k p m v h1 h2 h3 h4 h5 => exact Or.inr ⟨k, p, m, h2, Or.inr ((hv.bad _).1 h5)⟩
  | panic h1 h2 => exact Or.inl h2
  | unwind h1 h2 => rw [hf] at h1; cases h1
  | look h1 h2 h3 h4 => rw [goOn_th] at hf'; cases hf'
  | store h1 h2 h3 => rw [goOn_th] at hf'; cases hf'
  | drop h1 h2 h3 => rw [goOn_th] at hf'; cases hf'
  | leave h1 h2 h3 => rw [goOn_th] at hf'; cases hf'
  | @take k p m v h1 h2 h3 h4 h5 =>
    exfalso
    obtain ⟨t, evs, bad, did, hth, hw, hlog, hbad⟩ := step_did (.take h1 h2 h3 h4 h5)
    have hv' := hv.step (.take h1 h2 h3 h4 h5)
    have hti : (s.grant i (s.th i).script).th i = t := by rw [hth, Function.update_self]
    rw [hti] at hf'
    cases e : (s.th i).script with
    | done => rw [e] at h2; cases h2
    | panic => rw [e] at h2; cases h2
    | look k p f => rw [e] at h2; cases h2
    | store k p x n => rw [e] at h2; cases h2
    | drop k p m n => rw [e] at h2; cases h2
    | get k' p' f =>
      rw [e] at h2 hti
      simp only [PScript.asks, Option.some.injEq, Prod.mk.injEq] at h2
      obtain ⟨rfl, rfl, rfl⟩ := h2
      simp only [PlSys.grant] at hti
      rcases ew : s.w.get decl k' p' with ⟨r, w⟩
      rw [ew] at h3 hti
      simp only [] at h3
      subst h3
      simp only [] at hti
      rw [goOn_th] at hti
      rw [← hti] at hf'
      cases hf'
    | set k' p' x n =>
      rw [e] at h2 hti
      simp only [PScript.asks, Option.some.injEq, Prod.mk.injEq] at h2
      obtain ⟨rfl, rfl, rfl⟩ := h2
      have hset := set_of_get (x := x) h3
      simp only [PlSys.grant] at hti
      rcases ew : s.w.set decl k' p' x with ⟨r, w⟩
      rw [ew] at hset hti
      simp only [] at hset
      subst hset
      simp only [] at hti
      rw [goOn_th] at hti
      rw [← hti] at hf'
      cases hf'
    | swap k' p' x f =>
      rw [e] at h2 hti
      simp only [PScript.asks, Option.some.injEq, Prod.mk.injEq] at h2
      obtain ⟨rfl, rfl, rfl⟩ := h2
      have hset := (C41_swap_returns s.w k' p' x).1
      rw [h3] at hset
      simp only [PlSys.grant] at hti
      rcases ew : s.w.swap decl k' p' x with ⟨r, w⟩
      rw [ew] at hset hti
      simp only [] at hset
      subst hset
      simp only [] at hti
      rw [goOn_th] at hti
      rw [← hti] at hf'
      cases hf'
    | read k' p' n =>
      rw [e] at hti
      simp only [PlSys.grant] at hti
      rw [goOn_th] at hti
      rw [← hti] at hf'
      cases hf'
    | write k' p' n =>
      rw [e] at hti
      simp only [PlSys.grant] at hti
      rw [goOn_th] at hti
      rw [← hti] at hf'
      cases hf'

theorem spoiled_died {log : List (PlEv ι decl)} {l : PKey} (h : Spoiled log l) : ∃ i, .died i ∈ log := by
  obtain ⟨pre, i, g, post, h1, h2, -⟩ := h
  exact ⟨i, by rw [h1]; exact List.mem_append_left _ h2⟩

/-! ## Threads that do not panic -/

theorem steady_next {ok : Nat → P → Prop} {t t' : PlThread decl} (h : t.script.Steady ok) (hn : PlNext t t') (hf : t'.falling = false) : t'.script.Steady ok := by
  cases hn with
  | fall => cases hf
  | down => cases hf
  | leave => trivial
  | get v => exact h.2 v
  | set => exact h.2
  | swap v => exact h.2 v
  | read => exact h.2
  | write => exact h.2
  | look v => exact h v
  | store => exact h
  | drop => exact h

theorem asks_ok {ok : Nat → P → Prop} {sc : PScript decl} (h : sc.Steady ok) {k : Nat} {p : P} {m : Mode} (ha : sc.asks = some (k, p, m)) : ok k p := by
  cases sc <;> first | cases ha; done | (simp only [PScript.asks, Option.some.injEq, Prod.mk.injEq] at ha; obtain ⟨rfl, rfl, rfl⟩ := ha; exact h.1)

/-- Nobody has panicked, nobody will, and what is needed can be read. -/
structure PlCalm (ok : Nat → P → Prop) (s : PlSys ι decl) : Prop where
  up : ∀ i, (s.th i).falling = false
  steady : ∀ i, (s.th i).script.Steady ok
  read : ∀ k p, ok k p → ∃ v, (s.w.get decl k p).1 = .ok v

theorem PlCalm.step {ok : Nat → P → Prop} (hv : PlInv ops0 s) (hc : PlCalm ok s) (hs : PlStep s i s') : PlCalm ok s' := by
  have hup : (s'.th i).falling = false := by
    cases hf : (s'.th i).falling with
    | false => rfl
    | true =>
      exfalso
      rcases step_dies hv hs (hc.up i) hf with h | ⟨k, p, m, h1, ⟨e, h2⟩ | h2⟩
      · have := hc.steady i; rw [h] at this; exact this
      · obtain ⟨v, hv'⟩ := hc.read k p (asks_ok (hc.steady i) h1)
        rw [hv'] at h2; cases h2
      · obtain ⟨j, hj⟩ := spoiled_died h2
        have := (hv.died j).1 hj
        rw [hc.up j] at this
        cases this
  obtain ⟨hn, ho⟩ := step_next hs
  have hups : ∀ j, (s'.th j).falling = false := by
    intro j
    by_cases hj : j = i
    · subst hj; exact hup
    · rw [ho j hj]; exact hc.up j
  refine ⟨hups, ?_, ?_⟩
  · intro j
    by_cases hj : j = i
    · subst hj; exact steady_next (hc.steady j) hn hup
    · rw [ho j hj]; exact hc.steady j
  · intro k p hk
    obtain ⟨v, hvv⟩ := hc.read k p hk
    obtain ⟨t, evs, bad, did, hth, hw, hlog, hbad⟩ := step_did hs
    have hti : s'.th i = t := by rw [hth, Function.update_self]
    have hwi : WInv decl s.w := by rw [hv.w]; exact after_inv _
    have useget : ∀ k' q (x : V (decl q).ty), (s.w.get decl k' q).1 = .ok x → ∃ v, ((s.w.get decl k' q).2.get decl k p).1 = .ok v := fun k' q x h => ⟨v, get_keeps_ok hwi hvv h⟩
    have useset : ∀ k' q (x old : V (decl q).ty), (s.w.get decl k' q).1 = .ok old → ∃ v, ((s.w.set decl k' q x).2.get decl k p).1 = .ok v := by
      intro k' q x old h
      rw [hv.w] at h hvv ⊢
      exact set_keeps h hvv
    rw [hw]
    cases did with
    | die h1 h2 => rw [hti] at hup; cases hup
    | @use k' p' m v' evs sc h1 h2 h3 h4 h5 h6 =>
      rcases h6 with ⟨rfl, rfl⟩ | ⟨x, rfl, rfl⟩ | ⟨x, rfl, rfl⟩
      · exact useget k' p' v' h3
      · exact useset k' p' x v' h3
      · exact useset k' p' x v' h3
    | @take k' p' m v' sc h1 h2 h3 h4 h5 => exact useget k' p' v' h3
    | look h1 h2 h3 => exact ⟨v, hvv⟩
    | @store k' p' x sc h1 h2 =>
      obtain ⟨-, old, hold⟩ := hv.settled i _ h2
      exact useset k' p' x old hold
    | leave h1 => exact ⟨v, hvv⟩

theorem pl_calm {ok : Nat → P → Prop} (h0 : ∀ k p, ok k p → ∃ v, ((World.after decl ops0).get decl k p).1 = .ok v) (hp : ∀ i, (progs i).Steady ok)
    (hr : PlRun (PlSys.start (World.after decl ops0) progs) s) : PlCalm ok s := by
  have : PlInv ops0 s ∧ PlCalm ok s := by
    induction hr with
    | refl => exact ⟨PlInv.start ops0 progs, fun i => rfl, hp, h0⟩
    | step i h hs ih => exact ⟨ih.1.step hs, ih.2.step ih.1 hs⟩
  exact this.2

/-! ## Waiting for oneself -/

theorem no_step_hung (hv : PlInv ops0 s) {k : Nat} {p : P} {m m' : Mode} (hf : (s.th i).falling = false) (ha : (s.th i).script.asks = some (k, p, m))
    (hg : (k, p, m') ∈ (s.th i).held) (hm : m = .wr ∨ m' = .wr) : ¬ PlStep s i s' := by
  have hfree : ¬ s.free (PropDecl.key decl k p) m := by
    intro h
    cases m with
    | rd =>
      rcases hm with hm | hm
      · cases hm
      · have := h i _ hg rfl; rw [show (k, p, m').2.2 = _ from hm] at this; cases this
    | wr => exact h i _ hg rfl
  have hread : ∀ e, (s.w.get decl k p).1 ≠ .error e := by
    intro e he
    obtain ⟨-, v, hvv⟩ := hv.settled i _ hg
    rw [show (s.w.get decl k p).1 = _ from he] at hvv
    cases hvv
  intro hs
  cases hs with
  | absent h1 h2 h3 =>
    rw [ha] at h2
    simp only [Option.some.injEq, Prod.mk.injEq] at h2
    obtain ⟨rfl, rfl, rfl⟩ := h2
    exact hread _ h3
  | poisoned h1 h2 h3 h4 h5 =>
    rw [ha] at h2
    simp only [Option.some.injEq, Prod.mk.injEq] at h2
    obtain ⟨rfl, rfl, rfl⟩ := h2
    exact hfree h4
  | take h1 h2 h3 h4 h5 =>
    rw [ha] at h2
    simp only [Option.some.injEq, Prod.mk.injEq] at h2
    obtain ⟨rfl, rfl, rfl⟩ := h2
    exact hfree h4
  | look h1 h2 h3 h4 => rw [h2] at ha; cases ha
  | store h1 h2 h3 => rw [h2] at ha; cases ha
  | drop h1 h2 h3 => rw [h2] at ha; cases ha
  | panic h1 h2 => rw [h2] at ha; cases ha
  | leave h1 h2 h3 => rw [h2] at ha; cases ha
  | unwind h1 h2 => rw [hf] at h1; cases h1

theorem PlRun.trans {a b c : PlSys ι decl} (h1 : PlRun a b) (h2 : PlRun b c) : PlRun a c := by
  induction h2 with
  | refl => exact h1
  | step i h hs ih => exact .step i ih hs

/-! ## Guards -/

theorem pl_guarding (hr : PlRun (PlSys.start (World.after decl ops0) progs) s) {a b c : List (PlEv ι decl)} {i : ι} {g : PGuard P}
    (he : s.log = a ++ .took i g :: (b ++ c)) (hn : .left i g ∉ b) : Guarding i g b := by
  induction hr generalizing b c with
  | refl =>
    have : (PlSys.start (World.after decl ops0) progs).log = [] := rfl
    rw [this] at he
    simp at he
  | @step s s' j h hs ih =>
    have hv := pl_inv h
    have hv' := hv.step hs
    obtain ⟨t, evs, bad, did, hth, hw, hlog, hbad⟩ := step_did hs
    rw [hlog] at he
    rcases pl_split he with ⟨b', h1, h2⟩ | ⟨pre', h1, h2⟩
    · rcases List.append_eq_append_iff.1 h2 with ⟨d, e1, e2⟩ | ⟨d, e1, e2⟩
      · -- b reaches no further than the old log
        exact ih (c := d) (by rw [h1, e1]) hn
      · subst e1
        rw [List.mem_append, not_or] at hn
        have hold := (hv.holds a i g b' h1 hn.1)
        intro e hm
        rcases List.mem_append.1 hm with hm | hm
        · exact hold.2 e hm
        · exact held_guarding hv did hold.1 e (by rw [e2]; exact List.mem_append_left _ hm)
    · have hm : .took i g ∈ evs := by rw [h2]; simp
      have hj : i = j := (did.uses hv.clean hm).1
      subst hj
      obtain ⟨he', -⟩ := did.guards.2.2 g hm
      rw [he'] at h2
      have hb : b ++ c = [] := by
        rcases pre' with _ | ⟨y, _ | ⟨z, pre'⟩⟩
        · simp at h2
        · simp at h2; simp [h2.2]
        · simp at h2
      intro e hm
      have : e ∈ b ++ c := List.mem_append_left _ hm
      rw [hb] at this
      cases this

/-! ## Updates -/

section
variable {k : Nat} {p : P}

abbrev Upd (decl : P → PropDecl V) (p : P) := V (decl p).ty → V (decl p).ty

/-- The updates of one thread, in order. -/
def updsOf (order : List (ι × Upd decl p)) (i : ι) : List (Upd decl p) := (order.filter (fun x => decide (x.1 = i))).map Prod.snd

/-- How far a thread is with its updates. -/
inductive UpdAt (w : World P V) (k : Nat) (p : P) : List (Upd decl p) → PlThread decl → Prop where
  | next {rest} : UpdAt w k p rest ⟨updates k p rest, [], false⟩
  | got {f r} : UpdAt w k p (f :: r) ⟨.look k p (fun v => .store k p (f v) (.drop k p .wr (updates k p r))), [(k, p, .wr)], false⟩
  | saw {f r} {v : V (decl p).ty} : (w.get decl k p).1 = .ok v → UpdAt w k p (f :: r) ⟨.store k p (f v) (.drop k p .wr (updates k p r)), [(k, p, .wr)], false⟩
  | put {r} : UpdAt w k p r ⟨.drop k p .wr (updates k p r), [(k, p, .wr)], false⟩

theorem updsOf_snoc (order : List (ι × Upd decl p)) (i j : ι) (f : Upd decl p) : updsOf (order ++ [(j, f)]) i = updsOf order i ++ if j = i then [f] else [] := by
  unfold updsOf
  rw [List.filter_append, List.map_append]
  congr 1
  by_cases h : j = i <;> simp [h]

structure UpdInv (k : Nat) (p : P) (fs : ι → List (Upd decl p)) (v0 : V (decl p).ty) (s : PlSys ι decl) : Prop where
  order : ∃ order : List (ι × Upd decl p), (s.w.get decl k p).1 = .ok (order.foldl (fun v x => x.2 v) v0) ∧
    ∀ i, ∃ rest, fs i = updsOf order i ++ rest ∧ UpdAt s.w k p rest (s.th i)

theorem inv_write {n : PScript decl} (hf : (s.th i).falling = false) (hsc : (s.th i).script = .write k p n) (hread : ∃ v, (s.w.get decl k p).1 = .ok v)
    (hb : ∀ l, s.bad l = false) (hs : PlStep s i s') : s' = s.grant i (.write k p n) := by
  cases hs with
  | absent h1 h2 h3 =>
    rw [hsc] at h2
    simp only [PScript.asks, Option.some.injEq, Prod.mk.injEq] at h2
    obtain ⟨rfl, rfl, rfl⟩ := h2
    obtain ⟨v, hv⟩ := hread
    rw [hv] at h3; cases h3
  | poisoned h1 h2 h3 h4 h5 => rw [hb] at h5; cases h5
  | take h1 h2 h3 h4 h5 => rw [hsc]
  | look h1 h2 h3 h4 => rw [hsc] at h2; cases h2
  | store h1 h2 h3 => rw [hsc] at h2; cases h2
  | drop h1 h2 h3 => rw [hsc] at h2; cases h2
  | panic h1 h2 => rw [hsc] at h2; cases h2
  | leave h1 h2 h3 => rw [hsc] at h2; cases h2
  | unwind h1 h2 => rw [hf] at h1; cases h1

theorem inv_look {f : V (decl p).ty → PScript decl} (hf : (s.th i).falling = false) (hsc : (s.th i).script = .look k p f) (hs : PlStep s i s') :
    ∃ v, (s.w.get decl k p).1 = .ok v ∧ s' = s.goOn i { script := f v, held := (s.th i).held, falling := false } s.w [.saw i k p v] := by
  cases hs with
  | absent h1 h2 h3 => rw [hsc] at h2; cases h2
  | poisoned h1 h2 h3 h4 h5 => rw [hsc] at h2; cases h2
  | take h1 h2 h3 h4 h5 => rw [hsc] at h2; cases h2
  | look h1 h2 h3 h4 =>
    rw [hsc] at h2
    cases h2
    exact ⟨_, h4, rfl⟩
  | store h1 h2 h3 => rw [hsc] at h2; cases h2
  | drop h1 h2 h3 => rw [hsc] at h2; cases h2
  | panic h1 h2 => rw [hsc] at h2; cases h2
  | leave h1 h2 h3 => rw [hsc] at h2; cases h2
  | unwind h1 h2 => rw [hf] at h1; cases h1

theorem inv_store {x : V (decl p).ty} {n : PScript decl} (hf : (s.th i).falling = false) (hsc : (s.th i).script = .store k p x n) (hs : PlStep s i s') :
    s' = s.goOn i { script := n, held := (s.th i).held, falling := false } (s.w.set decl k p x).2 [.wrote i k p x] := by
  cases hs with
  | absent h1 h2 h3 => rw [hsc] at h2; cases h2
  | poisoned h1 h2 h3 h4 h5 => rw [hsc] at h2; cases h2
  | take h1 h2 h3 h4 h5 => rw [hsc] at h2; cases h2
  | look h1 h2 h3 h4 => rw [hsc] at h2; cases h2
  | store h1 h2 h3 =>
    rw [hsc] at h2
    cases h2
    rfl
  | drop h1 h2 h3 => rw [hsc] at h2; cases h2
  | panic h1 h2 => rw [hsc] at h2; cases h2
  | leave h1 h2 h3 => rw [hsc] at h2; cases h2
  | unwind h1 h2 => rw [hf] at h1; cases h1

theorem inv_drop {m : Mode} {n : PScript decl} (hf : (s.th i).falling = false) (hsc : (s.th i).script = .drop k p m n) (hs : PlStep s i s') :
    s' = s.goOn i { script := n, held := (s.th i).held.erase (k, p, m), falling := false } s.w [.left i (k, p, m)] := by
  cases hs with
  | absent h1 h2 h3 => rw [hsc] at h2; cases h2
  | poisoned h1 h2 h3 h4 h5 => rw [hsc] at h2; cases h2
  | take h1 h2 h3 h4 h5 => rw [hsc] at h2; cases h2
  | look h1 h2 h3 h4 => rw [hsc] at h2; cases h2
  | store h1 h2 h3 => rw [hsc] at h2; cases h2
  | drop h1 h2 h3 =>
    rw [hsc] at h2
    cases h2
    rfl
  | panic h1 h2 => rw [hsc] at h2; cases h2
  | leave h1 h2 h3 => rw [hsc] at h2; cases h2
  | unwind h1 h2 => rw [hf] at h1; cases h1

theorem UpdInv.step {fs : ι → List (Upd decl p)} {v0 : V (decl p).ty} (hv : PlInv ops0 s) (h : UpdInv k p fs v0 s) (hs : PlStep s i s') : UpdInv k p fs v0 s' := by
  obtain ⟨order, hval, hat⟩ := h.order
  have hup : ∀ j, (s.th j).falling = false := by
    intro j
    obtain ⟨rest, -, h⟩ := hat j
    generalize hg : s.th j = t at h
    cases h <;> rfl
  have hnob : ∀ l, s.bad l = false := by
    intro l
    cases hb : s.bad l with
    | false => rfl
    | true =>
      obtain ⟨j, hj⟩ := spoiled_died ((hv.bad l).1 hb)
      have := (hv.died j).1 hj
      rw [hup j] at this
      cases this
  have hwi : WInv decl s.w := by rw [hv.w]; exact after_inv _
  have hnx := step_next hs
  obtain ⟨rest, hfs, hti⟩ := hat i
  -- nothing was written
  have still : (∀ v, (s.w.get decl k p).1 = .ok v → (s'.w.get decl k p).1 = .ok v) → UpdAt s'.w k p rest (s'.th i) → UpdInv k p fs v0 s' := by
    intro hw ht
    refine ⟨order, hw _ hval, ?_⟩
    intro j
    by_cases hj : j = i
    · subst hj; exact ⟨rest, hfs, ht⟩
    · obtain ⟨rest, h1, h2⟩ := hat j
      refine ⟨rest, h1, ?_⟩
      rw [hnx.2 j hj]
      generalize s.th j = t at h2
      cases h2 with
      | next => exact .next
      | got => exact .got
      | saw hv' => exact .saw (hw _ hv')
      | put => exact .put
  generalize hte : s.th i = t at hti
  cases hti with
  | next =>
    cases rest with
    | nil =>
      exfalso
      have hsc : (s.th i).script = .done := by rw [hte]; rfl
      cases hs with
      | absent h1 h2 h3 => rw [hsc] at h2; cases h2
      | poisoned h1 h2 h3 h4 h5 => rw [hsc] at h2; cases h2
      | take h1 h2 h3 h4 h5 => rw [hsc] at h2; cases h2
      | look h1 h2 h3 h4 => rw [hsc] at h2; cases h2
      | store h1 h2 h3 => rw [hsc] at h2; cases h2
      | drop h1 h2 h3 => rw [hsc] at h2; cases h2
      | panic h1 h2 => rw [hsc] at h2; cases h2
      | leave h1 h2 h3 => rw [hte] at h3; cases h3
      | unwind h1 h2 => rw [hte] at h2; cases h2
    | cons f r =>
      have hsc : (s.th i).script = .write k p (.look k p (fun v => .store k p (f v) (.drop k p .wr (updates k p r)))) := by rw [hte]; rfl
      obtain ⟨rfl⟩ := inv_write (hup i) hsc ⟨_, hval⟩ hnob hs
      refine still (fun v hv' => get_keeps_ok hwi hv' hval) ?_
      simp only [PlSys.grant]
      rw [goOn_th, hte]
      exact .got
  | @got f r =>
    have hsc : (s.th i).script = .look k p (fun v => .store k p (f v) (.drop k p .wr (updates k p r))) := by rw [hte]
    obtain ⟨v, hvv, rfl⟩ := inv_look (hup i) hsc hs
    refine still (fun v hv' => hv') ?_
    rw [goOn_th, hte]
    exact .saw hvv
  | put =>
    have hsc : (s.th i).script = .drop k p .wr (updates k p rest) := by rw [hte]
    have := inv_drop (hup i) hsc hs
    subst this
    refine still (fun v hv' => hv') ?_
    rw [goOn_th, hte]
    simp only [List.erase_cons_head]
    exact .next
  | @saw f r v hvv =>
    have hsc : (s.th i).script = .store k p (f v) (.drop k p .wr (updates k p r)) := by rw [hte]
    have hheld : (k, p, Mode.wr) ∈ (s.th i).held := by rw [hte]; simp
    have := inv_store (hup i) hsc hs
    subst this
    have hval' : (((s.w.set decl k p (f v)).2).get decl k p).1 = .ok (f v) := by
      have h2 := hvv
      rw [hv.w] at h2 ⊢
      have := C40_set _ k p (f v) (set_of_get h2) k p v h2
      simp only [true_and, if_true, and_self] at this
      cases e : ((((World.after decl (ops0 ++ opsOf s.log)).set decl k p (f v)).2).get decl k p).1 with
      | error x => rw [e] at this; cases this
      | ok y =>
        rw [e] at this
        have : y = f v := by simpa [Except.map] using this
        rw [this]
    refine ⟨order ++ [(i, f)], ?_, ?_⟩
    · rw [List.foldl_append]
      rw [hvv] at hval
      injection hval with hval
      rw [← hval]
      exact hval'
    · intro j
      rw [updsOf_snoc]
      by_cases hj : i = j
      · subst hj
        refine ⟨r, ?_, ?_⟩
        · rw [if_pos rfl, hfs]; simp
        · rw [goOn_th, hte]; exact .put
      · rw [if_neg hj, List.append_nil]
        obtain ⟨rest', h1, h2⟩ := hat j
        refine ⟨rest', h1, ?_⟩
        rw [hnx.2 j (Ne.symm hj)]
        have hno : (k, p, Mode.wr) ∉ (s.th j).held := by
          intro hm
          have := hv.apart i j hj _ hheld _ hm rfl
          cases this.1
        generalize s.th j = t at h2 hno
        cases h2 with
        | next => exact .next
        | got => exact .got
        | saw hv' => exact absurd (by simp) hno
        | put => exact .put

theorem pl_upd {fs : ι → List (Upd decl p)} {v0 : V (decl p).ty} (h0 : ((World.after decl ops0).get decl k p).1 = .ok v0)
    (hr : PlRun (PlSys.start (World.after decl ops0) (fun i => updates k p (fs i))) s) : UpdInv k p fs v0 s := by
  have : PlInv ops0 s ∧ UpdInv k p fs v0 s := by
    induction hr with
    | refl => exact ⟨PlInv.start ops0 _, [], h0, fun i => ⟨fs i, rfl, .next⟩⟩
    | step i h hs ih => exact ⟨ih.1.step hs, ih.2.step ih.1 hs⟩
  exact this.2

end

end V11
