import Verif.Props.CtxUniverses

/-!
# C96: the locks a program with contexts holds
-/

set_option linter.unusedSimpArgs false
set_option linter.unusedVariables false

namespace V11
open Context

theorem from_held {fields : List LockTy} {old : Old} {l l' : Locks} {ctx : List Guard} (h : ctxFrom fields old l = .ok (ctx, l'))
    {others : List Guard} (hp : l.held.Perm (old.guards ++ others)) : l'.held.Perm (ctx ++ others) := by
  obtain ⟨slots, l1, h1, h2⟩ := from_inv h
  obtain ⟨-, -, -, -, extra, a5, -, -, -, -, a10⟩ := releaseList_ok h1
  obtain ⟨-, -, -, new, b3, -, b5, -, -⟩ := lockMissing_ok h2
  rw [fields_none fields, List.nil_append] at a5
  rw [b5, a10]
  have e1 : (l.held.diff extra).Perm (slots.filterMap (·.2) ++ others) := by
    have : l.held.Perm (extra ++ (slots.filterMap (·.2) ++ others)) := by
      refine hp.trans ((a5.symm.append_right others).trans ?_)
      rw [← List.append_assoc]
      exact (List.perm_append_comm).append_right others
    exact diff_perm this
  refine (e1.append_left new.reverse).trans ?_
  refine ((List.reverse_perm new).append_right _).trans ?_
  rw [← List.append_assoc]
  exact ((List.perm_append_comm).trans b3).append_right others

theorem ctxDrop_ok {l l' : Locks} {gs : List Guard} (h : ctxDrop l gs = .ok l') :
    l'.held = l.held.diff gs ∧ l'.log = l.log ++ gs.map .released ∧ l'.next = l.next ∧ ∀ g ∈ gs, g.dirty = false := by
  induction gs generalizing l with
  | nil => injection h with h; subst h; simp
  | cons g gs ih =>
    unfold ctxDrop at h
    rw [List.foldlM_cons] at h
    unfold Locks.release at h
    by_cases hd : g.dirty = true
    · rw [if_pos hd] at h; cases h
    · rw [if_neg hd] at h
      obtain ⟨a1, a2, a3, a4⟩ := ih h
      refine ⟨by rw [a1, List.diff_cons], by rw [a2]; simp, a3, ?_⟩
      intro x hx
      rcases List.mem_cons.1 hx with rfl | hx
      · simpa using hd
      · exact a4 x hx

theorem inContexts_succ (vars : Nat → Option UCtx) (n : Nat) :
    inContexts vars (n + 1) = inContexts vars n ++ ((vars n).map UCtx.fields).getD [] := by
  simp [inContexts, List.range_succ]

theorem inContexts_congr {vars vars' : Nat → Option UCtx} {n : Nat} (h : ∀ v < n, vars' v = vars v) : inContexts vars' n = inContexts vars n := by
  induction n with
  | zero => rfl
  | succ n ih => rw [inContexts_succ, inContexts_succ, ih (fun v hv => h v (by omega)), h n (by omega)]

/-- One context is taken away. -/
theorem inContexts_take {vars : Nat → Option UCtx} {n v : Nat} {c : UCtx} (hv : v < n) (h : vars v = some c) :
    (inContexts vars n).Perm (c.fields ++ inContexts (Function.update vars v none) n) := by
  induction n with
  | zero => omega
  | succ n ih =>
    rw [inContexts_succ, inContexts_succ]
    by_cases e : v = n
    · subst e
      rw [inContexts_congr (vars := vars) (vars' := Function.update vars v none) (fun w hw => by rw [Function.update_of_ne (by omega)])]
      rw [h, Function.update_self]
      simpa using List.perm_append_comm
    · rw [Function.update_of_ne (fun h => e h.symm)]
      rw [← List.append_assoc]
      exact (ih (by omega)).append_right _

theorem take_perm {args : CArgs} {vars vars' : Nat → Option UCtx} {old : Old} {n : Nat} (hn : ∀ v, n ≤ v → vars v = none)
    (h : args.take vars = some (old, vars')) :
    (∀ v, n ≤ v → vars' v = none) ∧ (inContexts vars n).Perm (old.guards ++ inContexts vars' n) := by
  induction args generalizing vars vars' old with
  | unit =>
    injection h with h; injection h with h1 h2
    subst h1 h2
    exact ⟨hn, List.Perm.refl _⟩
  | var v =>
    unfold CArgs.take at h
    cases hv : vars v with
    | none => rw [hv] at h; cases h
    | some c =>
      rw [hv] at h
      injection h with h; injection h with h1 h2
      subst h1 h2
      have hlt : v < n := by
        by_contra hc
        rw [hn v (by omega)] at hv; cases hv
      refine ⟨?_, inContexts_take hlt hv⟩
      intro w hw
      rw [Function.update_of_ne (by omega)]
      exact hn w hw
  | one a ih =>
    unfold CArgs.take at h
    cases ha : a.take vars with
    | none => rw [ha] at h; cases h
    | some x =>
      rw [ha] at h
      injection h with h; injection h with h1 h2
      subst h1 h2
      exact ih (old := x.1) (vars' := x.2) hn ha
  | two a b iha ihb =>
    unfold CArgs.take at h
    cases ha : a.take vars with
    | none => rw [ha] at h; cases h
    | some x =>
      rw [ha, Option.bind_some] at h
      cases hb : b.take x.2 with
      | none => rw [hb] at h; cases h
      | some y =>
        rw [hb] at h
        injection h with h; injection h with h1 h2
        subst h1 h2
        obtain ⟨a1, a2⟩ := iha (old := x.1) (vars' := x.2) hn ha
        obtain ⟨b1, b2⟩ := ihb (old := y.1) (vars' := y.2) a1 hb
        refine ⟨b1, a2.trans ?_⟩
        show (_ : List Guard).Perm (x.1.guards ++ y.1.guards ++ _)
        rw [List.append_assoc]
        exact b2.append_left _
  | three a b c iha ihb ihc =>
    unfold CArgs.take at h
    cases ha : a.take vars with
    | none => rw [ha] at h; cases h
    | some x =>
      rw [ha, Option.bind_some] at h
      cases hb : b.take x.2 with
      | none => rw [hb] at h; cases h
      | some y =>
        rw [hb, Option.bind_some] at h
        cases hc : c.take y.2 with
        | none => rw [hc] at h; cases h
        | some z =>
          rw [hc] at h
          injection h with h; injection h with h1 h2
          subst h1 h2
          obtain ⟨a1, a2⟩ := iha (old := x.1) (vars' := x.2) hn ha
          obtain ⟨b1, b2⟩ := ihb (old := y.1) (vars' := y.2) a1 hb
          obtain ⟨c1, c2⟩ := ihc (old := z.1) (vars' := z.2) b1 hc
          refine ⟨c1, a2.trans ?_⟩
          show (_ : List Guard).Perm (x.1.guards ++ y.1.guards ++ z.1.guards ++ _)
          rw [List.append_assoc, List.append_assoc]
          exact ((c2.append_left _).trans (by simp)) |> (b2.trans · |>.append_left _)

theorem bind_perm {s : UProg} {vars : Nat → Option UCtx} {u : Nat} {gs others : List Guard} {l : Locks}
    (hn : ∀ v, s.nextVar ≤ v → vars v = none) (hp : l.held.Perm (gs ++ inContexts vars s.nextVar)) :
    (∀ v, (({ s with vars := vars } : UProg).bindVar u gs l).nextVar ≤ v → (({ s with vars := vars } : UProg).bindVar u gs l).vars v = none) ∧
      l.held.Perm (inContexts (({ s with vars := vars } : UProg).bindVar u gs l).vars (({ s with vars := vars } : UProg).bindVar u gs l).nextVar) := by
  constructor
  · intro v hv
    have hv : s.nextVar + 1 ≤ v := hv
    show Function.update vars s.nextVar _ v = none
    rw [Function.update_of_ne (by omega)]
    exact hn v (by omega)
  · show l.held.Perm (inContexts (Function.update vars s.nextVar _) (s.nextVar + 1))
    rw [inContexts_succ, Function.update_self, inContexts_congr (vars := vars) (fun v hv => by rw [Function.update_of_ne (by omega)])]
    exact hp.trans List.perm_append_comm

/-- C96: in every program the thread holds exactly the locks that are in the contexts that exist, each once: none is lost when
contexts are made from one another, however often and of whatever universes, and none outlives its context. -/
theorem C96_held {P : UProg → UAct → Prop} {s : UProg} (h : URun P s) : s.locks.held.Perm (inContexts s.vars s.nextVar) := by
  have key : (∀ v, s.nextVar ≤ v → s.vars v = none) ∧ s.locks.held.Perm (inContexts s.vars s.nextVar) := by
    induction h with
    | start => exact ⟨fun _ _ => rfl, List.Perm.refl _⟩
    | @step s s' a _ _ hs ih =>
      obtain ⟨hn, ih⟩ := ih
      cases a with
      | makeUni => injection hs with hs; injection hs with hs; subst hs; exact ⟨hn, ih⟩
      | dropUni u =>
        unfold UProg.step at hs
        simp only [] at hs
        by_cases hc : u ∈ s.alive ∧ ∀ v < s.nextVar, ∀ c ∈ s.vars v, c.owner ≠ u
        · rw [if_pos hc] at hs
          injection hs with hs; injection hs with hs
          subst hs
          exact ⟨hn, ih⟩
        · rw [if_neg hc] at hs; cases hs
      | new u tys =>
        unfold UProg.step at hs
        simp only [] at hs
        by_cases hu : u ∈ s.alive
        · rw [if_pos hu] at hs
          injection hs with hs
          cases hx : ctxNew s.locks (tys.map (LockTy.on u)) with
          | error e => rw [hx] at hs; cases hs
          | ok x =>
            rw [hx, okB] at hs
            injection hs with hs
            subst hs
            rw [C47_new] at hx
            exact bind_perm (others := []) (vars := s.vars) hn (from_held (ctx := x.1) (l' := x.2) hx (others := inContexts s.vars s.nextVar) ih)
        · rw [if_neg hu] at hs; cases hs
      | «from» u tys args =>
        unfold UProg.step at hs
        simp only [] at hs
        by_cases hu : u ∈ s.alive
        · rw [if_pos hu] at hs
          cases ht : args.take s.vars with
          | none => rw [ht] at hs; cases hs
          | some y =>
            rw [ht] at hs
            simp only [Option.map_some] at hs
            injection hs with hs
            obtain ⟨t1, t2⟩ := take_perm (old := y.1) (vars' := y.2) hn ht
            cases hx : ctxFrom (tys.map (LockTy.on u)) y.1 s.locks with
            | error e => rw [hx] at hs; cases hs
            | ok x =>
              rw [hx, okB] at hs
              injection hs with hs
              subst hs
              exact bind_perm (others := []) t1 (from_held (ctx := x.1) (l' := x.2) hx (ih.trans t2))
        · rw [if_neg hu] at hs; cases hs
      | drop v =>
        unfold UProg.step at hs
        simp only [] at hs
        cases hv : s.vars v with
        | none => rw [hv] at hs; cases hs
        | some c =>
          rw [hv] at hs
          injection hs with hs
          cases hx : ctxDrop s.locks c.fields with
          | error e => rw [hx] at hs; cases hs
          | ok l =>
            rw [hx, okB] at hs
            injection hs with hs
            subst hs
            have hlt : v < s.nextVar := by
              by_contra hc
              rw [hn v (by omega)] at hv; cases hv
            refine ⟨?_, ?_⟩
            · intro w hw
              have hw : s.nextVar ≤ w := hw
              show Function.update s.vars v none w = none
              rw [Function.update_of_ne (by omega)]
              exact hn w hw
            · show l.held.Perm (inContexts (Function.update s.vars v none) s.nextVar)
              rw [(ctxDrop_ok hx).1]
              exact diff_perm (ih.trans (inContexts_take hlt hv))
  exact key.2

/-- C96: dropping a context that exists releases its locks in the order of its fields, and returns if none has unflushed changes;
nothing else changes. -/
theorem C96_drop {s : UProg} {v : Nat} {c : UCtx} (hv : s.vars v = some c) :
    ((∃ s', s.step (.drop v) = some (.ok s')) ↔ ∀ g ∈ c.fields, g.dirty = false) ∧
    ∀ s', s.step (.drop v) = some (.ok s') → s'.locks.log = s.locks.log ++ c.fields.map .released ∧ s'.vars v = none ∧
      (∀ w, w ≠ v → s'.vars w = s.vars w) ∧ s'.alive = s.alive := by
  have hstep : s.step (.drop v) = some (do
      let l ← ctxDrop s.locks c.fields
      .ok { s with vars := Function.update s.vars v none, locks := l }) := by
    unfold UProg.step
    simp only []
    rw [hv]
  rw [hstep]
  have hret : ∀ (gs : List Guard) (l : Locks), (∀ g ∈ gs, g.dirty = false) → ∃ l', ctxDrop l gs = .ok l' := by
    intro gs
    induction gs with
    | nil => intro l _; exact ⟨l, rfl⟩
    | cons g gs ih =>
      intro l hd
      unfold ctxDrop
      rw [List.foldlM_cons]
      unfold Locks.release
      rw [if_neg (by rw [hd g (by simp)]; simp)]
      exact ih _ (fun x hx => hd x (by simp [hx]))
  refine ⟨⟨?_, ?_⟩, ?_⟩
  · rintro ⟨s', h⟩
    cases hx : ctxDrop s.locks c.fields with
    | error e => rw [hx] at h; cases h
    | ok l => exact (ctxDrop_ok hx).2.2.2
  · intro hd
    obtain ⟨l', hl⟩ := hret c.fields s.locks hd
    rw [hl]
    exact ⟨_, rfl⟩
  · intro s' h
    cases hx : ctxDrop s.locks c.fields with
    | error e => rw [hx] at h; cases h
    | ok l =>
      rw [hx, okB] at h
      injection h with h; injection h with h
      subst h
      refine ⟨(ctxDrop_ok hx).2.1, by simp, fun w hw => by simp [Function.update_of_ne hw], rfl⟩

/-! ## A concrete case -/

/-- One context, made and dropped: its lock is held between, and released in the end. -/
example (ty : LockTy) : ∃ s s', UProg.start.run [.makeUni, .new 0 [ty]] = some (.ok s) ∧ s.locks.held = [{ ty := ty.on 0, no := 0, dirty := false }] ∧
    s.vars 0 = some ⟨0, s.locks.held⟩ ∧ s.step (.drop 0) = some (.ok s') ∧ s'.locks.held = [] := by
  let g : Guard := { ty := ty.on 0, no := 0, dirty := false }
  let s : UProg := { alive := [0], nextUni := 1, vars := Function.update (fun _ => none) 0 (some ⟨0, [g]⟩), nextVar := 1, locks := { held := [g], next := 1, log := [.acquired g] } }
  have hd : ∀ x ∈ [g], x.dirty = false := by simp [g]
  obtain ⟨s', hs'⟩ := (C96_drop (s := s) (v := 0) (c := ⟨0, [g]⟩) rfl).1.2 hd
  have hrun : UProg.start.run [.makeUni, .new 0 [ty]] = some (.ok s) := by
    simp [UProg.run, UProg.step, UProg.start, ctxNew, Locks.acquire, okB, UProg.bindVar, s, g]
  refine ⟨s, s', hrun, rfl, rfl, hs', ?_⟩
  have hr' : URun (fun _ _ => True) s' := .step (urun_run .start hrun) trivial hs'
  have hp := C96_held hr'
  have hvars := ((C96_drop (s := s) (v := 0) (c := ⟨0, [g]⟩) rfl).2 s' hs').2
  have hnil : inContexts s'.vars s'.nextVar = [] := by
    unfold inContexts
    rw [List.flatMap_eq_nil_iff]
    intro v _
    by_cases e : v = 0
    · subst e; rw [hvars.1]; rfl
    · rw [hvars.2.1 v e]
      show ((Function.update (fun _ => none) 0 (some ⟨0, [g]⟩) v : Option UCtx).map UCtx.fields).getD [] = []
      rw [Function.update_of_ne e]; rfl
  rw [hnil] at hp
  exact hp.eq_nil

end V11
