import Verif.Spec.CtxUniverses
import Verif.Props.Context

/-!
# C96: contexts and several universes
-/

set_option linter.unusedSectionVars false
set_option linter.unusedVariables false
set_option linter.unusedSimpArgs false

namespace V11
open Context

theorem on_uni (u : Nat) (ty : LockTy) {g : Guard} (h : g.ty = ty.on u) : g.uni = u := by
  unfold Guard.uni
  rw [h]
  simp [LockTy.on]

/-- C96: what `from` puts into field `j` of a context for universe `u`: if it is the first field of its type, the old
contexts' first lock whose type has that name, whatever universe it is in; a new lock of `u` otherwise. -/
theorem C96_fields {u : Nat} {tys : List LockTy} {old : Old} {l l' : Locks} {ctx : List Guard}
    (h : ctxFrom (tys.map (LockTy.on u)) old l = .ok (ctx, l')) :
    ctx.length = tys.length ∧
    ∀ (j : Nat) (ty : LockTy), tys[j]? = some ty → ∃ g, ctx[j]? = some g ∧ g.ty.name = ty.name ∧ g.ty.tid = ty.tid ∧
      (∀ g0, ty.name ∉ (tys.take j).map LockTy.name → old.guards.find? (fun g => g.ty.name = ty.name) = some g0 → g = g0) ∧
      ((ty.name ∈ (tys.take j).map LockTy.name ∨ old.guards.find? (fun g => g.ty.name = ty.name) = none) → g.ty = ty.on u) := by
  obtain ⟨slots, l1, h1, h2⟩ := from_inv h
  obtain ⟨a1, a2, a3, a4, -⟩ := releaseList_ok h1
  obtain ⟨b0, b1, b2, -⟩ := lockMissing_ok h2
  have hfst : slots.map (·.1) = tys.map (LockTy.on u) := by rw [a1, fields_fst]
  have hlen : ctx.length = tys.length := by
    rw [b0, ← List.length_map (f := (·.1)) (as := slots), hfst, List.length_map]
  refine ⟨hlen, ?_⟩
  intro j ty hj
  have hjf : (tys.map (LockTy.on u))[j]? = some (ty.on u) := by rw [List.getElem?_map, hj]; rfl
  have hslot : ∃ o, slots[j]? = some (ty.on u, o) := by
    rw [← hfst, List.getElem?_map] at hjf
    cases e : slots[j]? with
    | none => rw [e] at hjf; cases hjf
    | some s => rw [e] at hjf; injection hjf with hjf; exact ⟨s.2, by rw [← hjf]⟩
  have hnames : ((tys.map (LockTy.on u)).take j).map LockTy.name = (tys.take j).map LockTy.name := by
    rw [← List.map_take, List.map_map]; rfl
  obtain ⟨o, ho⟩ := hslot
  cases o with
  | none =>
    obtain ⟨g, c1, c2⟩ := b2 j _ ho
    refine ⟨g, c1, by rw [c2]; rfl, by rw [c2]; rfl, ?_, fun _ => c2⟩
    intro g0 hf hg
    exfalso
    have hsf := slotFor_fields hjf (by rw [hnames]; exact hf)
    have hgn : g0.ty.name = ty.name := by have := List.find?_some hg; simpa using this
    exact a4 g0 (List.mem_of_find?_eq_some hg) j _ (by rw [hgn]; exact hsf) ho
  | some m =>
    have hm := b1 j _ m ho
    rcases a3 j _ m ho with hc | ⟨-, c2, c3, c4, c5⟩
    · rw [List.getElem?_map, hjf] at hc
      injection hc with hc; injection hc with _ hc; cases hc
    · refine ⟨m, hm, c4, c3, ?_, ?_⟩
      · intro g0 _ hg
        have c5' : old.guards.find? (fun g => g.ty.name = ty.name) = some m := c5
        rw [hg] at c5'
        injection c5' with c5'
        exact c5'.symm
      · rintro (hin | hno)
        · exfalso
          obtain ⟨x, hx, hxn⟩ := List.mem_map.1 hin
          obtain ⟨i, hi⟩ := List.getElem?_of_mem hx
          have hij : i < j := by
            by_contra hge
            rw [List.getElem?_eq_none (by rw [List.length_take]; omega)] at hi
            cases hi
          rw [List.getElem?_take, if_pos hij] at hi
          unfold slotFor at c2
          rw [List.findIdx?_eq_some_iff_getElem] at c2
          obtain ⟨hjl, d1, d2⟩ := c2
          have := d2 i hij
          have hil : i < tys.length := by
            rcases Nat.lt_or_ge i tys.length with h | h
            · exact h
            · rw [List.getElem?_eq_none h] at hi; cases hi
          rw [List.getElem?_eq_getElem hil] at hi
          injection hi with hi
          simp [hi, hxn, LockTy.on] at this
        · have c5' : old.guards.find? (fun g => g.ty.name = ty.name) = some m := c5
          rw [hno] at c5'; cases c5'

/-- Every field of the new context is in `u` or is one of the old locks. -/
theorem from_uni {u : Nat} {tys : List LockTy} {old : Old} {l l' : Locks} {ctx : List Guard}
    (h : ctxFrom (tys.map (LockTy.on u)) old l = .ok (ctx, l')) {g : Guard} (hg : g ∈ ctx) : g.uni = u ∨ g ∈ old.guards := by
  obtain ⟨hlen, hf⟩ := C96_fields h
  obtain ⟨j, hj⟩ := List.getElem?_of_mem hg
  have hjl : j < tys.length := by
    rcases Nat.lt_or_ge j tys.length with h | h
    · exact h
    · rw [List.getElem?_eq_none (by omega)] at hj; cases hj
  obtain ⟨g', c1, -, -, c2, c3⟩ := hf j tys[j] (List.getElem?_eq_getElem hjl)
  rw [hj] at c1
  injection c1 with c1
  subst c1
  by_cases hn : (tys[j]).name ∈ (tys.take j).map LockTy.name
  · exact Or.inl (on_uni u _ (c3 (Or.inl hn)))
  · cases hfd : old.guards.find? (fun g => g.ty.name = (tys[j]).name) with
    | none => exact Or.inl (on_uni u _ (c3 (Or.inr hfd)))
    | some g0 => rw [c2 g0 hn hfd]; exact Or.inr (List.mem_of_find?_eq_some hfd)

theorem new_uni {u : Nat} {tys : List LockTy} {l l' : Locks} {ctx : List Guard}
    (h : ctxNew l (tys.map (LockTy.on u)) = .ok (ctx, l')) {g : Guard} (hg : g ∈ ctx) : g.uni = u := by
  rw [C47_new] at h
  rcases from_uni h hg with h | h
  · exact h
  · cases h

/-- Moving contexts out of variables. -/
theorem take_spec {args : CArgs} {vars vars' : Nat → Option UCtx} {old : Old} (h : args.take vars = some (old, vars')) :
    (∀ v c, vars' v = some c → vars v = some c) ∧
    (∀ g ∈ old.guards, ∃ v ∈ args.names, ∃ c, vars v = some c ∧ g ∈ c.fields) := by
  induction args generalizing vars vars' old with
  | unit =>
    injection h with h
    injection h with h1 h2
    subst h1 h2
    exact ⟨fun _ _ h => h, by intro g hg; cases hg⟩
  | var v =>
    unfold CArgs.take at h
    cases hv : vars v with
    | none => rw [hv] at h; cases h
    | some c =>
      rw [hv] at h
      injection h with h
      injection h with h1 h2
      subst h1 h2
      refine ⟨?_, ?_⟩
      · intro w c' hw
        by_cases e : w = v
        · subst e; rw [Function.update_self] at hw; cases hw
        · rwa [Function.update_of_ne e] at hw
      · intro g hg; exact ⟨v, by simp [CArgs.names], c, hv, hg⟩
  | one a ih =>
    unfold CArgs.take at h
    cases ha : a.take vars with
    | none => rw [ha] at h; cases h
    | some x =>
      rw [ha] at h
      injection h with h
      injection h with h1 h2
      subst h1 h2
      obtain ⟨p1, p2⟩ := ih (old := x.1) (vars' := x.2) ha
      exact ⟨p1, p2⟩
  | two a b iha ihb =>
    unfold CArgs.take at h
    cases ha : a.take vars with
    | none => rw [ha] at h; cases h
    | some x =>
      rw [ha, Option.bind_some] at h
      cases hb : b.take x.2 with
      | none => rw [hb] at h; cases h
      | some y =>
        rw [hb] at h
        injection h with h
        injection h with h1 h2
        subst h1 h2
        obtain ⟨p1, p2⟩ := iha ha
        obtain ⟨q1, q2⟩ := ihb hb
        refine ⟨fun v c hv => p1 v c (q1 v c hv), ?_⟩
        intro g hg
        rcases List.mem_append.1 hg with hg | hg
        · obtain ⟨v, r1, r2⟩ := p2 g hg
          exact ⟨v, by simp [CArgs.names, r1], r2⟩
        · obtain ⟨v, r1, c, r2, r3⟩ := q2 g hg
          exact ⟨v, by simp [CArgs.names, r1], c, p1 v c r2, r3⟩
  | three a b c iha ihb ihc =>
    unfold CArgs.take at h
    cases ha : a.take vars with
    | none => rw [ha] at h; cases h
    | some x =>
      rw [ha, Option.bind_some] at h
      cases hb : b.take x.2 with
      | none => rw [hb] at h; cases h
      | some y =>
        rw [hb, Option.bind_some] at h
        cases hc : c.take y.2 with
        | none => rw [hc] at h; cases h
        | some z =>
          rw [hc] at h
          injection h with h
          injection h with h1 h2
          subst h1 h2
          obtain ⟨p1, p2⟩ := iha ha
          obtain ⟨q1, q2⟩ := ihb hb
          obtain ⟨r1, r2⟩ := ihc hc
          refine ⟨fun v c hv => p1 v c (q1 v c (r1 v c hv)), ?_⟩
          intro g hg
          have hg : g ∈ x.1.guards ++ y.1.guards ++ z.1.guards := hg
          rw [List.mem_append, List.mem_append] at hg
          rcases hg with (hg | hg) | hg
          · obtain ⟨v, s1, s2⟩ := p2 g hg
            exact ⟨v, by simp [CArgs.names, s1], s2⟩
          · obtain ⟨v, s1, c, s2, s3⟩ := q2 g hg
            exact ⟨v, by simp [CArgs.names, s1], c, p1 v c s2, s3⟩
          · obtain ⟨v, s1, c, s2, s3⟩ := r2 g hg
            exact ⟨v, by simp [CArgs.names, s1], c, p1 v c (q1 v c s2), s3⟩

/-- What a step does to the universes and contexts. -/
theorem ustep_cases {s s' : UProg} {a : UAct} (h : s.step a = some (.ok s')) :
    (∃ u, a = .dropUni u ∧ u ∈ s.alive ∧ (∀ v < s.nextVar, ∀ c ∈ s.vars v, c.owner ≠ u) ∧ s'.vars = s.vars ∧ s'.nextVar = s.nextVar ∧
      s'.alive = s.alive.filter (· ≠ u)) ∨
    ((∀ u, a ≠ .dropUni u) ∧ (∀ u ∈ s.alive, u ∈ s'.alive) ∧ (∀ v c, s'.vars v = some c → v = s.nextVar ∧ s'.nextVar = s.nextVar + 1 ∨ s.vars v = some c) ∧
      s.nextVar ≤ s'.nextVar ∧
      ∀ v c, s'.vars v = some c → s.vars v = some c ∨
        (v = s.nextVar ∧ s'.nextVar = s.nextVar + 1 ∧ c.owner ∈ s.alive ∧ ∀ g ∈ c.fields, g.uni = c.owner ∨
          ∃ tys args, a = .from c.owner tys args ∧ ∃ w ∈ args.names, ∃ c', s.vars w = some c' ∧ g ∈ c'.fields)) := by
  cases a with
  | makeUni =>
    injection h with h; injection h with h
    subst h
    exact Or.inr ⟨(fun u h => by cases h), fun u hu => List.mem_cons_of_mem _ hu, fun v c h => Or.inr h, le_refl _, fun v c h => Or.inl h⟩
  | dropUni u =>
    unfold UProg.step at h
    simp only [] at h
    by_cases hc : u ∈ s.alive ∧ ∀ v < s.nextVar, ∀ c ∈ s.vars v, c.owner ≠ u
    · rw [if_pos hc] at h
      injection h with h; injection h with h
      subst h
      exact Or.inl ⟨u, rfl, hc.1, hc.2, rfl, rfl, rfl⟩
    · rw [if_neg hc] at h; cases h
  | new u tys =>
    unfold UProg.step at h
    simp only [] at h
    by_cases hu : u ∈ s.alive
    · rw [if_pos hu] at h
      injection h with h
      cases hn : ctxNew s.locks (tys.map (LockTy.on u)) with
      | error e => rw [hn] at h; cases h
      | ok x =>
        rw [hn, okB] at h
        injection h with h
        subst h
        have hv : ∀ v c, (s.bindVar u x.1 x.2).vars v = some c → s.vars v = some c ∨ (v = s.nextVar ∧ c = ⟨u, x.1⟩) := by
          intro v c hv
          have hv : Function.update s.vars s.nextVar (some ⟨u, x.1⟩) v = some c := hv
          by_cases e : v = s.nextVar
          · subst e
            rw [Function.update_self] at hv
            injection hv with hv
            exact Or.inr ⟨rfl, hv.symm⟩
          · rw [Function.update_of_ne e] at hv
            exact Or.inl hv
        refine Or.inr ⟨(fun u h => by cases h), fun u hu => hu, ?_, Nat.le_succ _, ?_⟩
        · intro v c h
          rcases hv v c h with h | ⟨h, -⟩
          · exact Or.inr h
          · exact Or.inl ⟨h, rfl⟩
        · intro v c h
          rcases hv v c h with h | ⟨h0, rfl⟩
          · exact Or.inl h
          · exact Or.inr ⟨h0, rfl, hu, fun g hg => Or.inl (new_uni (ctx := x.1) (l' := x.2) hn hg)⟩
    · rw [if_neg hu] at h; cases h
  | «from» u tys args =>
    unfold UProg.step at h
    simp only [] at h
    by_cases hu : u ∈ s.alive
    · rw [if_pos hu] at h
      cases ht : args.take s.vars with
      | none => rw [ht] at h; cases h
      | some y =>
        obtain ⟨old, vars⟩ := y
        rw [ht] at h
        simp only [Option.map_some] at h
        injection h with h
        cases hn : ctxFrom (tys.map (LockTy.on u)) old s.locks with
        | error e => rw [hn] at h; cases h
        | ok x =>
          rw [hn, okB] at h
          injection h with h
          subst h
          obtain ⟨t1, t2⟩ := take_spec ht
          have hv : ∀ v c, (({ s with vars := vars } : UProg).bindVar u x.1 x.2).vars v = some c →
              s.vars v = some c ∨ (v = s.nextVar ∧ c = ⟨u, x.1⟩) := by
            intro v c hv
            have hv : Function.update vars s.nextVar (some ⟨u, x.1⟩) v = some c := hv
            by_cases e : v = s.nextVar
            · subst e
              rw [Function.update_self] at hv
              injection hv with hv
              exact Or.inr ⟨rfl, hv.symm⟩
            · rw [Function.update_of_ne e] at hv
              exact Or.inl (t1 v c hv)
          refine Or.inr ⟨(fun u h => by cases h), fun u hu => hu, ?_, Nat.le_succ _, ?_⟩
          · intro v c h
            rcases hv v c h with h | ⟨h, -⟩
            · exact Or.inr h
            · exact Or.inl ⟨h, rfl⟩
          · intro v c h
            rcases hv v c h with h | ⟨h0, rfl⟩
            · exact Or.inl h
            · refine Or.inr ⟨h0, rfl, hu, fun g hg => ?_⟩
              rcases from_uni (ctx := x.1) (l' := x.2) hn hg with hg | hg
              · exact Or.inl hg
              · exact Or.inr ⟨tys, args, rfl, t2 g hg⟩
    · rw [if_neg hu] at h; cases h
  | drop v =>
    unfold UProg.step at h
    simp only [] at h
    cases hv : s.vars v with
    | none => rw [hv] at h; cases h
    | some c =>
      rw [hv] at h
      injection h with h
      cases hd : ctxDrop s.locks c.fields with
      | error e => rw [hd] at h; cases h
      | ok l =>
        rw [hd, okB] at h
        injection h with h
        subst h
        have hv : ∀ w c', Function.update s.vars v none w = some c' → s.vars w = some c' := by
          intro w c' hw
          by_cases e : w = v
          · subst e; rw [Function.update_self] at hw; cases hw
          · rwa [Function.update_of_ne e] at hw
        exact Or.inr ⟨(fun u h => by cases h), fun u hu => hu, fun w c' h => Or.inr (hv w c' h), le_refl _, fun w c' h => Or.inl (hv w c' h)⟩

/-- Variables are numbered in order, and what a context borrows exists. -/
theorem urun_inv {P : UProg → UAct → Prop} {s : UProg} (h : URun P s) :
    ∀ v c, s.vars v = some c → v < s.nextVar ∧ c.owner ∈ s.alive := by
  induction h with
  | start => intro v c h; cases h
  | @step s s' a hr hp hs ih =>
    intro v c hv
    rcases ustep_cases hs with ⟨u, -, b1, b2, b3, b4, b5⟩ | ⟨-, b1, b2, b3, b4⟩
    · rw [b3] at hv
      obtain ⟨i1, i2⟩ := ih v c hv
      refine ⟨by omega, ?_⟩
      rw [b5, List.mem_filter]
      exact ⟨i2, by simpa using b2 v i1 c (by rw [hv]; rfl)⟩
    · rcases b4 v c hv with h | ⟨h1, h2, h3, -⟩
      · obtain ⟨i1, i2⟩ := ih v c h
        exact ⟨by omega, b1 _ i2⟩
      · exact ⟨by omega, b1 _ h3⟩

/-- C96: in a program that hands contexts on only within one universe, every lock of every context is in the universe
the context was made for, which still exists: none dangles, however universes and contexts come and go. -/
theorem C96_one_universe_safe {s : UProg} (h : URun SameUniverse s) :
    (∀ v c, s.vars v = some c → c.owner ∈ s.alive ∧ ∀ g ∈ c.fields, g.uni = c.owner) ∧ ¬ Dangling s := by
  have hown : ∀ v c, s.vars v = some c → ∀ g ∈ c.fields, g.uni = c.owner := by
    induction h with
    | start => intro v c h; cases h
    | @step s s' a hr hp hs ih =>
      intro v c hv g hg
      rcases ustep_cases hs with ⟨u, -, -, -, b3, -⟩ | ⟨-, -, -, -, b4⟩
      · rw [b3] at hv; exact ih v c hv g hg
      · rcases b4 v c hv with h | ⟨-, -, -, h⟩
        · exact ih v c h g hg
        · rcases h g hg with h | ⟨tys, args, rfl, w, hw, c', hc', hg'⟩
          · exact h
          · rw [ih w c' hc' g hg']
            exact hp w hw c' hc'
  refine ⟨fun v c hv => ⟨(urun_inv h v c hv).2, hown v c hv⟩, ?_⟩
  rintro ⟨v, c, hv, g, hg, hna⟩
  rw [hown v c hv g hg] at hna
  exact hna (urun_inv h v c hv).2

/-- C96: in any program, a lock starts to dangle exactly when a universe is dropped that some context has a lock of;
the compiler accepts that if no context was made for that universe. -/
theorem C96_dangles_iff {P : UProg → UAct → Prop} {s s' : UProg} {a : UAct} (hr : URun P s) (h : s.step a = some (.ok s')) (hd : ¬ Dangling s) :
    Dangling s' ↔ ∃ u, a = .dropUni u ∧ InUse s u := by
  constructor
  · rintro ⟨v, c, hv, g, hg, hna⟩
    rcases ustep_cases h with ⟨u, rfl, b1, b2, b3, b4, b5⟩ | ⟨-, b1, -, -, b4⟩
    · rw [b3] at hv
      refine ⟨u, rfl, v, c, hv, g, hg, ?_⟩
      by_contra hne
      refine hna ?_
      rw [b5, List.mem_filter]
      refine ⟨?_, by simpa using hne⟩
      by_contra hn
      exact hd ⟨v, c, hv, g, hg, hn⟩
    · exfalso
      rcases b4 v c hv with h | ⟨-, -, h1, h2⟩
      · refine hna (b1 _ ?_)
        by_contra hn
        exact hd ⟨v, c, h, g, hg, hn⟩
      · rcases h2 g hg with h | ⟨-, -, -, w, -, c', hc', hg'⟩
        · rw [h] at hna; exact hna (b1 _ h1)
        · refine hna (b1 _ ?_)
          by_contra hn
          exact hd ⟨w, c', hc', g, hg', hn⟩
  · rintro ⟨u, rfl, v, c, hv, g, hg, hgu⟩
    rcases ustep_cases h with ⟨u', e, b1, b2, b3, b4, b5⟩ | ⟨b1, -⟩
    · injection e with e
      subst e
      refine ⟨v, c, by rw [b3]; exact hv, g, hg, ?_⟩
      rw [b5, hgu, List.mem_filter]
      simp
    · exact absurd rfl (b1 u)

/-- C96: if some context made for one universe has a lock of another, and no context was made for the other, the other
can be dropped and the lock dangles. -/
theorem C96_use_after_free {P : UProg → UAct → Prop} {s : UProg} (hr : URun P s) {v : Nat} {c : UCtx} {g : Guard} (hv : s.vars v = some c)
    (hg : g ∈ c.fields) (hu : g.uni ∈ s.alive) (ho : ∀ w d, s.vars w = some d → d.owner ≠ g.uni) :
    ∃ s', s.step (.dropUni g.uni) = some (.ok s') ∧ Dangling s' ∧ s'.vars v = some c := by
  refine ⟨{ s with alive := s.alive.filter (· ≠ g.uni) }, ?_, ⟨v, c, hv, g, hg, ?_⟩, hv⟩
  · unfold UProg.step
    simp only []
    rw [if_pos ⟨hu, fun w _ d hd => ho w d hd⟩]
  · simp

/-- A run of a program's actions goes through states of `URun`. -/
theorem urun_run {acts : List UAct} {s s' : UProg} (hr : URun (fun _ _ => True) s) (h : s.run acts = some (.ok s')) : URun (fun _ _ => True) s' := by
  induction acts generalizing s with
  | nil => injection h with h; injection h with h; subst h; exact hr
  | cons a acts ih =>
    unfold UProg.run at h
    cases hs : s.step a with
    | none => rw [hs] at h; cases h
    | some r =>
      rw [hs] at h
      cases r with
      | error e => injection h with h; cases h
      | ok s1 => exact ih (.step hr trivial hs) h

/-- C96: whatever may be locked: a context of universe 0, handed to `from` with universe 1, outlives universe 0 with a
lock of it. Every step compiles, without `unsafe`. -/
theorem C96_safe_code_dangles (ty : LockTy) :
    ∃ s, UProg.start.run [.makeUni, .makeUni, .new 0 [ty], .from 1 [ty] (.var 0), .dropUni 0] = some (.ok s) ∧ Dangling s := by
  let g : Guard := { ty := ty.on 0, no := 0, dirty := false }
  let l : Locks := { held := [g], next := 1, log := [.acquired g] }
  have hf : ctxFrom [ty.on 1] (.ctx [g]) l = .ok ([g], l) := by
    simp [ctxFrom, Old.release, releaseList, releaseField, slotFor, LockTy.on, lockMissing, g, okB, List.findIdx?_cons]
  let s4 : UProg := { alive := [1, 0], nextUni := 2, vars := Function.update (Function.update (Function.update (fun _ => none) 0 (some ⟨0, [g]⟩)) 0 none) 1 (some ⟨1, [g]⟩), nextVar := 2, locks := l }
  let s3 : UProg := { alive := [1, 0], nextUni := 2, vars := Function.update (fun _ => none) 0 (some ⟨0, [g]⟩), nextVar := 1, locks := l }
  have h4 : s3.step (.from 1 [ty] (.var 0)) = some (.ok s4) := by
    unfold UProg.step
    simp only []
    rw [if_pos (by simp [s3])]
    have ht : (CArgs.var 0).take s3.vars = some (.ctx [g], Function.update s3.vars 0 none) := rfl
    rw [ht]
    simp only [Option.map_some]
    have hf' : ctxFrom ([ty].map (LockTy.on 1)) (.ctx [g]) s3.locks = .ok ([g], l) := hf
    rw [hf', okB]
    rfl
  have hv : ∀ w d, s4.vars w = some d → d.owner ≠ g.uni := by
    intro w d hd
    have h0 : g.uni = 0 := on_uni 0 ty rfl
    rw [h0]
    by_cases e1 : w = 1
    · subst e1
      have : s4.vars 1 = some ⟨1, [g]⟩ := rfl
      rw [this] at hd; injection hd with hd; subst hd; simp
    · have : s4.vars w = Function.update (Function.update (fun _ => none) 0 (some ⟨0, [g]⟩)) 0 none w := Function.update_of_ne e1 _ _
      rw [this] at hd
      by_cases e0 : w = 0
      · subst e0; rw [Function.update_self] at hd; cases hd
      · rw [Function.update_of_ne e0, Function.update_of_ne e0] at hd; cases hd
  have hr3 : UProg.start.run [.makeUni, .makeUni, .new 0 [ty]] = some (.ok s3) := rfl
  have hr4 : URun (fun _ _ => True) s4 := .step (urun_run .start hr3) trivial h4
  obtain ⟨s5, h5, h6, -⟩ := C96_use_after_free hr4 (v := 1) (c := ⟨1, [g]⟩) (g := g) rfl (by simp)
    (by rw [on_uni 0 ty (g := g) rfl]; simp [s4]) hv
  rw [on_uni 0 ty (g := g) rfl] at h5
  refine ⟨s5, ?_, h6⟩
  have : UProg.start.run [.makeUni, .makeUni, .new 0 [ty], .from 1 [ty] (.var 0), .dropUni 0] =
      (match s3.step (.from 1 [ty] (.var 0)) with
        | some (.ok s) => s.run [.dropUni 0]
        | r => r) := rfl
  rw [this, h4]
  show (match s4.step (.dropUni 0) with
    | some (.ok s) => s.run []
    | r => r) = _
  rw [h5]
  rfl

/-- Two types of lock. -/
def ctxTyA : LockTy := { name := "a", tid := 1, res := 0, write := true }
def ctxTyB : LockTy := { name := "b", tid := 2, res := 1, write := false }

/-- What each lock of each context locks: `Nat.pair` of universe and resource. -/
def ctxDump (r : Option (R UProg)) : Option (List Nat × List (Option (Nat × List Nat))) :=
  match r with
  | some (.ok s) => some (s.alive, (List.range s.nextVar).map fun v => (s.vars v).map fun c => (c.owner, c.fields.map fun g => g.ty.res))
  | _ => none

/-- A context of universe 1 made from one of universe 0: the lock of `a` is universe 0's, that of `b` is new. Universe 0
can then be dropped. -/
example : ctxDump (UProg.start.run [.makeUni, .makeUni, .new 0 [ctxTyA], .from 1 [ctxTyB, ctxTyA] (.one (.var 0)), .dropUni 0]) =
    some ([1], [none, some (1, [Nat.pair 1 1, Nat.pair 0 0])]) := by decide

/-- Within one universe: contexts are handed on and the universe cannot be dropped. -/
example : ctxDump (UProg.start.run [.makeUni, .makeUni, .new 0 [ctxTyA], .new 1 [ctxTyB], .from 0 [ctxTyB, ctxTyA] (.var 0), .drop 1, .dropUni 1]) =
    some ([0], [none, none, some (0, [Nat.pair 0 1, Nat.pair 0 0])]) := by decide
example : ((UProg.start.run [.makeUni, .new 0 [ctxTyA], .from 0 [ctxTyB] (.var 0), .dropUni 0]).isSome) = false := by decide

end V11
