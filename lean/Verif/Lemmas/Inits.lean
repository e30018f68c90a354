import Verif.Spec.Inits
import Verif.Lemmas.RegistryMore
import Verif.Lemmas.RegistryAdd

/-!
# What initialisers do while the registry's lock is held
-/

set_option linter.unusedSimpArgs false
set_option linter.unusedSectionVars false
set_option linter.unusedVariables false

namespace V11
variable {Ty : Type} [DecidableEq Ty] {V : Ty → Type} {P : Type} [DecidableEq P] {decl : P → PropDecl V}

/-- A universe without the values of its properties. -/
abbrev bareU (u : List (MaybeDomain V)) : List (MaybeDomain V) := u.map MaybeDomain.bare

/-- What may change under the registry's lock, universe `busy` being borrowed: values of properties of other universes. -/
structure Beside (decl : P → PropDecl V) (busy : Option Nat) (w w' : World P V) : Prop where
  inv : WInv decl w → WInv decl w'
  bare : w'.bare = w.bare
  busy : ∀ k, busy = some k → w'.unis[k]? = w.unis[k]?

theorem Beside.g {busy : Option Nat} {w w' : World P V} (h : Beside decl busy w w') : w'.g = w.g := by
  have := congrArg World.g h.bare
  exact this
theorem Beside.idx {busy : Option Nat} {w w' : World P V} (h : Beside decl busy w w') : w'.idx = w.idx := by
  have := congrArg World.idx h.bare
  exact this
theorem Beside.poisoned {busy : Option Nat} {w w' : World P V} (h : Beside decl busy w w') : w'.poisoned = w.poisoned := by
  have := congrArg World.poisoned h.bare
  exact this
theorem Beside.unis {busy : Option Nat} {w w' : World P V} (h : Beside decl busy w w') : w'.unis.map bareU = w.unis.map bareU := by
  have := congrArg World.unis h.bare
  exact this
theorem Beside.len {busy : Option Nat} {w w' : World P V} (h : Beside decl busy w w') : w'.unis.length = w.unis.length := by
  have := congrArg List.length h.unis
  simpa using this

theorem Beside.refl (busy : Option Nat) (w : World P V) : Beside decl busy w w := ⟨fun h => h, rfl, fun _ _ => rfl⟩

theorem Beside.trans {busy : Option Nat} {a b c : World P V} (h1 : Beside decl busy a b) (h2 : Beside decl busy b c) : Beside decl busy a c :=
  ⟨fun h => h2.inv (h1.inv h), h2.bare.trans h1.bare, fun k hk => (h2.busy k hk).trans (h1.busy k hk)⟩

theorem resolve_set {w : World P V} {p : P} (h : (w.idx p).isNone = false) : ∃ i, w.idx p = some i ∧ w.resolve decl p = (.ok i, w) := by
  cases hi : w.idx p with
  | none => rw [hi] at h; cases h
  | some i =>
    refine ⟨i, rfl, ?_⟩
    unfold World.resolve
    rw [hi]

theorem putCell_bare (u : List (MaybeDomain V)) (i : PIndex) (v : Σ t, V t) : bareU (putCell u i v) = bareU u := by
  unfold putCell
  apply List.ext_getElem?
  intro j
  rw [List.getElem?_map, List.getElem?_map, List.getElem?_modify]
  cases u[j]? with
  | none => rfl
  | some m =>
    by_cases h : i.domain = j
    · cases m <;> simp [h, MaybeDomain.bare, Instance.bare]
    · simp [h]

theorem set_bare {w : World P V} {k : Nat} {u u' : List (MaybeDomain V)} (hk : w.unis[k]? = some u) (hb : bareU u' = bareU u) :
    (({ w with unis := w.unis.set k u' } : World P V)).bare = w.bare := by
  unfold World.bare
  simp only [World.mk.injEq, true_and]
  rw [List.map_set]
  apply List.ext_getElem?
  intro j
  rw [List.getElem?_set]
  by_cases h : k = j
  · subst h
    rw [List.getElem?_map, hk]
    have := get_lt hk
    rw [if_pos rfl, if_pos (by simpa using this)]
    exact congrArg some hb
  · rw [if_neg h]

theorem swap_shape {w : World P V} {k : Nat} {p : P} (hp : (w.idx p).isNone = false) (v : V (decl p).ty) :
    (w.swap decl k p v).2 = w ∨ ∃ u u', w.unis[k]? = some u ∧ bareU u' = bareU u ∧ (w.swap decl k p v).2 = { w with unis := w.unis.set k u' } := by
  obtain ⟨i, hi, hr⟩ := resolve_set (decl := decl) hp
  unfold World.swap
  cases hk : w.unis[k]? with
  | none => exact Or.inl rfl
  | some u =>
    simp only []
    rw [hr]
    simp only []
    cases hc : cellOf u i with
    | error e => exact Or.inl rfl
    | ok c =>
      simp only []
      cases hd : downcast (decl p).ty c with
      | error e => exact Or.inl rfl
      | ok old => exact Or.inr ⟨u, _, rfl, putCell_bare _ _ _, rfl⟩

theorem swap_beside {busy : Option Nat} {w : World P V} {k : Nat} {p : P} (hb : busy ≠ some k) (hp : (w.idx p).isNone = false) (v : V (decl p).ty) :
    Beside decl busy w (w.swap decl k p v).2 := by
  have hinv : WInv decl w → WInv decl (w.swap decl k p v).2 := fun h => (swap_step h k p v).1
  rcases swap_shape hp v with h | ⟨u, u', h1, h2, h⟩
  · rw [h]; exact Beside.refl _ _
  · refine ⟨hinv, ?_, ?_⟩
    · rw [h]; exact set_bare h1 h2
    · intro k' hk'
      rw [h]
      have : k ≠ k' := by rintro rfl; exact hb hk'
      exact List.getElem?_set_ne this

theorem get_beside {w : World P V} {k : Nat} {p : P} (hp : (w.idx p).isNone = false) : (w.get decl k p).2 = w := by
  obtain ⟨i, hi, hr⟩ := resolve_set (decl := decl) hp
  unfold World.get
  cases hk : w.unis[k]? with
  | none => rfl
  | some u =>
    simp only []
    rw [hr]
    simp only []
    cases hc : cellOf u i with
    | error e => rfl
    | ok c => rfl

/-- What is left of the calls if the registry's lock is held. -/
theorem unblocked {busy : Option Nat} {w : World P V} {op : ROp decl} (h : w.blocks busy op = false) :
    (∃ n q, op = .registerDomain n ∧ checkName n.toList = .error q) ∨ (∃ t q, op = .registerTable t ∧ t.build = .error q) ∨
    (∃ k p, op = .get k p ∧ busy ≠ some k ∧ (w.idx p).isNone = false) ∨ (∃ k p v, op = .set k p v ∧ busy ≠ some k ∧ (w.idx p).isNone = false) ∨
    ∃ k p v, op = .swap k p v ∧ busy ≠ some k ∧ (w.idx p).isNone = false := by
  cases op with
  | registerDomain n =>
    rw [World.blocks] at h
    cases hc : checkName n.toList with
    | error q => exact Or.inl ⟨n, q, rfl, hc⟩
    | ok _ => rw [hc] at h; cases h
  | registerTable t =>
    rw [World.blocks] at h
    cases hc : t.build with
    | error q => exact Or.inr (Or.inl ⟨t, q, rfl, hc⟩)
    | ok _ => rw [hc] at h; cases h
  | get k p =>
    simp only [World.blocks, Bool.or_eq_false_iff, decide_eq_false_iff_not] at h
    exact Or.inr (Or.inr (Or.inl ⟨k, p, rfl, h⟩))
  | set k p v =>
    simp only [World.blocks, Bool.or_eq_false_iff, decide_eq_false_iff_not] at h
    exact Or.inr (Or.inr (Or.inr (Or.inl ⟨k, p, v, rfl, h⟩)))
  | swap k p v =>
    simp only [World.blocks, Bool.or_eq_false_iff, decide_eq_false_iff_not] at h
    exact Or.inr (Or.inr (Or.inr (Or.inr ⟨k, p, v, rfl, h⟩)))
  | registerProp _ => simp [World.blocks] at h
  | newUniverse _ => simp [World.blocks] at h
  | addDomain _ _ => simp [World.blocks] at h
  | addProperties _ => simp [World.blocks] at h
  | openTable _ _ _ _ => simp [World.blocks] at h
  | panicWriting _ _ _ => simp [World.blocks] at h
  | registerTracker _ _ => simp [World.blocks] at h

theorem step_beside {busy : Option Nat} {w : World P V} {op : ROp decl} (h : w.blocks busy op = false) : Beside decl busy w (w.step decl op).2 := by
  rcases unblocked h with ⟨n, q, rfl, hc⟩ | ⟨t, q, rfl, hc⟩ | ⟨k, p, rfl, hb, hp⟩ | ⟨k, p, v, rfl, hb, hp⟩ | ⟨k, p, v, rfl, hb, hp⟩
  · have : (w.registerDomain n).2 = w := by
      unfold World.registerDomain
      rw [hc]
    show Beside decl busy w (w.registerDomain n).2
    rw [this]; exact Beside.refl _ _
  · have : (w.registerTable t).2 = w := by
      unfold World.registerTable
      rw [hc]
    show Beside decl busy w (w.registerTable t).2
    rw [this]; exact Beside.refl _ _
  · show Beside decl busy w (w.get decl k p).2
    rw [get_beside hp]; exact Beside.refl _ _
  · show Beside decl busy w (w.set decl k p v).2
    rw [set_snd]; exact swap_beside hb hp v
  · exact swap_beside hb hp v

theorem script_beside {busy : Option Nat} {t : Ty} (s : Recipe decl t) (w : World P V) : Beside decl busy w (s.run busy w).2 := by
  induction s generalizing w with
  | ret v => exact Beside.refl _ _
  | panic => exact Beside.refl _ _
  | call op k ih =>
    rw [Recipe.run]
    cases hb : w.blocks busy op with
    | true => rw [if_pos rfl]; exact Beside.refl _ _
    | false =>
      rw [if_neg (by simp)]
      exact (step_beside hb).trans (ih _ _)

/-! ## The registry itself does not matter to them -/

/-- The same with another registry. -/
def World.withG (w : World P V) (g : Globals V) : World P V := { w with g := g }

theorem blocks_withG (w : World P V) (g : Globals V) (busy : Option Nat) (op : ROp decl) : (w.withG g).blocks busy op = w.blocks busy op := by
  cases op <;> rfl

theorem swap_withG {w : World P V} {g : Globals V} {k : Nat} {p : P} (hp : (w.idx p).isNone = false) (v : V (decl p).ty) :
    (w.withG g).swap decl k p v = ((w.swap decl k p v).1, (w.swap decl k p v).2.withG g) := by
  obtain ⟨i, hi, hr⟩ := resolve_set (decl := decl) hp
  obtain ⟨i', hi', hr'⟩ := resolve_set (decl := decl) (w := w.withG g) (p := p) hp
  have : i' = i := by
    have h : (w.withG g).idx p = w.idx p := rfl
    rw [h, hi] at hi'; injection hi' with hi'; exact hi'.symm
  subst this
  unfold World.swap
  have hu : (w.withG g).unis = w.unis := rfl
  rw [hu]
  cases hk : w.unis[k]? with
  | none => rfl
  | some u =>
    simp only []
    rw [hr, hr']
    simp only []
    cases hc : cellOf u i' with
    | error e => rfl
    | ok c =>
      simp only []
      cases hd : downcast (decl p).ty c with
      | error e => rfl
      | ok old => rfl

theorem get_withG {w : World P V} {g : Globals V} {k : Nat} {p : P} (hp : (w.idx p).isNone = false) :
    ((w.withG g).get decl k p).1 = (w.get decl k p).1 := by
  obtain ⟨i, hi, hr⟩ := resolve_set (decl := decl) hp
  obtain ⟨i', hi', hr'⟩ := resolve_set (decl := decl) (w := w.withG g) (p := p) hp
  have : i' = i := by
    have h : (w.withG g).idx p = w.idx p := rfl
    rw [h, hi] at hi'; injection hi' with hi'; exact hi'.symm
  subst this
  unfold World.get
  have hu : (w.withG g).unis = w.unis := rfl
  rw [hu]
  cases hk : w.unis[k]? with
  | none => rfl
  | some u =>
    simp only []
    rw [hr, hr']
    simp only []
    cases hc : cellOf u i' with
    | error e => rfl
    | ok c => rfl

theorem step_withG {busy : Option Nat} {w : World P V} {g : Globals V} {op : ROp decl} (h : w.blocks busy op = false) :
    (w.withG g).given decl op = w.given decl op ∧ ((w.withG g).step decl op).2 = (w.step decl op).2.withG g := by
  rcases unblocked h with ⟨n, q, rfl, hc⟩ | ⟨t, q, rfl, hc⟩ | ⟨k, p, rfl, hb, hp⟩ | ⟨k, p, v, rfl, hb, hp⟩ | ⟨k, p, v, rfl, hb, hp⟩
  · have : ∀ w : World P V, w.registerDomain n = (.error q, w) := by
      intro w
      unfold World.registerDomain
      rw [hc]
    simp only [World.given, World.step, this, and_self]
  · have : ∀ w : World P V, w.registerTable t = (.error q, w) := by
      intro w
      unfold World.registerTable
      rw [hc]
    simp only [World.given, World.step, this, and_self]
  · simp only [World.given, World.step]
    rw [get_withG hp, get_beside hp, get_beside (w := w.withG g) hp]
    exact ⟨rfl, rfl⟩
  · simp only [World.given, World.step, set_snd, set_fst]
    rw [swap_withG hp]
    exact ⟨rfl, rfl⟩
  · simp only [World.given, World.step]
    rw [swap_withG hp]
    exact ⟨rfl, rfl⟩

theorem run_withG {busy : Option Nat} {t : Ty} (s : Recipe decl t) (w : World P V) (g : Globals V) :
    s.run busy (w.withG g) = ((s.run busy w).1, (s.run busy w).2.withG g) := by
  induction s generalizing w with
  | ret v => rfl
  | panic => rfl
  | call op k ih =>
    rw [Recipe.run, Recipe.run, blocks_withG]
    cases hb : w.blocks busy op with
    | true => rfl
    | false =>
      rw [if_neg (by simp), if_neg (by simp)]
      obtain ⟨h1, h2⟩ := step_withG (g := g) hb
      rw [h1, h2]
      exact ih _ _

/-! ## Several in a row -/

variable {inits : (p : P) → Recipe decl (decl p).ty}

theorem evalEach_withG {busy : Option Nat} (ps : List P) (w : World P V) (g : Globals V) :
    evalEach inits busy ps (w.withG g) = ((evalEach inits busy ps w).1, (evalEach inits busy ps w).2.withG g) := by
  induction ps generalizing w with
  | nil => rfl
  | cons p ps ih =>
    simp only [evalEach]
    rw [run_withG]
    rcases hr : (inits p).run busy w with ⟨r, w1⟩
    cases r with
    | error q => rfl
    | ok v =>
      simp only []
      rw [ih]

theorem evalEach_beside {busy : Option Nat} (ps : List P) (w : World P V) : Beside decl busy w (evalEach inits busy ps w).2 := by
  induction ps generalizing w with
  | nil => exact Beside.refl _ _
  | cons p ps ih =>
    simp only [evalEach]
    have := script_beside (busy := busy) (inits p) w
    rcases hr : (inits p).run busy w with ⟨r, w1⟩
    rw [hr] at this
    cases r with
    | error q => exact this
    | ok v => exact this.trans (ih w1)

/-- The values, or the first failure. -/
abbrev gains (L : List (P × R (Σ t, V t))) : R (List (Σ t, V t)) := L.mapM Prod.snd

theorem gains_nil : gains ([] : List (P × R (Σ t, V t))) = .ok [] := rfl

theorem gains_fail (p : P) (q : Panic) : gains [(p, (.error q : R (Σ t, V t)))] = .error q := rfl

theorem gains_cons (p : P) (v : Σ t, V t) (L : List (P × R (Σ t, V t))) : gains ((p, .ok v) :: L) = (gains L).map (v :: ·) := by
  show List.mapM _ _ = _
  rw [List.mapM_cons]
  show (do let bs ← gains L; pure (v :: bs) : R (List (Σ t, V t))) = _
  cases gains L <;> rfl

theorem gains_append (L M : List (P × R (Σ t, V t))) : gains (L ++ M) = (gains L).bind (fun vs => (gains M).map (vs ++ ·)) := by
  induction L with
  | nil =>
    show gains M = (gains M).map _
    cases gains M <;> simp [Except.map]
  | cons x L ih =>
    obtain ⟨p, r⟩ := x
    cases r with
    | error q =>
      have h : ∀ N, gains ((p, (.error q : R (Σ t, V t))) :: N) = .error q := by
        intro N
        show List.mapM _ _ = _
        rw [List.mapM_cons]; rfl
      rw [List.cons_append, h, h]; rfl
    | ok v =>
      rw [List.cons_append, gains_cons, gains_cons, ih]
      cases gains L with
      | error q => rfl
      | ok vs => cases gains M <;> rfl

/-- All returned exactly if the values are there. -/
theorem gains_ok {L : List (P × R (Σ t, V t))} {vs : List (Σ t, V t)} : gains L = .ok vs ↔ L.map Prod.snd = vs.map .ok := by
  induction L generalizing vs with
  | nil =>
    rw [gains_nil]
    cases vs <;> simp
  | cons x L ih =>
    obtain ⟨p, r⟩ := x
    cases r with
    | error q =>
      have h : gains ((p, (.error q : R (Σ t, V t))) :: L) = .error q := by
        show List.mapM _ _ = _
        rw [List.mapM_cons]; rfl
      rw [h]
      cases vs <;> simp
    | ok v =>
      rw [gains_cons]
      cases vs with
      | nil => cases hg : gains L <;> simp [hg, Except.map]
      | cons a vs =>
        cases hg : gains L with
        | error q =>
          have := ih (vs := vs)
          rw [hg] at this
          simp [Except.map]
          intro _ h
          exact absurd (this.2 h) (by simp)
        | ok ws =>
          have := ih (vs := vs)
          rw [hg] at this
          simp only [Except.map, Except.ok.injEq, List.cons.injEq, List.map_cons] at this ⊢
          rw [this]

theorem evalEach_append {busy : Option Nat} (ps qs : List P) (w : World P V) :
    evalEach inits busy (ps ++ qs) w = match gains (evalEach inits busy ps w).1 with
      | .error _ => evalEach inits busy ps w
      | .ok _ => ((evalEach inits busy ps w).1 ++ (evalEach inits busy qs (evalEach inits busy ps w).2).1, (evalEach inits busy qs (evalEach inits busy ps w).2).2) := by
  induction ps generalizing w with
  | nil => rfl
  | cons p ps ih =>
    simp only [evalEach, List.cons_append]
    rcases hr : (inits p).run busy w with ⟨r, w1⟩
    cases r with
    | error q => rfl
    | ok v =>
      simp only []
      rw [gains_cons, ih]
      cases hg : gains (evalEach inits busy ps w1).1 <;> rfl

theorem evalEach_fst {busy : Option Nat} (ps : List P) (w : World P V) : ((evalEach inits busy ps w).1.map Prod.fst) <+: ps ∧
    (∀ vs, gains (evalEach inits busy ps w).1 = .ok vs → (evalEach inits busy ps w).1.map Prod.fst = ps) := by
  induction ps generalizing w with
  | nil => exact ⟨List.prefix_rfl, fun _ _ => rfl⟩
  | cons p ps ih =>
    simp only [evalEach]
    rcases hr : (inits p).run busy w with ⟨r, w1⟩
    cases r with
    | error q => exact ⟨by simp, fun vs h => by rw [gains_fail] at h; cases h⟩
    | ok v =>
      simp only []
      refine ⟨by simpa using (ih w1).1, fun vs h => ?_⟩
      rw [gains_cons] at h
      cases hg : gains (evalEach inits busy ps w1).1 with
      | error q => rw [hg] at h; cases h
      | ok ws => simp [(ih w1).2 ws hg]

theorem evalEach_types {busy : Option Nat} (ps : List P) (w : World P V) {vs : List (Σ t, V t)} (h : gains (evalEach inits busy ps w).1 = .ok vs) :
    vs.map Sigma.fst = ps.map (fun p => (decl p).ty) := by
  induction ps generalizing w vs with
  | nil => rw [evalEach, gains_nil] at h; injection h with h; subst h; rfl
  | cons p ps ih =>
    simp only [evalEach] at h
    rcases hr : (inits p).run busy w with ⟨r, w1⟩
    rw [hr] at h
    cases r with
    | error q => rw [gains_fail] at h; cases h
    | ok v =>
      simp only [] at h
      rw [gains_cons] at h
      cases hg : gains (evalEach inits busy ps w1).1 with
      | error q => rw [hg] at h; cases h
      | ok ws =>
        rw [hg] at h
        injection h with h; subst h
        simp [ih w1 hg]

/-- A failure is that of the last one. -/
theorem evalEach_fails {busy : Option Nat} (ps : List P) (w : World P V) {q : Panic} (h : gains (evalEach inits busy ps w).1 = .error q) :
    ∃ a p b w0, ps = a ++ p :: b ∧ (∃ vs, gains (evalEach inits busy a w).1 = .ok vs) ∧ w0 = (evalEach inits busy a w).2 ∧
      ((inits p).run busy w0).1 = .error q ∧ evalEach inits busy ps w = ((evalEach inits busy a w).1 ++ [(p, .error q)], ((inits p).run busy w0).2) := by
  induction ps generalizing w with
  | nil => rw [evalEach, gains_nil] at h; cases h
  | cons p ps ih =>
    simp only [evalEach] at h ⊢
    rcases hr : (inits p).run busy w with ⟨r, w1⟩
    rw [hr] at h
    cases r with
    | error q' =>
      rw [gains_fail] at h; injection h with h; subst h
      exact ⟨[], p, ps, w, rfl, ⟨[], rfl⟩, rfl, by rw [hr], by simp [evalEach, hr]⟩
    | ok v =>
      simp only [] at h ⊢
      rw [gains_cons] at h
      cases hg : gains (evalEach inits busy ps w1).1 with
      | ok ws => rw [hg] at h; cases h
      | error q' =>
        rw [hg] at h; injection h with h; subst h
        obtain ⟨a, p', b, w0, e1, ⟨vs, e2⟩, e3, e4, e5⟩ := ih w1 hg
        refine ⟨p :: a, p', b, w0, by rw [e1]; rfl, ⟨⟨_, v⟩ :: vs, ?_⟩, ?_, e4, ?_⟩
        · simp only [evalEach, hr]
          rw [gains_cons, e2]; rfl
        · simp only [evalEach, hr]; exact e3
        · simp only [evalEach, hr]
          rw [e5]; rfl

end V11
