import Verif.Lemmas.PropLocksWorld

/-!
# Property locks among threads: what holds in every state
-/

set_option linter.unusedSimpArgs false
set_option linter.unusedSectionVars false
set_option linter.unusedVariables false

namespace V11
variable {Ty : Type} [DecidableEq Ty] {V : Ty → Type} {P : Type} [DecidableEq P] {ι : Type} [DecidableEq ι] {decl : P → PropDecl V}

theorem pl_split {α : Type} {a b pre post : List α} {x : α} (h : a ++ b = pre ++ x :: post) :
    (∃ post', a = pre ++ x :: post' ∧ post = post' ++ b) ∨ ∃ pre', pre = a ++ pre' ∧ b = pre' ++ x :: post := by
  rcases List.append_eq_append_iff.1 h with ⟨c, h1, h2⟩ | ⟨c, h1, h2⟩
  · exact Or.inr ⟨c, h1, h2⟩
  · cases c with
    | nil =>
      refine Or.inr ⟨[], ?_, ?_⟩
      · simpa using h1.symm
      · simpa using h2.symm
    | cons y c =>
      injection h2 with h3 h4
      subst h3
      exact Or.inl ⟨c, h1, h4⟩

theorem lastPut_append (a b : List (PlEv ι decl)) (l : PKey) : lastPut (a ++ b) l = (lastPut b l).or (lastPut a l) := by
  unfold lastPut
  rw [List.filterMap_append, List.getLast?_append]

/-- What the log says of a value. -/
def SaysPut (w0 : World P V) (log : List (PlEv ι decl)) (k : Nat) (p : P) (v : V (decl p).ty) : Prop :=
  (∀ x, lastPut log (PropDecl.key decl k p) = some x → x = ⟨_, v⟩) ∧ (lastPut log (PropDecl.key decl k p) = none → (w0.get decl k p).1 = .ok v)

/-- A guard keeps what happens to its value. -/
def Guarding (i : ι) (g : PGuard P) (b : List (PlEv ι decl)) : Prop :=
  ∀ e ∈ b, (g.2.2 = .wr → (e.uses (g.key decl) → e.doer = i) ∧ ∀ j g', e = .took j g' → g'.key decl ≠ g.key decl) ∧ (g.2.2 = .rd → ¬ e.writes (g.key decl))

structure PlInv (ops0 : List (ROp decl)) (s : PlSys ι decl) : Prop where
  w : s.w = World.after decl (ops0 ++ opsOf s.log)
  settled : ∀ i, ∀ g ∈ (s.th i).held, Settled decl s.w g.1 g.2.1
  apart : ∀ i j, i ≠ j → ∀ g ∈ (s.th i).held, ∀ g' ∈ (s.th j).held, g.key decl = g'.key decl → g.2.2 = .rd ∧ g'.2.2 = .rd
  own : ∀ i, ((s.th i).held).Pairwise (fun g g' => g.key decl = g'.key decl → g.2.2 = .rd ∧ g'.2.2 = .rd)
  bad : ∀ l, s.bad l = true ↔ Spoiled s.log l
  died : ∀ i, .died i ∈ s.log ↔ (s.th i).falling = true
  clean : ∀ l, s.bad l = true → ∀ i, ∀ g ∈ (s.th i).held, g.key decl ≠ l
  puts : ∀ k p v, (s.w.get decl k p).1 = .ok v → SaysPut (World.after decl ops0) s.log k p v
  saws : ∀ pre i k p v post, s.log = pre ++ .saw i k p v :: post → SaysPut (World.after decl ops0) pre k p v
  holds : ∀ a i g b, s.log = a ++ .took i g :: b → .left i g ∉ b → g ∈ (s.th i).held ∧ Guarding i g b
  spoils : ∀ pre e post l, s.log = pre ++ e :: post → Spoiled pre l → ¬ e.uses l

theorem PlInv.start (ops0 : List (ROp decl)) (progs : ι → PScript decl) : PlInv ops0 (PlSys.start (World.after decl ops0) progs) where
  w := by simp [PlSys.start, opsOf]
  settled := by intro i g hg; cases hg
  apart := by intro i j _ g hg; cases hg
  own := by intro i; exact List.Pairwise.nil
  bad := by
    intro l
    constructor
    · intro h; cases h
    · rintro ⟨pre, i, g, post, h, -⟩
      have : (PlSys.start (World.after decl ops0) progs).log = [] := rfl
      rw [this] at h
      simp at h
  died := by intro i; simp [PlSys.start]
  clean := by intro l h; cases h
  puts := by
    intro k p v h
    exact ⟨by intro x hx; simp [PlSys.start, lastPut] at hx, fun _ => h⟩
  saws := by
    intro pre i k p v post h
    have : (PlSys.start (World.after decl ops0) progs).log = [] := rfl
    rw [this] at h
    simp at h
  holds := by
    intro a i g b h
    have : (PlSys.start (World.after decl ops0) progs).log = [] := rfl
    rw [this] at h
    simp at h
  spoils := by
    intro a e b l h
    have : (PlSys.start (World.after decl ops0) progs).log = [] := rfl
    rw [this] at h
    simp at h

variable {s s' : PlSys ι decl} {i : ι} {t : PlThread decl} {evs : List (PlEv ι decl)} {bad : PKey → Bool} {ops0 : List (ROp decl)}

/-- What a step does to the world. -/
theorem PlDid.kind (hs : ∀ i, ∀ g ∈ (s.th i).held, Settled decl s.w g.1 g.2.1) (h : PlDid s i t evs bad) :
    (opsOf evs = [] ∧ ∀ l, lastPut evs l = none) ∨ (∃ k p, opsOf evs = [.get k p] ∧ ∀ l, lastPut evs l = none) ∨
    ∃ k p x, opsOf evs = [.set k p x] ∧ (∃ old, (s.w.get decl k p).1 = .ok old) ∧ ∀ l, lastPut evs l = if PropDecl.key decl k p = l then some ⟨_, x⟩ else none := by
  cases h with
  | die h1 h2 =>
    rcases h2 with rfl | ⟨k, p, rfl⟩
    · exact Or.inl ⟨rfl, fun l => rfl⟩
    · exact Or.inr (Or.inl ⟨k, p, rfl, fun l => rfl⟩)
  | @use k p m v evs sc h1 h2 h3 h4 h5 h6 =>
    rcases h6 with ⟨rfl, rfl⟩ | ⟨x, rfl, rfl⟩ | ⟨x, rfl, rfl⟩
    · exact Or.inr (Or.inl ⟨k, p, rfl, fun l => rfl⟩)
    · refine Or.inr (Or.inr ⟨k, p, x, rfl, ⟨v, h3⟩, fun l => ?_⟩)
      unfold lastPut
      by_cases hc : PropDecl.key decl k p = l <;> simp [PlEv.puts, hc]
    · refine Or.inr (Or.inr ⟨k, p, x, rfl, ⟨v, h3⟩, fun l => ?_⟩)
      unfold lastPut
      by_cases hc : PropDecl.key decl k p = l <;> simp [PlEv.puts, hc]
  | @take k p m v sc h1 h2 h3 h4 h5 => exact Or.inr (Or.inl ⟨k, p, rfl, fun l => rfl⟩)
  | look h1 h2 h3 => exact Or.inl ⟨rfl, fun l => rfl⟩
  | @store k p x sc h1 h2 =>
    refine Or.inr (Or.inr ⟨k, p, x, rfl, (hs i _ h2).2, fun l => ?_⟩)
    unfold lastPut
    by_cases hc : PropDecl.key decl k p = l <;> simp [PlEv.puts, hc]
  | leave h1 => exact Or.inl ⟨rfl, fun l => rfl⟩

/-- Who uses a value has its lock, or could have it. -/
theorem PlDid.uses (hc : ∀ l, s.bad l = true → ∀ i, ∀ g ∈ (s.th i).held, g.key decl ≠ l) (h : PlDid s i t evs bad) {e : PlEv ι decl} (he : e ∈ evs) :
    e.doer = i ∧ ∀ l, e.uses l → s.bad l = false ∧ ∃ m, (s.free l m ∨ ∃ g ∈ (s.th i).held, g.key decl = l ∧ g.2.2 = m) ∧ (e.writes l → m = .wr) := by
  have hgood : ∀ g ∈ (s.th i).held, s.bad (g.key decl) = false := by
    intro g hg
    cases hb : s.bad (g.key decl) with
    | false => rfl
    | true => exact absurd rfl (hc _ hb i g hg)
  cases h with
  | die h1 h2 =>
    rcases h2 with rfl | ⟨k, p, rfl⟩
    · simp at he; subst he; exact ⟨rfl, fun l h => h.elim⟩
    · simp at he; rcases he with rfl | rfl <;> exact ⟨rfl, fun l h => h.elim⟩
  | @use k p m v evs sc h1 h2 h3 h4 h5 h6 =>
    rcases h6 with ⟨rfl, rfl⟩ | ⟨x, rfl, rfl⟩ | ⟨x, rfl, rfl⟩
    · simp at he
      rcases he with rfl | rfl
      · exact ⟨rfl, fun l h => h.elim⟩
      · refine ⟨rfl, fun l h => ?_⟩
        have h : PropDecl.key decl k p = l := h
        subst h
        exact ⟨h5, .rd, Or.inl h4, fun hw => hw.elim⟩
    · simp at he
      subst he
      refine ⟨rfl, fun l h => ?_⟩
      have h : PropDecl.key decl k p = l := h
      subst h
      exact ⟨h5, .wr, Or.inl h4, fun hw => rfl⟩
    · simp at he
      rcases he with rfl | rfl
      · refine ⟨rfl, fun l h => ?_⟩
        have h : PropDecl.key decl k p = l := h
        subst h
        exact ⟨h5, .wr, Or.inl h4, fun hw => rfl⟩
      · refine ⟨rfl, fun l h => ?_⟩
        have h : PropDecl.key decl k p = l := h
        subst h
        exact ⟨h5, .wr, Or.inl h4, fun hw => rfl⟩
  | @take k p m v sc h1 h2 h3 h4 h5 =>
    simp at he
    rcases he with rfl | rfl
    · exact ⟨rfl, fun l h => h.elim⟩
    · refine ⟨rfl, fun l h => ?_⟩
      have h : PropDecl.key decl k p = l := h
      subst h
      exact ⟨h5, m, Or.inl h4, fun hw => hw.2⟩
  | @look k p m v sc h1 h2 h3 =>
    simp at he
    subst he
    refine ⟨rfl, fun l h => ?_⟩
    have h : PropDecl.key decl k p = l := h
    subst h
    exact ⟨hgood _ h2, m, Or.inr ⟨_, h2, rfl, rfl⟩, fun hw => hw.elim⟩
  | @store k p x sc h1 h2 =>
    simp at he
    subst he
    refine ⟨rfl, fun l h => ?_⟩
    have h : PropDecl.key decl k p = l := h
    subst h
    exact ⟨hgood _ h2, .wr, Or.inr ⟨_, h2, rfl, rfl⟩, fun hw => rfl⟩
  | leave h1 =>
    simp at he
    subst he
    exact ⟨rfl, fun l h => h.elim⟩

/-- The guards of the thread afterwards. -/
theorem PlDid.guards (h : PlDid s i t evs bad) : (∀ g ∈ t.held, g ∈ (s.th i).held ∨ (.took i g ∈ evs ∧ s.free (g.key decl) g.2.2 ∧
      opsOf evs = [.get g.1 g.2.1] ∧ s.bad (g.key decl) = false ∧ t.held = g :: (s.th i).held ∧ ∃ v, (s.w.get decl g.1 g.2.1).1 = .ok v)) ∧
    (∀ g ∈ (s.th i).held, .left i g ∉ evs → g ∈ t.held) ∧ (∀ g, .took i g ∈ evs → evs = [.found i g.1 g.2.1, .took i g] ∧ g ∈ t.held) := by
  cases h with
  | die h1 h2 =>
    refine ⟨fun g hg => Or.inl hg, fun g hg _ => hg, ?_⟩
    intro g hg
    rcases h2 with rfl | ⟨k, p, rfl⟩ <;> simp at hg
  | @use k p m v evs sc h1 h2 h3 h4 h5 h6 =>
    refine ⟨fun g hg => Or.inl hg, fun g hg _ => hg, ?_⟩
    intro g hg
    rcases h6 with ⟨rfl, rfl⟩ | ⟨x, rfl, rfl⟩ | ⟨x, rfl, rfl⟩ <;> simp at hg
  | @take k p m v sc h1 h2 h3 h4 h5 =>
    refine ⟨?_, fun g hg _ => List.mem_cons_of_mem _ hg, ?_⟩
    · intro g hg
      rcases List.mem_cons.1 hg with rfl | hg
      · exact Or.inr ⟨by simp, h4, rfl, h5, rfl, v, h3⟩
      · exact Or.inl hg
    · intro g hg
      simp at hg
      subst hg
      exact ⟨rfl, by simp⟩
  | look h1 h2 h3 => exact ⟨fun g hg => Or.inl hg, fun g hg _ => hg, fun g hg => by simp at hg⟩
  | store h1 h2 => exact ⟨fun g hg => Or.inl hg, fun g hg _ => hg, fun g hg => by simp at hg⟩
  | @leave g sc h1 =>
    refine ⟨fun g' hg => Or.inl (List.mem_of_mem_erase hg), ?_, fun g hg => by simp at hg⟩
    intro g' hg hn
    refine (List.mem_erase_of_ne ?_).2 hg
    rintro rfl
    exact hn (by simp)

/-- Two guards of a thread on one lock are read guards. -/
theorem own_two {h : List (PGuard P)} (hp : h.Pairwise (fun g g' => g.key decl = g'.key decl → g.2.2 = .rd ∧ g'.2.2 = .rd)) {g g' : PGuard P}
    (hg : g ∈ h) (hg' : g' ∈ h.erase g) (hk : g.key decl = g'.key decl) : g.2.2 = .rd ∧ g'.2.2 = .rd := by
  have h1 : h.Perm (g :: h.erase g) := List.perm_cons_erase hg
  have := (h1.pairwise_iff (R := fun g g' : PGuard P => g.key decl = g'.key decl → g.2.2 = .rd ∧ g'.2.2 = .rd) (fun {a b} h e => (h e.symm).symm)).1 hp
  exact (List.pairwise_cons.1 this).1 g' hg' hk

/-- While a thread has a guard, steps respect it. -/
theorem held_guarding (hv : PlInv ops0 s) (did : PlDid s i t evs bad) {j : ι} {g : PGuard P} (c1 : g ∈ (s.th j).held) : Guarding j g evs := by
  intro e he
  obtain ⟨d1, d2⟩ := did.uses hv.clean he
  refine ⟨?_, ?_⟩
  · intro hm
    refine ⟨?_, ?_⟩
    · intro hu
      obtain ⟨-, m, d3, -⟩ := d2 _ hu
      by_contra hne
      rw [d1] at hne
      rcases d3 with d3 | ⟨g', d3, d4, d5⟩
      · cases m with
        | rd => have := d3 j g c1 rfl; rw [hm] at this; cases this
        | wr => exact d3 j g c1 rfl
      · have := hv.apart i j hne g' d3 g c1 d4
        rw [hm] at this
        cases this.2
    · intro j' g' hg hk
      subst hg
      have hj : j' = i := d1
      subst hj
      obtain ⟨-, -, h3⟩ := did.guards
      obtain ⟨h4, h5⟩ := h3 g' he
      have hfree : s.free (g'.key decl) g'.2.2 := by
        cases did with
        | die h1 h2 => rcases h2 with rfl | ⟨k, p, rfl⟩ <;> simp at he
        | use h1 h2 h3 h4 h5 h6 => rcases h6 with ⟨rfl, rfl⟩ | ⟨x, rfl, rfl⟩ | ⟨x, rfl, rfl⟩ <;> simp at he
        | look h1 h2 h3 => simp at he
        | store h1 h2 => simp at he
        | leave h1 => simp at he
        | take a1 a2 a3 a4 a5 =>
          simp at he
          subst he
          exact a4
      cases hm' : g'.2.2 with
      | rd => rw [hm'] at hfree; have := hfree j g c1 hk.symm; rw [hm] at this; cases this
      | wr => rw [hm'] at hfree; exact hfree j g c1 hk.symm
  · intro hm hw
    have hu : e.uses (g.key decl) := by
      cases e <;> first | exact hw.elim | exact hw | exact hw.1
    obtain ⟨-, m, d3, d4⟩ := d2 _ hu
    have d4 := d4 hw
    subst d4
    rcases d3 with d3 | ⟨g', d3, d4, d5⟩
    · exact d3 j g c1 rfl
    · by_cases hj : j = i
      · subst hj
        have hne : g' ≠ g := by rintro rfl; rw [hm] at d5; cases d5
        have := own_two (hv.own j) d3 ((List.mem_erase_of_ne (Ne.symm hne)).2 c1) d4
        rw [d5] at this
        cases this.1
      · have := hv.apart i j (Ne.symm hj) g' d3 g c1 d4
        rw [d5] at this
        cases this.1

theorem PlInv.step (hv : PlInv ops0 s) (hs : PlStep s i s') : PlInv ops0 s' := by
  obtain ⟨t, evs, bad, did, hth, hw, hlog, hbad⟩ := step_did hs
  have hkind := did.kind hv.settled
  have huse := fun e (he : e ∈ evs) => did.uses hv.clean he
  obtain ⟨hg1, hg2, hg3⟩ := did.guards
  have hwi : WInv decl s.w := by rw [hv.w]; exact after_inv _
  have hti : s'.th i = t := by rw [hth, Function.update_self]
  have hto : ∀ j, j ≠ i → s'.th j = s.th j := fun j hj => by rw [hth, Function.update_of_ne hj]
  have hw' : s'.w = World.after decl (ops0 ++ opsOf s'.log) := by
    rw [hw, hv.w, hlog, opsOf_append, ← List.append_assoc]
    simp only [World.after, run_append]
  have hset : ∀ k p, Settled decl s.w k p → Settled decl s'.w k p := by
    intro k p h
    obtain ⟨h1, v, h2⟩ := h
    rw [hw]
    rcases hkind with ⟨a, -⟩ | ⟨k', q, a, -⟩ | ⟨k', q, x, a, ⟨old, b⟩, -⟩
    · rw [a]; exact ⟨h1, v, h2⟩
    · rw [a]
      obtain ⟨c1, c2⟩ := get_keeps (k' := k') (q := q) hwi h1 h2
      exact ⟨c1, v, c2⟩
    · rw [a]
      rw [hv.w] at h1 h2 b ⊢
      exact ⟨idx_keeps (after_inv _) h1 (set_grows x), set_keeps b h2⟩
  have hheld : ∀ j, ∀ g ∈ (s'.th j).held, g ∈ (s.th j).held ∨ (j = i ∧ .took i g ∈ evs ∧ s.free (g.key decl) g.2.2 ∧
      opsOf evs = [.get g.1 g.2.1] ∧ s.bad (g.key decl) = false ∧ t.held = g :: (s.th i).held ∧ ∃ v, (s.w.get decl g.1 g.2.1).1 = .ok v) := by
    intro j g hg
    by_cases hj : j = i
    · subst hj
      rw [hti] at hg
      rcases hg1 g hg with h | h
      · exact Or.inl h
      · exact Or.inr ⟨rfl, h⟩
    · rw [hto j hj] at hg; exact Or.inl hg
  have hapart : ∀ j j', j ≠ j' → ∀ g ∈ (s'.th j).held, ∀ g' ∈ (s'.th j').held, g.key decl = g'.key decl → g.2.2 = .rd ∧ g'.2.2 = .rd := by
    intro j j' hne g hg g' hg' hk
    have key : ∀ (a b : PGuard P) (j : ι), b ∈ (s.th j).held → a.key decl = b.key decl → s.free (a.key decl) a.2.2 → a.2.2 = .rd ∧ b.2.2 = .rd := by
      intro a b j hb hk hf
      cases hm : a.2.2 with
      | rd => rw [hm] at hf; exact ⟨rfl, hf j b hb hk.symm⟩
      | wr => rw [hm] at hf; exact absurd hk.symm (hf j b hb)
    rcases hheld j g hg with h | ⟨h, h1, h2, -⟩
    · rcases hheld j' g' hg' with h' | ⟨h', h1', h2', -⟩
      · exact hv.apart j j' hne g h g' h' hk
      · exact (key g' g j h hk.symm h2').symm
    · rcases hheld j' g' hg' with h' | ⟨h', h1', h2', -⟩
      · exact key g g' j' h' hk h2
      · exact absurd (h.trans h'.symm) hne
  refine ⟨hw', ?_, hapart, ?_, ?_, ?_, ?_, ?_, ?_, ?_, ?_⟩
  · intro j g hg
    rcases hheld j g hg with h | ⟨-, -, -, h4, -, -, v, h5⟩
    · exact hset _ _ (hv.settled j g h)
    · rw [hw, h4]
      obtain ⟨c1, c2⟩ := get_settles hwi h5
      exact ⟨c1, v, c2⟩
  · intro j
    by_cases hj : j = i
    · subst hj
      rw [hti]
      cases did with
      | die h1 h2 => exact hv.own j
      | use h1 h2 h3 h4 h5 h6 => exact hv.own j
      | look h1 h2 h3 => exact hv.own j
      | store h1 h2 => exact hv.own j
      | leave h1 => exact (hv.own j).sublist List.erase_sublist
      | @take k p m v sc h1 h2 h3 h4 h5 =>
        refine List.pairwise_cons.2 ⟨?_, hv.own j⟩
        intro g hg hk
        cases m with
        | rd => exact ⟨rfl, h4 j g hg hk.symm⟩
        | wr => exact absurd hk.symm (h4 j g hg)
    · rw [hto j hj]; exact hv.own j
  · -- bad
    have hspo : ∀ l, Spoiled s'.log l ↔ Spoiled s.log l ∨ ∃ g, .left i g ∈ evs ∧ .died i ∈ s.log ∧ g.2.2 = .wr ∧ g.key decl = l := by
      intro l
      rw [hlog]
      constructor
      · rintro ⟨pre, j, g, post, h1, h2, h3, h4⟩
        rcases pl_split h1 with ⟨post', a, b⟩ | ⟨pre', a, b⟩
        · exact Or.inl ⟨pre, j, g, post', a, h2, h3, h4⟩
        · right
          have hm : .left j g ∈ evs := by rw [b]; simp
          have hj := (huse _ hm).1
          have hj : j = i := hj
          subst hj
          refine ⟨g, hm, ?_, h3, h4⟩
          rw [a] at h2
          rcases List.mem_append.1 h2 with h2 | h2
          · exact h2
          · exfalso
            have : (.died j : PlEv ι decl) ∈ evs := by rw [b]; exact List.mem_append_left _ h2
            cases did with
            | die h1 h2 => rcases h2 with rfl | ⟨k, p, rfl⟩ <;> simp at hm
            | use h1 h2 h3 h4 h5 h6 => rcases h6 with ⟨rfl, rfl⟩ | ⟨x, rfl, rfl⟩ | ⟨x, rfl, rfl⟩ <;> simp at hm
            | look h1 h2 h3 => simp at hm
            | store h1 h2 => simp at hm
            | leave h1 => simp at this
            | take => simp at hm
      · rintro (⟨pre, j, g, post, h1, h2, h3, h4⟩ | ⟨g, h1, h2, h3, h4⟩)
        · exact ⟨pre, j, g, post ++ evs, by rw [h1]; simp, h2, h3, h4⟩
        · obtain ⟨a, b, hab⟩ := List.append_of_mem h1
          exact ⟨s.log ++ a, i, g, b, by rw [hab]; simp, List.mem_append_left _ h2, h3, h4⟩
    intro l
    rw [hspo, hbad]
    cases did with
    | die h1 h2 =>
      rw [hv.bad l]
      rcases h2 with rfl | ⟨k, p, rfl⟩ <;> simp
    | use h1 h2 h3 h4 h5 h6 =>
      rw [hv.bad l]
      rcases h6 with ⟨rfl, rfl⟩ | ⟨x, rfl, rfl⟩ | ⟨x, rfl, rfl⟩ <;> simp
    | look h1 h2 h3 => rw [hv.bad l]; simp
    | store h1 h2 => rw [hv.bad l]; simp
    | take => rw [hv.bad l]; simp
    | @leave g sc h1 =>
      rw [← hv.bad l, hv.died i]
      by_cases hc : (s.th i).falling = true ∧ g.2.2 = .wr
      · rw [if_pos hc]
        by_cases hl : l = g.key decl
        · subst hl
          rw [Function.update_self]
          simp only [true_iff]
          exact Or.inr ⟨g, by simp, hc.1, hc.2, rfl⟩
        · rw [Function.update_of_ne hl]
          constructor
          · exact Or.inl
          · rintro (h | ⟨g', h1, h2, h3, h4⟩)
            · exact h
            · simp at h1; subst h1; exact absurd h4.symm hl
      · rw [if_neg hc]
        constructor
        · exact Or.inl
        · rintro (h | ⟨g', h1, h2, h3, h4⟩)
          · exact h
          · simp at h1; subst h1; exact absurd ⟨h2, h3⟩ hc
  · -- died
    intro j
    rw [hlog, List.mem_append]
    by_cases hj : j = i
    · subst hj
      rw [hti, hv.died j]
      cases did with
      | die h1 h2 => rcases h2 with rfl | ⟨k, p, rfl⟩ <;> simp
      | use h1 h2 h3 h4 h5 h6 => rcases h6 with ⟨rfl, rfl⟩ | ⟨x, rfl, rfl⟩ | ⟨x, rfl, rfl⟩ <;> simp [h1]
      | look h1 h2 h3 => simp [h1]
      | store h1 h2 => simp [h1]
      | take h1 h2 h3 h4 h5 => simp [h1]
      | leave h1 => simp
    · rw [hto j hj, ← hv.died j]
      constructor
      · rintro (h | h)
        · exact h
        · exact absurd (huse _ h).1 hj
      · exact Or.inl
  · -- clean
    intro l hb j g hg hk
    rw [hbad] at hb
    have hold : s.bad l = true → False := by
      intro hb
      rcases hheld j g hg with h | ⟨-, -, -, -, h5, -⟩
      · exact hv.clean l hb j g h hk
      · rw [hk, hb] at h5; cases h5
    cases did with
    | die h1 h2 => exact hold hb
    | use h1 h2 h3 h4 h5 h6 => exact hold hb
    | look h1 h2 h3 => exact hold hb
    | store h1 h2 => exact hold hb
    | take h1 h2 h3 h4 h5 => exact hold hb
    | @leave g' sc h1 =>
      by_cases hc : (s.th i).falling = true ∧ g'.2.2 = .wr
      · rw [if_pos hc] at hb
        by_cases hl : l = g'.key decl
        · by_cases hj : j = i
          · subst hj
            rw [hti] at hg
            simp only [] at hg
            have := own_two (hv.own j) h1 hg (hl.symm.trans hk.symm)
            rw [hc.2] at this
            cases this.1
          · rw [hto j hj] at hg
            have := hv.apart j i hj g hg g' h1 (hk.trans hl)
            rw [hc.2] at this
            cases this.2
        · rw [Function.update_of_ne hl] at hb
          exact hold hb
      · rw [if_neg hc] at hb
        exact hold hb
  · -- puts
    intro k p v h
    unfold SaysPut
    rw [hlog]
    rcases hkind with ⟨a, b⟩ | ⟨k', q, a, b⟩ | ⟨k', q, x, a, ⟨old, ho⟩, b⟩
    · rw [lastPut_append, b, Option.none_or]
      rw [hw, a] at h
      exact hv.puts k p v h
    · rw [lastPut_append, b, Option.none_or]
      rw [hw, a] at h
      exact hv.puts k p v (get_back hwi h)
    · rw [lastPut_append, b]
      rw [hw, a] at h
      have h : (((World.after decl (ops0 ++ opsOf s.log)).set decl k' q x).2.get decl k p).1 = .ok v := by rw [← hv.w]; exact h
      rw [hv.w] at ho
      rcases set_value ho h with ⟨c1, c2⟩ | ⟨c1, c2⟩
      · rw [if_pos c1.symm, Option.some_or]
        refine ⟨?_, by intro h; cases h⟩
        intro y hy
        injection hy with hy
        rw [← hy, c2]
      · rw [if_neg (Ne.symm c1), Option.none_or]
        rw [← hv.w] at c2
        exact hv.puts k p v c2
  · -- saws
    intro pre j k p v post h
    rw [hlog] at h
    rcases pl_split h with ⟨post', a, b⟩ | ⟨pre', a, b⟩
    · exact hv.saws pre j k p v post' a
    · have hp : (s.w.get decl k p).1 = .ok v ∧ ∀ l, lastPut pre' l = none := by
        cases did with
        | die h1 h2 =>
          exfalso
          rcases h2 with rfl | ⟨k', p', rfl⟩
          · have : (.saw j k p v : PlEv ι decl) ∈ [.died i] := by rw [b]; simp
            simp at this
          · have : (.saw j k p v : PlEv ι decl) ∈ [.found i k' p', .died i] := by rw [b]; simp
            simp at this
        | @use k' p' m v' evs sc h1 h2 h3 h4 h5 h6 =>
          rcases h6 with ⟨rfl, rfl⟩ | ⟨x, rfl, rfl⟩ | ⟨x, rfl, rfl⟩
          · rcases pre' with _ | ⟨y, _ | ⟨z, pre'⟩⟩
            · simp at b
            · simp at b
              obtain ⟨rfl, ⟨rfl, rfl, rfl, h⟩, -⟩ := b
              have h := eq_of_heq h
              subst h
              exact ⟨h3, fun l => rfl⟩
            · simp at b
          · rcases pre' with _ | ⟨y, pre'⟩ <;> simp at b
          · rcases pre' with _ | ⟨y, _ | ⟨z, pre'⟩⟩
            · simp at b
              obtain ⟨⟨rfl, rfl, rfl, h⟩, -⟩ := b
              have h := eq_of_heq h
              subst h
              exact ⟨h3, fun l => rfl⟩
            · simp at b
            · simp at b
        | look h1 h2 h3 =>
          rcases pre' with _ | ⟨y, pre'⟩
          · simp at b
            obtain ⟨⟨rfl, rfl, rfl, h⟩, -⟩ := b
            have h := eq_of_heq h
            subst h
            exact ⟨h3, fun l => rfl⟩
          · simp at b
        | store h1 h2 => rcases pre' with _ | ⟨y, pre'⟩ <;> simp at b
        | take h1 h2 h3 h4 h5 =>
          rcases pre' with _ | ⟨y, _ | ⟨z, pre'⟩⟩ <;> simp at b
        | leave h1 => rcases pre' with _ | ⟨y, pre'⟩ <;> simp at b
      have := hv.puts k p v hp.1
      unfold SaysPut at this ⊢
      rw [a, lastPut_append, hp.2, Option.none_or]
      exact this
  · -- holds
    intro a j g b h hn
    rw [hlog] at h
    rcases pl_split h with ⟨b', h1, h2⟩ | ⟨pre', h1, h2⟩
    · subst h2
      rw [List.mem_append, not_or] at hn
      obtain ⟨c1, c2⟩ := hv.holds a j g b' h1 hn.1
      refine ⟨?_, ?_⟩
      · by_cases hj : j = i
        · subst hj
          rw [hti]
          exact hg2 g c1 hn.2
        · rw [hto j hj]; exact c1
      · intro e he
        rcases List.mem_append.1 he with he | he
        · exact c2 e he
        · exact held_guarding hv did c1 e he
    · have hm : .took j g ∈ evs := by rw [h2]; simp
      have hj : j = i := (huse _ hm).1
      subst hj
      obtain ⟨he, hg⟩ := hg3 g hm
      rw [he] at h2
      have hb : b = [] := by
        rcases pre' with _ | ⟨y, _ | ⟨z, pre'⟩⟩
        · simp at h2
        · simp at h2; exact h2.2
        · simp at h2
      subst hb
      exact ⟨by rw [hti]; exact hg, fun e he => by simp at he⟩
  · -- spoils
    intro pre e post l h hsp
    rw [hlog] at h
    rcases pl_split h with ⟨b', h1, h2⟩ | ⟨pre', h1, h2⟩
    · exact hv.spoils pre e b' l h1 hsp
    · intro hu
      have hm : e ∈ evs := by rw [h2]; simp
      obtain ⟨d1, d2⟩ := huse e hm
      have hg := (d2 l hu).1
      have : s.bad l = true := by
        rw [hv.bad]
        rw [h1] at hsp
        obtain ⟨a, j, g, c, e1, e2, e3, e4⟩ := hsp
        rcases pl_split e1 with ⟨c', f1, f2⟩ | ⟨a', f1, f2⟩
        · exact ⟨a, j, g, c', f1, e2, e3, e4⟩
        · exfalso
          have hl : .left j g ∈ evs := by rw [h2, f2]; simp
          cases did with
          | die h1 h2 => rcases h2 with rfl | ⟨k, p, rfl⟩ <;> simp at hl
          | use h1 h2 h3 h4 h5 h6 => rcases h6 with ⟨rfl, rfl⟩ | ⟨x, rfl, rfl⟩ | ⟨x, rfl, rfl⟩ <;> simp at hl
          | look h1 h2 h3 => simp at hl
          | store h1 h2 => simp at hl
          | leave h1 => simp at hm; subst hm; exact hu
          | take => simp at hl
      rw [this] at hg
      cases hg

end V11
