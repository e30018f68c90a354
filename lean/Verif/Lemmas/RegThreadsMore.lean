import Verif.Lemmas.RegThreadsShape

/-!
# Calls of several threads: why calls lapse, and that calls end
-/

set_option linter.unusedSimpArgs false
set_option linter.unusedSectionVars false
set_option linter.unusedVariables false

namespace V11

variable {Ty : Type} [DecidableEq Ty] {V : Ty → Type} {P : Type} [DecidableEq P] {decl : P → PropDecl V} {ι : Type} [DecidableEq ι]

/-- Why a call lapses. -/
def WhyLapsed (w0 : World P V) (pre : List (RtEv ι decl)) (i : ι) (op : ROp decl) : Prop :=
  (∃ p j, op.uses = some p ∧ j ≠ i ∧ w0.idx p = none ∧ BeingSet pre j p) ∨
  (∃ k n j a b, op = .addDomain k n ∧ j ≠ i ∧ pre = a ++ .began i op :: b ∧ (∀ e ∈ b, ¬ e.isBy i) ∧ .effect j (.registerDomain n) ∈ b ∧
    n ∉ (w0.run decl (effectsOf a)).g.did2name)

/-- Whose call an event is of. -/
def RtEv.call : RtEv ι decl → Option (ι × ROp decl)
  | .began i op => some (i, op)
  | .effect i op => some (i, op)
  | .lapse i op => some (i, op)
  | .returned i op _ => some (i, op)
  | .bound _ _ _ => none

/-- What else is true in every schedule. -/
structure RtMore (w0 : World P V) (progs : ι → List (ROp decl)) (s : RtSys ι decl) : Prop where
  store : ∀ j p, s.storing = some (j, p) → w0.idx p = none ∧ (s.th j).phase ≠ .idle ∧ (s.th j).todo ≠ [] ∧ BeingSet s.log j p
  sync : ∀ i k n, s.inCall i (.addDomain k n) → (s.th i).phase = .synced → ∃ u a b, s.w.unis[k]? = some u ∧ (w0.run decl (effectsOf a)).g.did2name.length ≤ u.length ∧
    s.log = a ++ .began i (.addDomain k n) :: b ∧ (∀ e ∈ b, ¬ e.isBy i) ∧
    ∀ (id : Nat) (m : String), s.w.g.did2name[id]? = some m → u.length ≤ id → ∃ j, j ≠ i ∧ .effect j (.registerDomain m) ∈ b
  laps : ∀ pre i op post, s.log = pre ++ .lapse i op :: post → WhyLapsed w0 pre i op
  mine : ∀ i, (s.th i).todo <:+ progs i
  ops : ∀ e ∈ s.log, ∀ i op, e.call = some (i, op) → op ∈ progs i
  fit : ∀ i op, s.inCall i op → Fitting op (s.th i).phase
  most : ∀ i, (s.th i).phase ≠ .idle → (s.th i).todo ≠ []

theorem BeingSet.later {log evs : List (RtEv ι decl)} {j : ι} {p : P} (h : BeingSet log j p) (hq : ∀ e ∈ evs, ¬ e.isBy j) : BeingSet (log ++ evs) j p := by
  obtain ⟨a, e, b, h1, h2, h3⟩ := h
  refine ⟨a, e, b ++ evs, by rw [h1]; simp, h2, ?_⟩
  intro e' he
  rcases List.mem_append.1 he with he | he
  · exact h3 e' he
  · exact hq e' he

theorem lag_names {w0 : World P V} (hw0 : WInv decl w0) {s : RtSys ι decl} (h : RtInv w0 s) : w0.g.did2name <+: s.w.g.did2name ∧
    ∀ p, (w0.idx p).isSome = true → (s.w.idx p).isSome = true := by
  obtain ⟨L, hb, -⟩ := h.lag
  obtain ⟨h1, h2⟩ := run_inv hw0 (effectsOf s.log)
  refine ⟨?_, ?_⟩
  · have : s.w.g.did2name = (w0.run decl (effectsOf s.log)).g.did2name := by rw [hb.g]; rfl
    rw [this]
    exact h2.ext.names
  · intro p hp
    obtain ⟨i, hi⟩ := Option.isSome_iff_exists.1 hp
    rw [hb.idx, h2.idx p i hi]
    rfl

/-- What was registered then still is. -/
theorem names_since {w0 : World P V} (hw0 : WInv decl w0) {s : RtSys ι decl} (h : RtInv w0 s) {a b : List (RtEv ι decl)} (he : s.log = a ++ b) :
    (w0.run decl (effectsOf a)).g.did2name <+: s.w.g.did2name := by
  obtain ⟨L, hb, -⟩ := h.lag
  have : s.w.g.did2name = (w0.run decl (effectsOf s.log)).g.did2name := by rw [hb.g]; rfl
  rw [this, he, effectsOf_append, run_append]
  exact (run_inv (run_inv hw0 (effectsOf a)).1 (effectsOf b)).2.ext.names

theorem snoc_split {α : Type} {l pre post : List α} {x y : α} (h : l ++ [y] = pre ++ x :: post) : (pre = l ∧ x = y ∧ post = []) ∨ ∃ post', l = pre ++ x :: post' ∧ post = post' ++ [y] := by
  rcases List.eq_nil_or_concat post with rfl | ⟨p, z, rfl⟩
  · have := List.append_inj' h rfl
    refine Or.inl ⟨this.1.symm, ?_, rfl⟩
    have h2 := this.2
    injection h2 with h2
    exact h2.symm
  · right
    have h' : l ++ [y] = (pre ++ x :: p) ++ [z] := by rw [h]; simp
    have := List.append_inj' h' rfl
    refine ⟨p, this.1, ?_⟩
    have h2 := this.2
    injection h2 with h2
    rw [h2]
    simp

section
variable {w0 : World P V} {progs : ι → List (ROp decl)} {s s' : RtSys ι decl} {i : ι} {op : ROp decl} {rest : List (ROp decl)} {see : Seen}

/-- The part of `synced` that others keep. -/
theorem sync_keep (h : RtMore w0 progs s) {evs : List (RtEv ι decl)} (hlog : s'.log = s.log ++ evs) {j : ι} {k : Nat} {n : String}
    (hj : s.inCall j (.addDomain k n)) (hph : (s.th j).phase = .synced) (hk : s'.w.unis[k]? = s.w.unis[k]?) (hq : ∀ e ∈ evs, ¬ e.isBy j)
    (hnm : s'.w.g.did2name = s.w.g.did2name ∨ ∃ i m, i ≠ j ∧ evs = [.effect i (.registerDomain m)] ∧ s'.w.g.did2name = s.w.g.did2name ++ [m]) :
    ∃ u a b, s'.w.unis[k]? = some u ∧ (w0.run decl (effectsOf a)).g.did2name.length ≤ u.length ∧ s'.log = a ++ .began j (.addDomain k n) :: b ∧ (∀ e ∈ b, ¬ e.isBy j) ∧
    ∀ (id : Nat) (m : String), s'.w.g.did2name[id]? = some m → u.length ≤ id → ∃ j', j' ≠ j ∧ .effect j' (.registerDomain m) ∈ b := by
  obtain ⟨u, a, b, h1, h2, h3, h4, h5⟩ := h.sync j k n hj hph
  refine ⟨u, a, b ++ evs, by rw [hk]; exact h1, h2, by rw [hlog, h3]; simp, ?_, ?_⟩
  · intro e he
    rcases List.mem_append.1 he with he | he
    · exact h4 e he
    · exact hq e he
  · intro id m hm hle
    rcases hnm with hnm | ⟨i, m', hi, he, hnm⟩
    · rw [hnm] at hm
      obtain ⟨j', a1, a2⟩ := h5 id m hm hle
      exact ⟨j', a1, by simp [a2]⟩
    · rw [hnm] at hm
      by_cases hlt : id < s.w.g.did2name.length
      · rw [List.getElem?_append_left hlt] at hm
        obtain ⟨j', a1, a2⟩ := h5 id m hm hle
        exact ⟨j', a1, by simp [a2]⟩
      · rw [List.getElem?_append_right (by omega)] at hm
        have hm' : m = m' := by
          rcases hx : id - s.w.g.did2name.length with _ | x
          · rw [hx] at hm; simpa using hm.symm
          · rw [hx] at hm; simp at hm
        subst hm'
        exact ⟨i, hi, by simp [he]⟩

theorem RtMore.act (hw0 : WInv decl w0) (hinv : RtInv w0 s) (hinv' : RtInv w0 s') (h : RtMore w0 progs s) (ha : s.act i see = some s') :
    RtMore w0 progs s' := by
  obtain ⟨op, rest, ht, ⟨hst, rfl⟩ | ⟨hst, ⟨hidle, rfl⟩ | ⟨out, hdone, rfl⟩ | ⟨hni, hnd, hc⟩⟩⟩ := act_cases ha
  · exact ⟨by simp, h.sync, h.laps, h.mine, h.ops, h.fit, h.most⟩
  · have hop : op ∈ progs i := (h.mine i).subset (by rw [ht]; simp)
    have hq : ∀ j, j ≠ i → ∀ e ∈ ([.began i op] : List (RtEv ι decl)), ¬ e.isBy j := by
      intro j hj e he
      rw [List.mem_singleton] at he
      subst he
      exact fun e => hj e.symm
    refine ⟨?_, ?_, ?_, ?_, ?_, ?_, ?_⟩
    · intro j p hs
      obtain ⟨a1, a2, a3, a4⟩ := h.store j p hs
      have hj : j ≠ i := by rintro rfl; exact a2 hidle
      rw [goto_other _ hj]
      exact ⟨a1, a2, a3, a4.later (hq j hj)⟩
    · intro j k n hj hp
      by_cases hji : j = i
      · subst hji; rw [goto_same] at hp; cases hp
      · have hj' : s.inCall j (.addDomain k n) := by unfold RtSys.inCall at hj ⊢; rw [goto_other _ hji] at hj; exact hj
        rw [goto_other _ hji] at hp
        exact sync_keep (s' := (s.note (.began i op)).goto i .begun) h rfl hj' hp rfl (hq j hji) (Or.inl rfl)
    · intro pre j op' post he
      rcases snoc_split (he : s.log ++ [.began i op] = _) with ⟨-, h2, -⟩ | ⟨post', h1, -⟩
      · cases h2
      · exact h.laps pre j op' post' h1
    · intro j; rw [goto_todo]; exact h.mine j
    · intro e he j op' hc
      have he : e ∈ s.log ++ [.began i op] := he
      rcases List.mem_append.1 he with he | he
      · exact h.ops e he j op' hc
      · rw [List.mem_singleton] at he
        subst he
        injection hc with hc
        injection hc with c1 c2
        subst c1; subst c2
        exact hop
    · intro j op' hj
      by_cases hji : j = i
      · subst hji; rw [goto_same]; exact trivial
      · unfold RtSys.inCall at hj
        rw [goto_other _ hji] at hj ⊢
        exact h.fit j op' hj
    · intro j hp
      by_cases hji : j = i
      · subst hji; rw [goto_todo]; show (s.th j).todo ≠ []; rw [ht]; simp
      · rw [goto_other _ hji] at hp ⊢
        exact h.most j hp
  · have hop : op ∈ progs i := (h.mine i).subset (by rw [ht]; simp)
    have hq : ∀ j, j ≠ i → ∀ e ∈ ([.returned i op out] : List (RtEv ι decl)), ¬ e.isBy j := by
      intro j hj e he
      rw [List.mem_singleton] at he
      subst he
      exact fun e => hj e.symm
    have hth : ∀ j, j ≠ i → (Function.update s.th i { todo := rest, phase := .idle }) j = s.th j := fun j hj => by simp [hj]
    refine ⟨?_, ?_, ?_, ?_, ?_, ?_, ?_⟩
    · intro j p hs
      obtain ⟨a1, a2, a3, a4⟩ := h.store j p hs
      have hj : j ≠ i := by
        rintro rfl
        have hs : s.storing = some (j, p) := hs
        rw [hs] at hst
        simp at hst
      show w0.idx p = none ∧ ((Function.update s.th i { todo := rest, phase := .idle }) j).phase ≠ .idle ∧ ((Function.update s.th i { todo := rest, phase := .idle }) j).todo ≠ [] ∧ _
      rw [hth j hj]
      exact ⟨a1, a2, a3, a4.later (hq j hj)⟩
    · intro j k n hj hp
      by_cases hji : j = i
      · subst hji; simp at hp
      · have hj' : s.inCall j (.addDomain k n) := by
          unfold RtSys.inCall at hj ⊢
          simp only [hth j hji] at hj
          exact hj
        simp only [hth j hji] at hp
        exact sync_keep (s' := { (s.note (.returned i op out)) with th := Function.update s.th i { todo := rest, phase := .idle } }) h rfl hj' hp rfl (hq j hji) (Or.inl rfl)
    · intro pre j op' post he
      rcases snoc_split (he : s.log ++ [.returned i op out] = _) with ⟨-, h2, -⟩ | ⟨post', h1, -⟩
      · cases h2
      · exact h.laps pre j op' post' h1
    · intro j
      by_cases hji : j = i
      · subst hji
        simp only [Function.update_self]
        have := h.mine j
        rw [ht] at this
        exact (List.suffix_cons op rest).trans this
      · show ((Function.update s.th i { todo := rest, phase := .idle }) j).todo <:+ _
        rw [hth j hji]; exact h.mine j
    · intro e he j op' hc
      have he : e ∈ s.log ++ [.returned i op out] := he
      rcases List.mem_append.1 he with he | he
      · exact h.ops e he j op' hc
      · rw [List.mem_singleton] at he
        subst he
        injection hc with hc
        injection hc with c1 c2
        subst c1; subst c2
        exact hop
    · intro j op' hj
      by_cases hji : j = i
      · subst hji; simp only [Function.update_self]; exact trivial
      · unfold RtSys.inCall at hj
        simp only [hth j hji] at hj ⊢
        exact h.fit j op' hj
    · intro j hp
      by_cases hji : j = i
      · subst hji; simp at hp
      · simp only [hth j hji] at hp ⊢
        exact h.most j hp
  · have hop : op ∈ progs i := (h.mine i).subset (by rw [ht]; simp)
    have hhead : (s.th i).todo.head? = some op := by rw [ht]; rfl
    have hi : s.inCall i op := ⟨hni, hhead⟩
    obtain ⟨hnm0, hix0⟩ := lag_names hw0 hinv
    obtain ⟨hnm1, hix1⟩ := lag_names hw0 hinv'
    obtain ⟨ph', evs, sh⟩ := call_shape hnd hc
    have hth : ∀ j, j ≠ i → s'.th j = s.th j := fun j hj => by rw [sh.th]; simp [hj]
    have hphi : (s'.th i).phase = ph' := by rw [sh.th]; simp
    have htodo : (s'.th i).todo = (s.th i).todo := by rw [sh.th]; simp
    have hq : ∀ j, j ≠ i → ∀ e ∈ evs, ¬ e.isBy j := by
      intro j hj e he
      rcases sh.what with hw | hw | hw | ⟨k, p, -, -, hw⟩
      · rw [hw] at he; cases he
      all_goals
        rw [hw, List.mem_singleton] at he
        subst he
        first | exact fun e => hj e.symm | exact id
    have hni' : ph' ≠ .idle := by
      rintro rfl
      have hn := sh.near
      cases e : (s.th i).phase with
      | idle => exact hni e
      | begun => rw [e] at hn; simp [RtPhase.left, Nearer] at hn
      | syncing => rw [e] at hn; simp [RtPhase.left, Nearer] at hn
      | resolved => rw [e] at hn; simp [RtPhase.left, Nearer] at hn
      | synced => rw [e] at hn; simp [RtPhase.left, Nearer] at hn
      | located d => rw [e] at hn; simp [RtPhase.left, Nearer] at hn
      | building u t => rw [e] at hn; simp [RtPhase.left, Nearer] at hn
      | done o => exact hnd o e
    have hk : ∀ j k n, j ≠ i → s.inCall j (.addDomain k n) → s'.w.unis[k]? = s.w.unis[k]? := by
      intro j k n hji hj
      obtain ⟨L, hb, hl⟩ := hinv.lag
      obtain ⟨L', hb', -⟩ := hinv'.lag
      have hw := (run_inv hw0 (effectsOf s.log)).1
      have wt := call_went hb hinv.inv hw (lag_known hinv hb hl) (fun k hk => hinv.on i op k hi hk) (hinv.ph i op hi) hc hb'.vp
      have hlt := hinv.on j _ k hj rfl
      have hon : op.on ≠ some k := by
        intro e
        have := (hinv.borrow j i _ op k hji hj hi rfl e).1
        cases this
      cases wt with
      | on v' ph' L' hm => exact hm.other k hlt hon
      | bound v' st k' p h1 h2 hm => exact hm.other k hlt hon
      | settled v' st out L' hm => exact hm.other k hlt hon
      | lapsed e h1 => rfl
    refine ⟨?_, ?_, ?_, ?_, ?_, ?_, ?_⟩
    · intro j p hs
      rcases sh.storing with h1 | ⟨-, h1⟩ | ⟨h0, p', h1, h2, h3⟩
      · rw [h1] at hs
        obtain ⟨a1, a2, a3, a4⟩ := h.store j p hs
        have hj : j ≠ i := by
          rintro rfl
          rw [hs] at hst
          simp at hst
        rw [hth j hj, sh.log]
        exact ⟨a1, a2, a3, a4.later (hq j hj)⟩
      · rw [h1] at hs; cases hs
      · rw [h1] at hs
        injection hs with hs
        injection hs with hs1 hs2
        subst hs1; subst hs2
        refine ⟨?_, by rw [hphi]; exact hni', by rw [htodo, ht]; simp, ?_⟩
        · cases e : w0.idx p' with
          | none => rfl
          | some x =>
            have := hix0 p' (by rw [e]; rfl)
            rw [h2] at this
            cases this
        · rw [sh.log]
          rcases h3 with h3 | ⟨k, -, h3⟩
          · exact ⟨s.log, _, [], by rw [h3], Or.inl rfl, by simp⟩
          · exact ⟨s.log, _, [], by rw [h3], Or.inr ⟨k, rfl⟩, by simp⟩
    · intro j k n hj hp
      by_cases hji : j = i
      · subst hji
        rw [hphi] at hp
        have hopp : op = .addDomain k n := by
          have := hj.2
          rw [htodo, hhead] at this
          injection this
        obtain ⟨he, u, hu, hlen⟩ := sh.sync k n hopp hp
        obtain ⟨a, b, hb1, hb2⟩ := (hinv.log j op hi).began hnd
        refine ⟨u, a, b, hu, by rw [hlen]; exact (names_since hw0 hinv' (show s'.log = a ++ _ by rw [sh.log, he, List.append_nil]; exact hb1)).length_le, by rw [sh.log, he, List.append_nil, hb1, hopp], hb2, ?_⟩
        intro id m hm hle
        have := get_lt hm
        omega
      · have hj' : s.inCall j (.addDomain k n) := by unfold RtSys.inCall at hj ⊢; rw [hth j hji] at hj; exact hj
        rw [hth j hji] at hp
        refine sync_keep h sh.log hj' hp (hk j k n hji hj') (hq j hji) ?_
        rcases sh.names with h1 | ⟨m, h1, h2, h3⟩
        · exact Or.inl h1
        · subst h1
          exact Or.inr ⟨i, m, fun e => hji e.symm, h2, h3⟩
    · intro pre j op' post he
      rw [sh.log] at he
      rcases sh.what with hw | hw | hw | ⟨k, p, -, -, hw⟩
      · rw [hw, List.append_nil] at he
        exact h.laps pre j op' post he
      · rw [hw] at he
        rcases snoc_split he with ⟨-, h2, -⟩ | ⟨post', h1, -⟩
        · cases h2
        · exact h.laps pre j op' post' h1
      · rw [hw] at he
        rcases snoc_split he with ⟨h1, h2, -⟩ | ⟨post', h1, -⟩
        · injection h2 with h2 h3
          subst h1; subst h2; subst h3
          rcases sh.lapse hw with ⟨p, q, b1, b2⟩ | ⟨k, n, u, did, b1, b2, b3, b4, b5⟩
          · obtain ⟨a1, a2, a3, a4⟩ := h.store q p b2
            refine Or.inl ⟨p, q, b1, ?_, a1, a4⟩
            rintro rfl
            rw [b2] at hst
            simp at hst
          · subst b1
            obtain ⟨u', a, b, c1, c2, c3, c4, c5⟩ := h.sync j k n hi b2
            rw [b4] at c1
            injection c1 with c1
            subst c1
            have hul : u.length ≤ did := by
              by_contra hc
              rw [List.getElem?_eq_getElem (by omega)] at b5
              cases b5
            cases el : s.w.g.domains.lookup n with
            | none =>
              unfold World.getId at b3
              rw [el] at b3
              split at b3 <;> cases b3
            | some info =>
              have hid : info.id = did := by
                unfold World.getId at b3
                rw [el] at b3
                split at b3
                · cases b3
                · injection b3
              have hnm := hinv.inv.g.ids n info el
              rw [hid] at hnm
              obtain ⟨j', d1, d2⟩ := c5 did n hnm hul
              have hnm0 := names_since hw0 hinv c3
              refine Or.inr ⟨k, n, j', a, b, rfl, d1, c3, c4, d2, ?_⟩
              intro hmem
              obtain ⟨q, hq1, hq2⟩ := List.mem_iff_getElem.1 hmem
              have hq3 := prefix_get hnm0 (by rw [List.getElem?_eq_getElem hq1, hq2] : (w0.run decl (effectsOf a)).g.did2name[q]? = some n)
              have hq4 : q = did := by
                have l1 := get_lt hq3
                have l2 := get_lt hnm
                have e1 : s.w.g.did2name[q] = n := by rw [List.getElem?_eq_getElem l1] at hq3; injection hq3
                have e2 : s.w.g.did2name[did] = n := by rw [List.getElem?_eq_getElem l2] at hnm; injection hnm
                exact (List.Nodup.getElem_inj_iff hinv.inv.g.nodup).1 (e1.trans e2.symm)
              omega
        · exact h.laps pre j op' post' h1
      · rw [hw] at he
        rcases snoc_split he with ⟨-, h2, -⟩ | ⟨post', h1, -⟩
        · cases h2
        · exact h.laps pre j op' post' h1
    · intro j
      by_cases hji : j = i
      · subst hji; rw [htodo]; exact h.mine j
      · rw [hth j hji]; exact h.mine j
    · intro e he j op' hc
      rw [sh.log] at he
      rcases List.mem_append.1 he with he | he
      · exact h.ops e he j op' hc
      · rcases sh.what with hw | hw | hw | ⟨k, p, -, -, hw⟩
        · rw [hw] at he; cases he
        all_goals
          rw [hw, List.mem_singleton] at he
          subst he
        · injection hc with hc
          injection hc with c1 c2
          subst c1; subst c2
          exact hop
        · injection hc with hc
          injection hc with c1 c2
          subst c1; subst c2
          exact hop
        · cases hc
    · intro j op' hj
      by_cases hji : j = i
      · subst hji
        have : op' = op := by
          have := hj.2
          rw [htodo, hhead] at this
          injection this with this
          exact this.symm
        subst this
        rw [hphi]; exact sh.fit
      · unfold RtSys.inCall at hj
        rw [hth j hji] at hj ⊢
        exact h.fit j op' hj
    · intro j hp
      by_cases hji : j = i
      · subst hji; rw [htodo, ht]; simp
      · rw [hth j hji] at hp ⊢
        exact h.most j hp

theorem start_more (progs : ι → List (ROp decl)) : RtMore w0 progs (RtSys.start w0 progs) := by
  have hn : ∀ j op, ¬ (RtSys.start w0 progs).inCall j op := fun j op h => h.1 rfl
  refine ⟨by simp [RtSys.start], fun j k n h => absurd h (hn j _), ?_, fun i => List.suffix_refl _, by simp [RtSys.start], fun j op h => absurd h (hn j _), fun j h => absurd rfl h⟩
  intro pre j op post he
  cases pre <;> cases he

theorem rt_more (hw0 : WInv decl w0) (hr : RtRun (RtSys.start w0 progs) s) (hp : s.w.poisoned = false) : RtMore w0 progs s := by
  induction hr with
  | refl => exact start_more progs
  | step i see h hb ha ih => exact RtMore.act hw0 (rt_inv hw0 h (act_clean hp ha)) (rt_inv hw0 (.step i see h hb ha) hp) (ih (act_clean hp ha)) ha

end
end V11
