import Verif.Lemmas.RegThreadsStep

/-!
# Calls of several threads: what is true in every schedule
-/

set_option linter.unusedSimpArgs false
set_option linter.unusedSectionVars false
set_option linter.unusedVariables false

namespace V11

variable {Ty : Type} [DecidableEq Ty] {V : Ty → Type} {P : Type} [DecidableEq P] {decl : P → PropDecl V} {ι : Type} [DecidableEq ι]

/-! ## Poisoning stays -/

section
variable {s s' : RtSys ι decl} {i : ι} {op : ROp decl} {ph : RtPhase V} {see : Seen}

theorem useProp_stays (ho : op.atOnce = true) {k : Nat} {p : P} (hp : s.w.poisoned = true) (h : s.useProp i see op k p ph = some s') : s'.w.poisoned = true := by
  cases ph with
  | begun =>
    simp only [RtSys.useProp] at h
    cases e : s.w.idx p with
    | none => rw [e] at h; injection h with h; subst h; exact hp
    | some ix =>
      rw [e] at h
      simp only [] at h
      by_cases hst : s.storing.any (fun x => decide (x.2 = p)) = true
      · rw [if_pos hst] at h
        cases see with
        | whole => injection h with h; subst h; exact hp
        | unset => injection h with h; subst h; exact hp
        | torn =>
          simp only [] at h
          cases ed : (s.w.unis[k]?).bind (fun u => domAt u ix.domain) with
          | none => rw [ed] at h; injection h with h; subst h; exact hp
          | some d => rw [ed] at h; injection h with h; subst h; exact hp
      · rw [if_neg hst] at h; injection h with h; subst h; exact hp
  | syncing =>
    simp only [RtSys.useProp] at h
    by_cases hst : s.storing.isSome = true
    · rw [if_pos hst] at h; cases h
    · rw [if_neg hst] at h
      have := syncAlias_poison (decl := decl) (p := p) hp
      rcases e : s.w.syncAlias decl p with ⟨r, v'⟩
      rw [e] at h this
      cases r with
      | ok ix => injection h with h; subst h; exact this
      | error er => injection h with h; subst h; exact this
  | resolved =>
    simp only [RtSys.useProp] at h
    injection h with h
    subst h
    exact whole_poison ho hp
  | idle => cases h
  | synced => cases h
  | located d => cases h
  | building u t => cases h
  | done o => cases h

theorem useTable_stays {k : Nat} {dom : String} {call : List (MaybeDomain V) → Nat → R Unit × List (MaybeDomain V)} (hp : s.w.poisoned = true)
    (h : s.useTable i op k dom call ph = some s') : s'.w.poisoned = true := by
  cases ph with
  | begun =>
    simp only [RtSys.useTable] at h
    by_cases hst : s.storing.isSome = true
    · rw [if_pos hst] at h; cases h
    · rw [if_neg hst] at h
      cases e : s.w.getId dom with
      | error er => rw [e] at h; injection h with h; subst h; exact hp
      | ok did => rw [e] at h; injection h with h; subst h; exact hp
  | located did =>
    simp only [RtSys.useTable] at h
    cases e : s.w.unis[k]? with
    | none => rw [e] at h; cases h
    | some u => rw [e] at h; injection h with h; subst h; exact hp
  | idle => cases h
  | syncing => cases h
  | resolved => cases h
  | synced => cases h
  | building u t => cases h
  | done o => cases h

theorem build_stays {fin : Option Panic → List (MaybeDomain V) → R (Given V) × World P V} {u : List (MaybeDomain V)} {t : List (String ⊕ Reg)}
    (hp : s.w.poisoned = true) (hf : ∀ e u, (fin e u).2.poisoned = true) (h : s.build i op fin u t = some s') : s'.w.poisoned = true := by
  cases t with
  | nil => simp only [RtSys.build] at h; injection h with h; subst h; exact hf _ _
  | cons x t =>
    simp only [RtSys.build] at h
    by_cases hst : s.storing.isSome = true
    · rw [if_pos hst] at h; cases h
    · rw [if_neg hst] at h
      rcases e : s.w.buildOne u t x with ⟨q, u', t'⟩
      rw [e] at h
      cases q with
      | none => injection h with h; subst h; exact hp
      | some p => injection h with h; subst h; exact hf _ _

theorem useNew_stays {ns : List String} (hp : s.w.poisoned = true) (h : s.useNew i ns ph = some s') : s'.w.poisoned = true := by
  cases ph with
  | begun =>
    simp only [RtSys.useNew] at h
    by_cases hst : s.storing.isSome = true
    · rw [if_pos hst] at h; cases h
    · rw [if_neg hst, if_pos hp] at h
      injection h with h; subst h; exact hp
  | building u t =>
    simp only [RtSys.useNew] at h
    exact build_stays hp (fun e u => by cases e <;> exact hp) h
  | idle => cases h
  | syncing => cases h
  | resolved => cases h
  | synced => cases h
  | located d => cases h
  | done o => cases h

theorem useAdd_stays {k : Nat} {n : String} (hp : s.w.poisoned = true) (h : s.useAdd i k n ph = some s') : s'.w.poisoned = true := by
  cases ph with
  | begun =>
    simp only [RtSys.useAdd] at h
    by_cases hst : s.storing.isSome = true
    · rw [if_pos hst] at h; cases h
    · rw [if_neg hst] at h
      cases e : s.w.unis[k]? with
      | none => rw [e] at h; cases h
      | some u =>
        rw [e] at h
        simp only [] at h
        cases e2 : s.w.synced u with
        | error er => rw [e2] at h; injection h with h; subst h; exact hp
        | ok x => rw [e2] at h; injection h with h; subst h; exact hp
  | synced =>
    simp only [RtSys.useAdd] at h
    by_cases hst : s.storing.isSome = true
    · rw [if_pos hst] at h; cases h
    · rw [if_neg hst] at h
      cases e : s.w.unis[k]? with
      | none => rw [e] at h; cases h
      | some u =>
        rw [e] at h
        simp only [] at h
        cases e2 : s.w.getId n with
        | error er => rw [e2] at h; injection h with h; subst h; exact hp
        | ok did =>
          rw [e2] at h
          simp only [] at h
          cases e3 : u[did]? with
          | none => rw [e3] at h; injection h with h; subst h; exact hp
          | some m =>
            rw [e3] at h
            simp only [] at h
            split at h
            · injection h with h; subst h; exact hp
            · injection h with h; subst h; exact hp
  | located did =>
    simp only [RtSys.useAdd] at h
    by_cases hst : s.storing.isSome = true
    · rw [if_pos hst] at h; cases h
    · rw [if_neg hst] at h
      cases e : s.w.unis[k]? with
      | none => rw [e] at h; cases h
      | some u =>
        rw [e] at h
        simp only [] at h
        rw [if_pos hp] at h
        injection h with h; subst h; exact hp
  | building u t =>
    simp only [RtSys.useAdd] at h
    exact build_stays hp (fun e u => by cases e <;> exact hp) h
  | idle => cases h
  | syncing => cases h
  | resolved => cases h
  | done o => cases h

theorem call_stays (hp : s.w.poisoned = true) (h : s.call i see ph op = some s') : s'.w.poisoned = true := by
  cases op with
  | registerDomain n =>
    simp only [RtSys.call] at h
    by_cases hst : s.storing.isSome = true
    · rw [if_pos hst] at h; cases h
    · rw [if_neg hst] at h; injection h with h; subst h; exact whole_poison (op := .registerDomain n) rfl hp
  | registerTable n =>
    simp only [RtSys.call] at h
    by_cases hst : s.storing.isSome = true
    · rw [if_pos hst] at h; cases h
    · rw [if_neg hst] at h; injection h with h; subst h; exact whole_poison (op := .registerTable n) rfl hp
  | addProperties n =>
    simp only [RtSys.call] at h
    by_cases hst : s.storing.isSome = true
    · rw [if_pos hst] at h; cases h
    · rw [if_neg hst] at h; injection h with h; subst h; exact whole_poison (op := .addProperties n) rfl hp
  | registerProp p =>
    simp only [RtSys.call, RtSys.useReg] at h
    by_cases hst : s.storing.isSome = true
    · rw [if_pos hst] at h; cases h
    · rw [if_neg hst] at h; injection h with h; subst h; exact whole_poison (op := .registerProp p) rfl hp
  | newUniverse ns => exact useNew_stays hp h
  | addDomain k n => exact useAdd_stays hp h
  | get k p => exact useProp_stays rfl hp h
  | set k p x => exact useProp_stays rfl hp h
  | swap k p x => exact useProp_stays rfl hp h
  | openTable k m b t => exact useTable_stays hp h
  | panicWriting k m t => exact useTable_stays hp h
  | registerTracker k r => exact useTable_stays hp h

/-- What a step of a thread is. -/
theorem act_cases (h : s.act i see = some s') : ∃ op rest, (s.th i).todo = op :: rest ∧
    ((s.storing.any (fun x => decide (x.1 = i)) = true ∧ s' = { s with storing := none }) ∨
     (s.storing.any (fun x => decide (x.1 = i)) = false ∧
      (((s.th i).phase = .idle ∧ s' = (s.note (.began i op)).goto i .begun) ∨
       (∃ out, (s.th i).phase = .done out ∧
        s' = { (s.note (.returned i op out)) with th := Function.update s.th i { todo := rest, phase := .idle } }) ∨
       ((s.th i).phase ≠ .idle ∧ (∀ o, (s.th i).phase ≠ .done o) ∧ s.call i see (s.th i).phase op = some s')))) := by
  unfold RtSys.act at h
  cases e : (s.th i).todo with
  | nil => rw [e] at h; cases h
  | cons op rest =>
    rw [e] at h
    simp only [] at h
    refine ⟨op, rest, rfl, ?_⟩
    by_cases hst : s.storing.any (fun x => decide (x.1 = i)) = true
    · rw [if_pos hst] at h
      injection h with h
      exact Or.inl ⟨hst, h.symm⟩
    · rw [if_neg hst] at h
      refine Or.inr ⟨by simpa using hst, ?_⟩
      cases ep : (s.th i).phase with
      | idle => rw [ep] at h; injection h with h; exact Or.inl ⟨rfl, h.symm⟩
      | done out => rw [ep] at h; injection h with h; exact Or.inr (Or.inl ⟨out, rfl, h.symm⟩)
      | begun => rw [ep] at h; exact Or.inr (Or.inr ⟨by simp, by simp, h⟩)
      | syncing => rw [ep] at h; exact Or.inr (Or.inr ⟨by simp, by simp, h⟩)
      | resolved => rw [ep] at h; exact Or.inr (Or.inr ⟨by simp, by simp, h⟩)
      | synced => rw [ep] at h; exact Or.inr (Or.inr ⟨by simp, by simp, h⟩)
      | located d => rw [ep] at h; exact Or.inr (Or.inr ⟨by simp, by simp, h⟩)
      | building u t => rw [ep] at h; exact Or.inr (Or.inr ⟨by simp, by simp, h⟩)

theorem act_stays (hp : s.w.poisoned = true) (h : s.act i see = some s') : s'.w.poisoned = true := by
  obtain ⟨op, rest, -, h | ⟨-, h | ⟨out, -, h⟩ | ⟨-, -, h⟩⟩⟩ := act_cases h
  · rw [h.2]; exact hp
  · rw [h.2]; exact hp
  · rw [h]; exact hp
  · exact call_stays hp h

theorem act_clean (hp : s'.w.poisoned = false) (h : s.act i see = some s') : s.w.poisoned = false := by
  cases e : s.w.poisoned with
  | false => rfl
  | true => rw [act_stays e h] at hp; cases hp

end

/-! ## The log -/

/-- The call has begun. -/
def Began (log : List (RtEv ι decl)) (i : ι) (op : ROp decl) : Prop := ∃ a b, log = a ++ .began i op :: b ∧ ∀ e ∈ b, ¬ e.isBy i

/-- What the log says of a thread in its call. -/
def PhLog (w0 : World P V) (log : List (RtEv ι decl)) (i : ι) (op : ROp decl) : RtPhase V → Prop
  | .done out => Answered w0 log i op out ∨ Lapsed log i op out
  | _ => Began log i op

theorem PhLog.of_began {w0 : World P V} {log : List (RtEv ι decl)} {i : ι} {op : ROp decl} {ph : RtPhase V} (hd : ∀ o, ph ≠ .done o) (h : Began log i op) :
    PhLog w0 log i op ph := by
  cases ph <;> first | exact h | exact absurd rfl (hd _)

theorem PhLog.began {w0 : World P V} {log : List (RtEv ι decl)} {i : ι} {op : ROp decl} {ph : RtPhase V} (hd : ∀ o, ph ≠ .done o) (h : PhLog w0 log i op ph) :
    Began log i op := by
  cases ph <;> first | exact h | exact absurd rfl (hd _)

theorem Began.later {log evs : List (RtEv ι decl)} {i : ι} {op : ROp decl} (h : Began log i op) (hq : ∀ e ∈ evs, ¬ e.isBy i) : Began (log ++ evs) i op := by
  obtain ⟨a, b, h1, h2⟩ := h
  refine ⟨a, b ++ evs, by rw [h1]; simp, ?_⟩
  intro e he
  rcases List.mem_append.1 he with he | he
  · exact h2 e he
  · exact hq e he

theorem PhLog.later {w0 : World P V} {log evs : List (RtEv ι decl)} {i : ι} {op : ROp decl} {ph : RtPhase V} (h : PhLog w0 log i op ph) (hq : ∀ e ∈ evs, ¬ e.isBy i) :
    PhLog w0 (log ++ evs) i op ph := by
  cases ph with
  | done out =>
    have hc : ∀ c : List (RtEv ι decl), (∀ e ∈ c, ¬ e.isBy i) → ∀ e ∈ c ++ evs, ¬ e.isBy i := by
      intro c hc e he
      rcases List.mem_append.1 he with he | he
      · exact hc e he
      · exact hq e he
    rcases h with ⟨a, b, c, h1, h2, h3, h4⟩ | ⟨a, b, c, h1, h2, h3, h4⟩
    · exact Or.inl ⟨a, b, c ++ evs, by rw [h1]; simp, h2, hc c h3, h4⟩
    · exact Or.inr ⟨a, b, c ++ evs, by rw [h1]; simp, h2, hc c h3, h4⟩
  | idle => exact Began.later h hq
  | begun => exact Began.later h hq
  | syncing => exact Began.later h hq
  | resolved => exact Began.later h hq
  | synced => exact Began.later h hq
  | located d => exact Began.later h hq
  | building u t => exact Began.later h hq

theorem Began.answered {w0 : World P V} {log : List (RtEv ι decl)} {i : ι} {op : ROp decl} {out : R (Given V)} (h : Began log i op)
    (ho : out.toOption = ((w0.run decl (effectsOf log)).given decl op).toOption) : Answered w0 (log ++ [.effect i op]) i op out := by
  obtain ⟨a, b, h1, h2⟩ := h
  exact ⟨a, b, [], by rw [h1]; simp, h2, by simp, by rw [← h1]; exact ho⟩

theorem Began.lapsed {log : List (RtEv ι decl)} {i : ι} {op : ROp decl} {out : R (Given V)} (h : Began log i op) (ho : out.toOption = none) :
    Lapsed (log ++ [.lapse i op]) i op out := by
  obtain ⟨a, b, h1, h2⟩ := h
  exact ⟨a, b, [], by rw [h1]; simp, h2, by simp, ho⟩

theorem effectsOf_append (a b : List (RtEv ι decl)) : effectsOf (a ++ b) = effectsOf a ++ effectsOf b := by
  unfold effectsOf
  rw [List.filterMap_append]

/-! ## The invariant -/

/-- What is true in every schedule. -/
structure RtInv (w0 : World P V) (s : RtSys ι decl) : Prop where
  inv : WInv decl s.w
  ph : ∀ i op, s.inCall i op → PhOk s.w op (s.th i).phase
  on : ∀ i op k, s.inCall i op → op.on = some k → k < s.w.unis.length
  borrow : ∀ i j op op' k, i ≠ j → s.inCall i op → s.inCall j op' → op.on = some k → op'.on = some k → op.alone = false ∧ op'.alone = false
  lag : ∃ L, Behind L s.w (w0.run decl (effectsOf s.log)) ∧
    ∀ n, L n = true → ∃ i op u t, s.inCall i op ∧ (s.th i).phase = .building u t ∧ n ∈ op.names
  log : ∀ i op, s.inCall i op → PhLog w0 s.log i op (s.th i).phase
  past : ∀ pre i op out post, s.log = pre ++ .returned i op out :: post → Answered w0 pre i op out ∨ Lapsed pre i op out

/-- A step that `i` makes keeps it true for the others. -/
theorem RtInv.next {w0 : World P V} {s s' : RtSys ι decl} (h : RtInv w0 s) {i : ι} {on : Option Nat} {evs : List (RtEv ι decl)} (hm : Moves decl on s.w s'.w)
    (hth : ∀ j, j ≠ i → s'.th j = s.th j) (hlog : s'.log = s.log ++ evs) (hq : ∀ e ∈ evs, ∀ j, j ≠ i → ¬ e.isBy j)
    (hon : ∀ j op' k, j ≠ i → s.inCall j op' → op'.on = some k → op'.alone = true → on ≠ some k)
    (hown : ∀ op, s'.inCall i op → PhOk s'.w op (s'.th i).phase ∧ PhLog w0 s'.log i op (s'.th i).phase ∧
      (∀ k, op.on = some k → k < s'.w.unis.length ∧ ∀ j op', j ≠ i → s.inCall j op' → op'.on = some k → op.alone = false ∧ op'.alone = false))
    (hlag : ∃ L, Behind L s'.w (w0.run decl (effectsOf s'.log)) ∧
      ∀ n, L n = true → ∃ i op u t, s'.inCall i op ∧ (s'.th i).phase = .building u t ∧ n ∈ op.names)
    (hpast : ∀ pre j op out post, evs = pre ++ .returned j op out :: post → Answered w0 (s.log ++ pre) j op out ∨ Lapsed (s.log ++ pre) j op out) :
    RtInv w0 s' := by
  have hin : ∀ j op, j ≠ i → (s'.inCall j op ↔ s.inCall j op) := by
    intro j op hj
    unfold RtSys.inCall
    rw [hth j hj]
  refine ⟨hm.inv, ?_, ?_, ?_, hlag, ?_, ?_⟩
  · intro j op hj
    by_cases hji : j = i
    · subst hji; exact (hown op hj).1
    · have hj' := (hin j op hji).1 hj
      rw [hth j hji]
      refine (h.ph j op hj').later h.inv hm ?_
      intro k hk ha
      exact hm.other k (h.on j op k hj' hk) (hon j op k hji hj' hk ha)
  · intro j op k hj hk
    by_cases hji : j = i
    · subst hji; exact ((hown op hj).2.2 k hk).1
    · exact lt_of_lt_of_le (h.on j op k ((hin j op hji).1 hj) hk) hm.len
  · intro j j' op op' k hne hj hj' hk hk'
    by_cases hji : j = i
    · subst hji
      have hne' : j' ≠ j := fun e => hne e.symm
      exact ((hown op hj).2.2 k hk).2 j' op' hne' ((hin j' op' hne').1 hj') hk'
    · by_cases hji' : j' = i
      · subst hji'
        have := ((hown op' hj').2.2 k hk').2 j op hji ((hin j op hji).1 hj) hk
        exact ⟨this.2, this.1⟩
      · exact h.borrow j j' op op' k hne ((hin j op hji).1 hj) ((hin j' op' hji').1 hj') hk hk'
  · intro j op hj
    by_cases hji : j = i
    · subst hji; exact (hown op hj).2.1
    · rw [hth j hji, hlog]
      exact (h.log j op ((hin j op hji).1 hj)).later (fun e he => hq e he j hji)
  · intro pre j op out post he
    rw [hlog] at he
    rcases List.append_eq_append_iff.1 he with ⟨c, h1, h2⟩ | ⟨c, h1, h2⟩
    · rw [h1]
      exact hpast c j op out post h2
    · cases c with
      | nil =>
        rw [List.nil_append] at h2
        rw [List.append_nil] at h1
        have := hpast [] j op out post h2.symm
        rw [List.append_nil, h1] at this
        exact this
      | cons x c =>
        rw [List.cons_append] at h2
        injection h2 with h2 h3
        subst h2
        exact h.past pre j op out c h1

section
variable {w0 : World P V} {s s' : RtSys ι decl} {i : ι} {op : ROp decl} {rest : List (ROp decl)} {see : Seen}

theorem lag_known (h : RtInv w0 s) {L : String → Bool} (hb : Behind L s.w (w0.run decl (effectsOf s.log)))
    (hl : ∀ n, L n = true → ∃ i op u t, s.inCall i op ∧ (s.th i).phase = .building u t ∧ n ∈ op.names) :
    ∀ m, L m = true → ((w0.run decl (effectsOf s.log)).g.domains.lookup m).isSome = true := by
  intro m hm
  obtain ⟨j, op, u, t, h1, h2, h3⟩ := hl m hm
  have hph := h.ph j op h1
  rw [h2] at hph
  have hv : (s.w.g.domains.lookup m).isSome = true := by
    cases op with
    | newUniverse ns =>
      obtain ⟨info, a1, -⟩ := (hph.1 ns rfl).locked m h3
      rw [a1]; rfl
    | addDomain k n =>
      have : m = n := by simpa [ROp.names] using h3
      subst this
      obtain ⟨info, uk, inst, a1, -⟩ := (hph.2 k m rfl).made
      rw [a1]; rfl
    | registerDomain n => cases h3
    | registerTable n => cases h3
    | registerProp n => cases h3
    | addProperties n => cases h3
    | get k p => cases h3
    | set k p x => cases h3
    | swap k p x => cases h3
    | openTable k m b t => cases h3
    | panicWriting k m t => cases h3
    | registerTracker k r => cases h3
  rw [hb.lookup, Option.isSome_map] at hv
  exact hv

theorem goto_same (s : RtSys ι decl) (i : ι) (ph : RtPhase V) : ((s.goto i ph).th i).phase = ph := by simp [RtSys.goto]
theorem goto_todo (s : RtSys ι decl) (i j : ι) (ph : RtPhase V) : ((s.goto i ph).th j).todo = (s.th j).todo := by
  by_cases h : j = i
  · subst h; simp [RtSys.goto]
  · simp [RtSys.goto, h]
theorem goto_other (s : RtSys ι decl) {i j : ι} (h : j ≠ i) (ph : RtPhase V) : (s.goto i ph).th j = s.th j := by simp [RtSys.goto, h]

/-- A lag is carried along when `i` goes to another phase. -/
theorem lag_goto {L L' : String → Bool} {log : List (RtEv ι decl)} {w' : World P V} {s : RtSys ι decl} (hl : ∀ n, L n = true → ∃ i op u t, s.inCall i op ∧ (s.th i).phase = .building u t ∧ n ∈ op.names)
    (hi : s.inCall i op) (hth : ∀ j, j ≠ i → s'.th j = s.th j) (hi' : s'.inCall i op)
    (hL : ∀ n, L' n = true → (L n = true ∧ (((∃ u t, (s.th i).phase = .building u t) ∧ n ∈ op.names) → ∃ u t, (s'.th i).phase = .building u t)) ∨
      (n ∈ op.names ∧ ∃ u t, (s'.th i).phase = .building u t)) :
    ∀ n, L' n = true → ∃ i op u t, s'.inCall i op ∧ (s'.th i).phase = .building u t ∧ n ∈ op.names := by
  intro n hn
  rcases hL n hn with ⟨h1, h2⟩ | ⟨h1, u, t, h2⟩
  · obtain ⟨j, op', u, t, a1, a2, a3⟩ := hl n h1
    by_cases hj : j = i
    · subst hj
      have : op' = op := by
        have x := a1.2
        rw [hi.2] at x
        injection x with x
        exact x.symm
      subst this
      obtain ⟨u', t', h3⟩ := h2 ⟨⟨u, t, a2⟩, a3⟩
      exact ⟨j, op', u', t', hi', h3, a3⟩
    · refine ⟨j, op', u, t, ?_, by rw [hth j hj]; exact a2, a3⟩
      unfold RtSys.inCall
      rw [hth j hj]
      exact a1
  · exact ⟨i, op, u, t, hi', h2, h1⟩

/-- A step inside a call. -/
theorem RtInv.went (h : RtInv w0 s) {L : String → Bool} (hb : Behind L s.w (w0.run decl (effectsOf s.log)))
    (hl : ∀ n, L n = true → ∃ i op u t, s.inCall i op ∧ (s.th i).phase = .building u t ∧ n ∈ op.names) (hi : s.inCall i op)
    (hd : ∀ o, (s.th i).phase ≠ .done o) (hw : Went L s (w0.run decl (effectsOf s.log)) i op (s.th i).phase s') : RtInv w0 s' := by
  have hbeg : Began s.log i op := (h.log i op hi).began hd
  have huniq : ∀ (t : RtSys ι decl), (t.th i).todo = (s.th i).todo → ∀ op', t.inCall i op' → op' = op := by
    intro t ht op' h'
    have x := h'.2
    rw [ht, hi.2] at x
    injection x with x
    exact x.symm
  have hon : ∀ j op' k, j ≠ i → s.inCall j op' → op'.on = some k → op'.alone = true → op.on ≠ some k := by
    intro j op' k hj h1 h2 h3 h4
    have := (h.borrow j i op' op k hj h1 hi h2 h4).1
    rw [h3] at this
    cases this
  have hbo : ∀ v' : World P V, s.w.unis.length ≤ v'.unis.length → ∀ k, op.on = some k → k < v'.unis.length ∧
      ∀ j op', j ≠ i → s.inCall j op' → op'.on = some k → op.alone = false ∧ op'.alone = false := by
    intro v' hlen k hk
    refine ⟨lt_of_lt_of_le (h.on i op k hi hk) hlen, ?_⟩
    intro j op' hj h1 h2
    have := h.borrow j i op' op k hj h1 hi h2 hk
    exact ⟨this.2, this.1⟩
  cases hw with
  | on v' ph' L' hm hb' hL hk hph hn hd' =>
    have hi' : (({ s with w := v' }).goto i ph').inCall i op := ⟨by rw [goto_same]; exact hn, by rw [goto_todo]; exact hi.2⟩
    refine h.next (i := i) (evs := []) hm (fun j hj => goto_other _ hj _) (by simp [RtSys.goto]) (by simp) hon ?_ ⟨L', hb', ?_⟩ (by simp)
    · intro op' h'
      have := huniq _ (goto_todo _ _ _ _) op' h'
      subst this
      rw [goto_same]
      exact ⟨hph, PhLog.of_began hd' hbeg, hbo v' hm.len⟩
    · refine lag_goto (s := s) (log := s.log) (w' := v') hl hi (fun j hj => goto_other _ hj _) hi' ?_
      intro n hn'
      rw [goto_same]
      rcases hL n hn' with h1 | h1
      · exact Or.inl ⟨h1, fun ⟨⟨u, t, e⟩, _⟩ => hk u t e⟩
      · exact Or.inr h1
  | bound v' st k p hok hu hm hb' hk hix =>
    have hi' : ((({ s with w := v', storing := st } : RtSys ι decl).note (.bound i k p)).goto i .resolved).inCall i op :=
      ⟨by rw [goto_same]; simp, by rw [goto_todo]; exact hi.2⟩
    refine h.next (i := i) (evs := [.bound i k p]) hm (fun j hj => goto_other _ hj _) rfl ?_ hon ?_ ⟨L, ?_, ?_⟩ ?_
    · intro e he j hj
      rw [List.mem_singleton] at he
      subst he
      exact id
    · intro op' h'
      have := huniq _ (goto_todo _ _ _ _) op' h'
      subst this
      rw [goto_same]
      refine ⟨?_, ?_, hbo v' hm.len⟩
      · intro q hq
        rw [hu] at hq
        injection hq with hq
        subst hq
        exact hix
      · refine PhLog.of_began (by simp) ?_
        show Began (s.log ++ [.bound i k p]) i op'
        refine hbeg.later ?_
        intro e he
        rw [List.mem_singleton] at he
        subst he
        exact id
    · show Behind L v' (w0.run decl (effectsOf (s.log ++ [.bound i k p])))
      rw [effectsOf_append, run_append]
      exact hb'
    · refine lag_goto (s := s) (log := s.log) (w' := v') hl hi (fun j hj => goto_other _ hj _) hi' ?_
      intro n hn'
      refine Or.inl ⟨hn', ?_⟩
      rintro ⟨⟨u, t, e⟩, -⟩
      rw [hk] at e
      cases e
    · intro pre j op' out post he
      cases pre with
      | nil => injection he with he1 he2; cases he1
      | cons x pre => injection he with he1 he2; cases pre <;> cases he2
  | settled v' st out L' hm hb' hL ho =>
    have hi' : ({ (s.settle i op out v') with storing := st } : RtSys ι decl).inCall i op :=
      ⟨by show ((RtSys.goto _ i _).th i).phase ≠ _; rw [goto_same]; simp, by show ((RtSys.goto _ i _).th i).todo.head? = _; rw [goto_todo]; exact hi.2⟩
    refine h.next (i := i) (evs := [.effect i op]) hm (fun j hj => goto_other (({ s with w := v' } : RtSys ι decl).note (.effect i op)) hj _) rfl ?_ hon ?_ ⟨L', ?_, ?_⟩ ?_
    · intro e he j hj
      rw [List.mem_singleton] at he
      subst he
      exact fun e => hj e.symm
    · intro op' h'
      have := huniq _ (goto_todo (({ s with w := v' } : RtSys ι decl).note (.effect i op)) _ _ _) op' h'
      subst this
      have hp : (({ (s.settle i op' out v') with storing := st } : RtSys ι decl).th i).phase = .done out := goto_same (({ s with w := v' } : RtSys ι decl).note (.effect i op')) i _
      rw [hp]
      exact ⟨trivial, Or.inl (hbeg.answered ho), hbo v' hm.len⟩
    · show Behind L' v' (w0.run decl (effectsOf (s.log ++ [.effect i op])))
      rw [effectsOf_append, run_append]
      exact hb'
    · refine lag_goto (s := s) (log := s.log) (w' := v') hl hi (fun j hj => goto_other (({ s with w := v' } : RtSys ι decl).note (.effect i op)) hj _) hi' ?_
      intro n hn'
      obtain ⟨h1, h2⟩ := hL n hn'
      refine Or.inl ⟨h1, ?_⟩
      rintro ⟨a1, a2⟩
      exact absurd a2 (h2 a1)
    · intro pre j op' out post he
      cases pre with
      | nil => injection he with he1 he2; cases he1
      | cons x pre => injection he with he1 he2; cases pre <;> cases he2
  | lapsed e hk =>
    have hi' : ((s.note (.lapse i op)).goto i (.done (.error e))).inCall i op := ⟨by rw [goto_same]; simp, by rw [goto_todo]; exact hi.2⟩
    refine h.next (i := i) (evs := [.lapse i op]) (Moves.refl h.inv hb.vp op.on) (fun j hj => goto_other _ hj _) rfl ?_ hon ?_ ⟨L, ?_, ?_⟩ ?_
    · intro e he j hj
      rw [List.mem_singleton] at he
      subst he
      exact fun e => hj e.symm
    · intro op' h'
      have := huniq _ (goto_todo _ _ _ _) op' h'
      subst this
      rw [goto_same]
      exact ⟨trivial, Or.inr (hbeg.lapsed rfl), hbo s.w (le_refl _)⟩
    · show Behind L s.w (w0.run decl (effectsOf (s.log ++ [.lapse i op])))
      rw [effectsOf_append, run_append]
      exact hb
    · refine lag_goto (s := s) (log := s.log) (w' := s.w) hl hi (fun j hj => goto_other _ hj _) hi' ?_
      intro n hn'
      exact Or.inl ⟨hn', fun ⟨⟨u, t, e⟩, _⟩ => absurd e (hk u t)⟩
    · intro pre j op' out post he
      cases pre with
      | nil => injection he with he1 he2; cases he1
      | cons x pre => injection he with he1 he2; cases pre <;> cases he2

/-- Every step keeps it. -/
theorem RtInv.act (hw0 : WInv decl w0) (h : RtInv w0 s) (hgo : s.mayGo i) (ha : s.act i see = some s') (hp : s'.w.poisoned = false) : RtInv w0 s' := by
  have hpc := act_clean hp ha
  obtain ⟨L, hb, hl⟩ := h.lag
  obtain ⟨op, rest, ht, ⟨hst, rfl⟩ | ⟨hst, ⟨hidle, rfl⟩ | ⟨out, hdone, rfl⟩ | ⟨hni, hnd, hc⟩⟩⟩ := act_cases ha
  · exact ⟨h.inv, h.ph, h.on, h.borrow, ⟨L, hb, hl⟩, h.log, h.past⟩
  · have hhead : (s.th i).todo.head? = some op := by rw [ht]; rfl
    refine h.next (i := i) (evs := [.began i op]) (on := none) (Moves.refl h.inv hpc none) (fun j hj => goto_other _ hj _) rfl ?_ (by simp) ?_ ⟨L, ?_, ?_⟩ ?_
    · intro e he j hj
      rw [List.mem_singleton] at he
      subst he
      exact fun e => hj e.symm
    · intro op' h'
      have hop : op' = op := by
        have x := h'.2
        rw [goto_todo] at x
        have x : (s.th i).todo.head? = some op' := x
        rw [hhead] at x
        injection x with x
        exact x.symm
      subst hop
      rw [goto_same]
      refine ⟨trivial, ⟨s.log, [], rfl, by simp⟩, ?_⟩
      intro k hk
      exact hgo hidle op' k hhead hk
    · show Behind L s.w (w0.run decl (effectsOf (s.log ++ [.began i op])))
      rw [effectsOf_append, run_append]
      exact hb
    · intro n hn
      obtain ⟨j, op', u, t, a1, a2, a3⟩ := hl n hn
      have hj : j ≠ i := by rintro rfl; exact a1.1 hidle
      refine ⟨j, op', u, t, ?_, ?_, a3⟩
      · unfold RtSys.inCall
        rw [goto_other _ hj]
        exact a1
      · rw [goto_other _ hj]
        exact a2
    · intro pre j op' out post he
      cases pre with
      | nil => injection he with he1 he2; cases he1
      | cons x pre => injection he with he1 he2; cases pre <;> cases he2
  · have hhead : (s.th i).todo.head? = some op := by rw [ht]; rfl
    have hi : s.inCall i op := ⟨by rw [hdone]; simp, hhead⟩
    refine h.next (i := i) (evs := [.returned i op out]) (on := none) (Moves.refl h.inv hpc none) (fun j hj => by simp [hj]) rfl ?_ (by simp) ?_ ⟨L, ?_, ?_⟩ ?_
    · intro e he j hj
      rw [List.mem_singleton] at he
      subst he
      exact fun e => hj e.symm
    · intro op' h'
      have := h'.1
      simp at this
    · show Behind L s.w (w0.run decl (effectsOf (s.log ++ [.returned i op out])))
      rw [effectsOf_append, run_append]
      exact hb
    · intro n hn
      obtain ⟨j, op', u, t, a1, a2, a3⟩ := hl n hn
      have hj : j ≠ i := by rintro rfl; rw [hdone] at a2; cases a2
      refine ⟨j, op', u, t, ?_, ?_, a3⟩
      · unfold RtSys.inCall
        simp only [Function.update_of_ne hj]
        exact a1
      · simp only [Function.update_of_ne hj]
        exact a2
    · intro pre j op' out' post he
      have hlg := h.log i op hi
      rw [hdone] at hlg
      cases pre with
      | nil =>
        injection he with he1 he2
        injection he1 with h1 h2 h3
        subst h1; subst h2; subst h3
        rw [List.append_nil]
        exact hlg
      | cons x pre => injection he with he1 he2; cases pre <;> cases he2
  · have hhead : (s.th i).todo.head? = some op := by rw [ht]; rfl
    have hi : s.inCall i op := ⟨hni, hhead⟩
    have hw := (run_inv hw0 (effectsOf s.log)).1
    exact h.went hb hl hi hnd (call_went hb h.inv hw (lag_known h hb hl) (fun k hk => h.on i op k hi hk) (h.ph i op hi) hc hp)

theorem start_inv (hw0 : WInv decl w0) (hp : w0.poisoned = false) (progs : ι → List (ROp decl)) : RtInv w0 (RtSys.start w0 progs) := by
  have hn : ∀ j op, ¬ (RtSys.start w0 progs).inCall j op := fun j op h => h.1 rfl
  refine ⟨hw0, fun j op h => absurd h (hn j op), fun j op k h => absurd h (hn j op), fun j j' op op' k _ h => absurd h (hn j op),
    ⟨fun _ => false, ⟨(lockOn_false _).symm, hp, hp, rfl, rfl⟩, by simp⟩, fun j op h => absurd h (hn j op), ?_⟩
  intro pre j op out post he
  cases pre <;> cases he

theorem rt_inv (hw0 : WInv decl w0) {progs : ι → List (ROp decl)} (hr : RtRun (RtSys.start w0 progs) s) (hp : s.w.poisoned = false) : RtInv w0 s := by
  induction hr with
  | refl => exact start_inv hw0 hp progs
  | step i see h hb ha ih => exact (ih (act_clean hp ha)).act hw0 hb ha hp

end
end V11
