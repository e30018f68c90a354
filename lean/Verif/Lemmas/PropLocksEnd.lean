import Verif.Lemmas.PropLocksInv

/-!
# Property locks among threads: threads that go on, and end
-/

set_option linter.unusedSimpArgs false
set_option linter.unusedSectionVars false
set_option linter.unusedVariables false

namespace V11
variable {Ty : Type} [DecidableEq Ty] {V : Ty → Type} {P : Type} [DecidableEq P] {ι : Type} [DecidableEq ι] {decl : P → PropDecl V}

/-- What a step does to the thread. -/
inductive PlNext : PlThread decl → PlThread decl → Prop where
  | fall {sc h} : PlNext ⟨sc, h, false⟩ ⟨.panic, h, true⟩
  | down {sc g h} : PlNext ⟨sc, g :: h, true⟩ ⟨.panic, h, true⟩
  | leave {g h} : PlNext ⟨.done, g :: h, false⟩ ⟨.done, h, false⟩
  | get {k p f h} (v : V (decl p).ty) : PlNext ⟨.get k p f, h, false⟩ ⟨f v, h, false⟩
  | set {k p x n h} : PlNext ⟨.set k p x n, h, false⟩ ⟨n, h, false⟩
  | swap {k p x f h} (v : V (decl p).ty) : PlNext ⟨.swap k p x f, h, false⟩ ⟨f v, h, false⟩
  | read {k p n h} : PlNext ⟨.read k p n, h, false⟩ ⟨n, (k, p, .rd) :: h, false⟩
  | write {k p n h} : PlNext ⟨.write k p n, h, false⟩ ⟨n, (k, p, .wr) :: h, false⟩
  | look {k p f h} (v : V (decl p).ty) : PlNext ⟨.look k p f, h, false⟩ ⟨f v, h, false⟩
  | store {k p x n h} : PlNext ⟨.store k p x n, h, false⟩ ⟨n, h, false⟩
  | drop {k p m n h} : PlNext ⟨.drop k p m n, h, false⟩ ⟨n, h.erase (k, p, m), false⟩

variable {s s' : PlSys ι decl} {i : ι} {ops0 : List (ROp decl)} {progs : ι → PScript decl}

theorem thread_eta (t : PlThread decl) {sc : PScript decl} {fl : Bool} (h1 : t.script = sc) (h2 : t.falling = fl) : t = ⟨sc, t.held, fl⟩ := by
  cases t
  simp only [] at h1 h2
  subst h1; subst h2
  rfl

theorem fall_th (w : World P V) (evs : List (PlEv ι decl)) : (s.fall i w evs).th i = ⟨.panic, (s.th i).held, true⟩ := by
  simp [PlSys.fall, PlSys.goOn]

theorem goOn_th (t : PlThread decl) (w : World P V) (evs : List (PlEv ι decl)) : (s.goOn i t w evs).th i = t := by
  simp [PlSys.goOn]

theorem step_next (hs : PlStep s i s') : PlNext (s.th i) (s'.th i) ∧ ∀ j, j ≠ i → s'.th j = s.th j := by
  refine ⟨?_, ?_⟩
  swap
  · obtain ⟨t, evs, bad, did, hth, -⟩ := step_did hs
    intro j hj
    rw [hth, Function.update_of_ne hj]
  cases hs with
  | absent h1 h2 h3 =>
    rw [fall_th]
    rw [thread_eta (s.th i) rfl h1]
    exact .fall
  | poisoned h1 h2 h3 h4 h5 =>
    rw [fall_th]
    rw [thread_eta (s.th i) rfl h1]
    exact .fall
  | @take k p m v h1 h2 h3 h4 h5 =>
    cases e : (s.th i).script with
    | done => rw [e] at h2; cases h2
    | panic => rw [e] at h2; cases h2
    | look k p f => rw [e] at h2; cases h2
    | store k p x n => rw [e] at h2; cases h2
    | drop k p m n => rw [e] at h2; cases h2
    | get k' p' f =>
      simp only [PlSys.grant]
      rcases ew : s.w.get decl k' p' with ⟨_ | v, w⟩
      · rw [fall_th, thread_eta (s.th i) e h1]; exact .fall
      · simp only []; rw [goOn_th]; rw (occs := .pos [1]) [thread_eta (s.th i) e h1]; exact .get v
    | set k' p' x n =>
      simp only [PlSys.grant]
      rcases ew : s.w.set decl k' p' x with ⟨_ | v, w⟩
      · rw [fall_th, thread_eta (s.th i) e h1]; exact .fall
      · simp only []; rw [goOn_th]; rw (occs := .pos [1]) [thread_eta (s.th i) e h1]; exact .set
    | swap k' p' x f =>
      simp only [PlSys.grant]
      rcases ew : s.w.swap decl k' p' x with ⟨_ | v, w⟩
      · rw [fall_th, thread_eta (s.th i) e h1]; exact .fall
      · simp only []; rw [goOn_th]; rw (occs := .pos [1]) [thread_eta (s.th i) e h1]; exact .swap v
    | read k' p' n =>
      simp only [PlSys.grant]
      rw [goOn_th]; rw (occs := .pos [1]) [thread_eta (s.th i) e h1]; exact .read
    | write k' p' n =>
      simp only [PlSys.grant]
      rw [goOn_th]; rw (occs := .pos [1]) [thread_eta (s.th i) e h1]; exact .write
  | look h1 h2 h3 h4 => rw [goOn_th]; rw (occs := .pos [1]) [thread_eta (s.th i) h2 h1]; exact .look _
  | store h1 h2 h3 => rw [goOn_th]; rw (occs := .pos [1]) [thread_eta (s.th i) h2 h1]; exact .store
  | drop h1 h2 h3 => rw [goOn_th]; rw (occs := .pos [1]) [thread_eta (s.th i) h2 h1]; exact .drop
  | panic h1 h2 =>
    rw [fall_th]
    rw [thread_eta (s.th i) rfl h1]
    exact .fall
  | @leave g rest h1 h2 h3 =>
    rw [goOn_th]
    rw [thread_eta (s.th i) h2 h1, h3]
    exact .leave
  | @unwind g rest h1 h2 =>
    have : ({ (s.goOn i { script := .panic, held := rest, falling := true } s.w [.left i g]) with
        bad := if g.2.2 = .wr then Function.update s.bad (g.key decl) true else s.bad } : PlSys ι decl).th i = ⟨.panic, rest, true⟩ := by simp [PlSys.goOn]
    rw [this, thread_eta (s.th i) rfl h1, h2]
    exact .down

/-! ## Every thread ends -/

theorem acc_falling (h : List (PGuard P)) : ∀ sc : PScript decl, Acc (fun t' t => PlNext t t') ⟨sc, h, true⟩ := by
  induction h with
  | nil =>
    intro sc
    constructor
    intro t' ht
    cases ht
  | cons g h ih =>
    intro sc
    constructor
    intro t' ht
    cases ht with
    | down => exact ih _

theorem acc_done (h : List (PGuard P)) : Acc (fun t' t : PlThread decl => PlNext t t') ⟨.done, h, false⟩ := by
  induction h with
  | nil =>
    constructor
    intro t' ht
    cases ht with
    | fall => exact acc_falling _ _
  | cons g h ih =>
    constructor
    intro t' ht
    cases ht with
    | fall => exact acc_falling _ _
    | leave => exact ih

theorem acc_script (sc : PScript decl) : ∀ h, Acc (fun t' t : PlThread decl => PlNext t t') ⟨sc, h, false⟩ := by
  induction sc with
  | done => exact acc_done
  | panic =>
    intro h
    constructor
    intro t' ht
    cases ht with
    | fall => exact acc_falling _ _
  | get k p f ih =>
    intro h
    constructor
    intro t' ht
    cases ht with
    | fall => exact acc_falling _ _
    | get v => exact ih v _
  | set k p x n ih =>
    intro h
    constructor
    intro t' ht
    cases ht with
    | fall => exact acc_falling _ _
    | set => exact ih _
  | swap k p x f ih =>
    intro h
    constructor
    intro t' ht
    cases ht with
    | fall => exact acc_falling _ _
    | swap v => exact ih v _
  | read k p n ih =>
    intro h
    constructor
    intro t' ht
    cases ht with
    | fall => exact acc_falling _ _
    | read => exact ih _
  | write k p n ih =>
    intro h
    constructor
    intro t' ht
    cases ht with
    | fall => exact acc_falling _ _
    | write => exact ih _
  | look k p f ih =>
    intro h
    constructor
    intro t' ht
    cases ht with
    | fall => exact acc_falling _ _
    | look v => exact ih v _
  | store k p x n ih =>
    intro h
    constructor
    intro t' ht
    cases ht with
    | fall => exact acc_falling _ _
    | store => exact ih _
  | drop k p m n ih =>
    intro h
    constructor
    intro t' ht
    cases ht with
    | fall => exact acc_falling _ _
    | drop => exact ih _

theorem pl_ends (f : Nat → PlSys ι decl) (who : Nat → ι) (hf : ∀ n, PlStep (f n) (who n) (f (n + 1))) (i : ι) : ∃ N, ∀ n, N ≤ n → who n ≠ i := by
  have acc : ∀ t : PlThread decl, Acc (fun t' t : PlThread decl => PlNext t t') t := by
    rintro ⟨sc, h, _ | _⟩
    · exact acc_script sc h
    · exact acc_falling h sc
  have key : ∀ t, ∀ n, (f n).th i = t → ∃ N, ∀ m, N ≤ m → who m ≠ i := by
    intro t
    induction acc t with
    | intro t _ ih =>
      intro n hn
      by_cases hc : ∃ m, n ≤ m ∧ who m = i
      · have hm := Nat.find_spec hc
        have hmin := fun j hj => Nat.find_min (H := hc) (m := j) hj
        generalize Nat.find hc = m at hm hmin
        have hsame : ∀ d, n + d ≤ m → (f (n + d)).th i = t := by
          intro d
          induction d with
          | zero => intro _; exact hn
          | succ d ihd =>
            intro hd
            have h1 := ihd (by omega)
            have h2 : who (n + d) ≠ i := fun h => hmin (n + d) (by omega) ⟨by omega, h⟩
            have := (step_next (hf (n + d))).2 i (Ne.symm h2)
            rw [show n + (d + 1) = n + d + 1 by omega, this, h1]
        have hth : (f m).th i = t := by
          have := hsame (m - n) (by omega)
          rwa [show n + (m - n) = m by omega] at this
        have hst := (step_next (hf m)).1
        rw [hm.2, hth] at hst
        exact ih _ hst (m + 1) rfl
      · exact ⟨n, fun m hm h => hc ⟨m, hm, h⟩⟩
  exact key _ 0 rfl

/-! ## Threads that take locks in order -/

theorem inTurn_next {lev : PKey → Nat} {t t' : PlThread decl} (h : t.falling = false → t.script.InTurn lev t.held) (hn : PlNext t t') :
    t'.falling = false → t'.script.InTurn lev t'.held := by
  intro hf
  cases hn with
  | fall => cases hf
  | down => cases hf
  | leave => trivial
  | get v => exact (h rfl).2 v
  | set => exact (h rfl).2
  | swap v => exact (h rfl).2 v
  | read => exact (h rfl).2
  | write => exact (h rfl).2
  | look v => exact (h rfl).2 v
  | store => exact (h rfl).2
  | drop => exact (h rfl).2

theorem pl_inv (hr : PlRun (PlSys.start (World.after decl ops0) progs) s) : PlInv ops0 s := by
  induction hr with
  | refl => exact PlInv.start ops0 progs
  | step i h hs ih => exact ih.step hs

theorem pl_inTurn {lev : PKey → Nat} {w0 : World P V} (hp : ∀ i, (progs i).InTurn lev []) (hr : PlRun (PlSys.start w0 progs) s) (i : ι) :
    (s.th i).falling = false → (s.th i).script.InTurn lev (s.th i).held := by
  induction hr with
  | refl => intro _; exact hp i
  | step j h hs ih =>
    obtain ⟨h1, h2⟩ := step_next hs
    by_cases hj : i = j
    · subst hj; exact inTurn_next ih h1
    · rw [h2 i hj]; exact ih

theorem asks_below {lev : PKey → Nat} {sc : PScript decl} {h : List (PGuard P)} (ht : sc.InTurn lev h) {k : Nat} {p : P} {m : Mode}
    (ha : sc.asks = some (k, p, m)) : ∀ g ∈ h, lev (PropDecl.key decl k p) < lev (g.key decl) := by
  cases sc <;> first | cases ha; done | (simp only [PScript.asks, Option.some.injEq, Prod.mk.injEq] at ha; obtain ⟨rfl, rfl, rfl⟩ := ha; exact ht.1)

/-- A thread that is neither over nor waits for a lock goes on. -/
theorem pl_free_goes {lev : PKey → Nat} (hv : PlInv ops0 s) (ht : (s.th i).falling = false → (s.th i).script.InTurn lev (s.th i).held) (ho : ¬ s.Over i)
    (ha : (s.th i).falling = false → (s.th i).script.asks = none) : s.Sure i := by
  have second : ∀ k p, (s.th i).falling = false → (s.th i).script.asks = some (k, p, .rd) → (∃ v, (s.w.get decl k p).1 = .ok v) →
      ∀ j k' p', (s.th j).falling = false → (s.th j).script.asks = some (k', p', .wr) → PropDecl.key decl k' p' ≠ PropDecl.key decl k p := by
    intro k p h1 h2
    rw [ha h1] at h2
    cases h2
  refine ⟨?_, second⟩
  cases hf : (s.th i).falling with
  | true =>
    cases hh : (s.th i).held with
    | nil => exact absurd ⟨hh, Or.inl hf⟩ ho
    | cons g r => exact ⟨_, .unwind hf hh⟩
  | false =>
    have ht := ht hf
    have ha := ha hf
    cases e : (s.th i).script with
    | done =>
      cases hh : (s.th i).held with
      | nil => exact absurd ⟨hh, Or.inr e⟩ ho
      | cons g r => exact ⟨_, .leave hf e hh⟩
    | panic => exact ⟨_, .panic hf e⟩
    | get k p f => rw [e] at ha; cases ha
    | set k p x n => rw [e] at ha; cases ha
    | swap k p x f => rw [e] at ha; cases ha
    | read k p n => rw [e] at ha; cases ha
    | write k p n => rw [e] at ha; cases ha
    | look k p f =>
      rw [e] at ht
      obtain ⟨⟨m, hm⟩, -⟩ := ht
      obtain ⟨-, v, hvv⟩ := hv.settled i _ hm
      exact ⟨_, .look hf e hm hvv⟩
    | store k p x n =>
      rw [e] at ht
      exact ⟨_, .store hf e ht.1⟩
    | drop k p m n =>
      rw [e] at ht
      exact ⟨_, .drop hf e ht.1⟩

/-- Who asks for a lock that is free gets it, or panics. -/
theorem pl_asks_goes {k : Nat} {p : P} {m : Mode} (hf : (s.th i).falling = false) (ha : (s.th i).script.asks = some (k, p, m))
    (hfree : (∃ v, (s.w.get decl k p).1 = .ok v) → s.free (PropDecl.key decl k p) m) : ∃ s', PlStep s i s' := by
  cases e : (s.w.get decl k p).1 with
  | error x => exact ⟨_, .absent hf ha e⟩
  | ok v =>
    cases hb : s.bad (PropDecl.key decl k p) with
    | true => exact ⟨_, .poisoned hf ha e (hfree ⟨v, e⟩) hb⟩
    | false => exact ⟨_, .take hf ha e (hfree ⟨v, e⟩) hb⟩

theorem pl_not_free {l : PKey} {m : Mode} (h : ¬ s.free l m) : ∃ j, ∃ g ∈ (s.th j).held, g.key decl = l := by
  cases m with
  | rd =>
    simp only [PlSys.free] at h
    push Not at h
    obtain ⟨j, g, h1, h2, -⟩ := h
    exact ⟨j, g, h1, h2⟩
  | wr =>
    simp only [PlSys.free] at h
    push Not at h
    obtain ⟨j, g, h1, h2⟩ := h
    exact ⟨j, g, h1, h2⟩

/-- Some thread goes on, if one has a guard on this lock or asks for it. -/
theorem pl_goes {lev : PKey → Nat} (hv : PlInv ops0 s) (ht : ∀ i, (s.th i).falling = false → (s.th i).script.InTurn lev (s.th i).held) :
    ∀ n, (∀ i, ∀ g ∈ (s.th i).held, lev (g.key decl) = n → ∃ j, s.Sure j) ∧
      ∀ i k p m, (s.th i).falling = false → (s.th i).script.asks = some (k, p, m) → lev (PropDecl.key decl k p) = n → ∃ j, s.Sure j := by
  intro n
  induction n using Nat.strong_induction_on with
  | _ n ih =>
    have held : ∀ i, ∀ g ∈ (s.th i).held, lev (g.key decl) = n → ∃ j, s.Sure j := by
      intro i g hg hl
      by_cases ha : (s.th i).falling = false → (s.th i).script.asks = none
      · refine ⟨i, pl_free_goes hv (ht i) ?_ ha⟩
        intro ho
        rw [ho.1] at hg
        cases hg
      · push Not at ha
        obtain ⟨hf, ha⟩ := ha
        obtain ⟨⟨k, p, m⟩, ha⟩ := Option.ne_none_iff_exists'.1 ha
        have := asks_below (ht i hf) ha g hg
        exact (ih _ (by rw [← hl]; exact this)).2 i k p m hf ha rfl
    refine ⟨held, ?_⟩
    intro i k p m hf ha hl
    by_cases hread : ∃ v, (s.w.get decl k p).1 = .ok v
    · -- somebody asks for writing
      have wr : ∀ j k' p', (s.th j).falling = false → (s.th j).script.asks = some (k', p', .wr) → PropDecl.key decl k' p' = PropDecl.key decl k p → ∃ j, s.Sure j := by
        intro j k' p' hf' ha' hk
        by_cases hfree : s.free (PropDecl.key decl k' p') .wr
        · refine ⟨j, pl_asks_goes hf' ha' (fun _ => hfree), ?_⟩
          intro k2 p2 h1 h2
          rw [ha'] at h2
          simp at h2
        · obtain ⟨j', g, h1, h2⟩ := pl_not_free hfree
          exact held j' g h1 (by rw [h2, hk, hl])
      cases m with
      | wr => exact wr i k p hf ha rfl
      | rd =>
        by_cases hw : ∃ j k' p', (s.th j).falling = false ∧ (s.th j).script.asks = some (k', p', .wr) ∧ PropDecl.key decl k' p' = PropDecl.key decl k p
        · obtain ⟨j, k', p', h1, h2, h3⟩ := hw
          exact wr j k' p' h1 h2 h3
        · by_cases hfree : s.free (PropDecl.key decl k p) .rd
          · refine ⟨i, pl_asks_goes hf ha (fun _ => hfree), ?_⟩
            intro k2 p2 h1 h2 h3 j k' p' h4 h5 h6
            rw [ha] at h2
            simp only [Option.some.injEq, Prod.mk.injEq, and_true] at h2
            obtain ⟨rfl, rfl⟩ := h2
            exact hw ⟨j, k', p', h4, h5, h6⟩
          · obtain ⟨j', g, h1, h2⟩ := pl_not_free hfree
            exact held j' g h1 (by rw [h2, hl])
    · refine ⟨i, pl_asks_goes hf ha (fun h => absurd h hread), ?_⟩
      intro k2 p2 h1 h2 h3
      rw [ha] at h2
      simp only [Option.some.injEq, Prod.mk.injEq] at h2
      obtain ⟨rfl, rfl, -⟩ := h2
      exact absurd h3 hread

theorem pl_no_deadlock {lev : PKey → Nat} (hv : PlInv ops0 s) (ht : ∀ i, (s.th i).falling = false → (s.th i).script.InTurn lev (s.th i).held) (i : ι) (ho : ¬ s.Over i) :
    ∃ j, s.Sure j := by
  by_cases ha : (s.th i).falling = false → (s.th i).script.asks = none
  · exact ⟨i, pl_free_goes hv (ht i) ho ha⟩
  · push Not at ha
    obtain ⟨hf, ha⟩ := ha
    obtain ⟨⟨k, p, m⟩, ha⟩ := Option.ne_none_iff_exists'.1 ha
    exact (pl_goes hv ht _).2 i k p m hf ha rfl

end V11
