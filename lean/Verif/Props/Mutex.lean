import Verif.Lemmas.Exec
import Verif.Lemmas.Mutex
import Verif.Lemmas.Serial
import Verif.Props.Threads
import Verif.Props.Integrity

/-!
# A table used as a mutex makes all work serialisable: C84

`Script.Work`, `Script.each` and `Serially` are in `Spec/Mutex.lean`.
-/

set_option linter.unusedSectionVars false
set_option linter.unusedVariables false

namespace V11
variable {T : Type} [DecidableEq T] {S : T → Schema} [LS : ∀ t, LawfulSchema (S t)] {K : Type} [LinearOrder K]
  {key : (t : T) → Row (S t) → K} {cfg : Cfg S} {rank : T → Nat} {live : T → Bool} {ι : Type} [DecidableEq ι]
open Sys

/-- What those of thread `i` are, in order. -/
abbrev doneBy (order : List (ι × Script S)) (i : ι) : List (Script S) := (order.filter (fun x => decide (x.1 = i))).map (·.2)

theorem each_ret {m : T} {n : Nat} {L : List (Script S)} (hL : ∀ b ∈ L, b.Work m)
    (h : (Script.each m L).prog key cfg n (fun _ => none) = .ret ()) : L = [] := by
  cases L with
  | nil => rfl
  | cons b L => rw [prog_each b L (hL b List.mem_cons_self)] at h; cases h

theorem each_fail {m : T} {n : Nat} {L : List (Script S)} (hL : ∀ b ∈ L, b.Work m) {p : Panic} :
    (Script.each m L).prog key cfg n (fun _ => none) ≠ .fail p := by
  intro h
  cases L with
  | nil => cases h
  | cons b L => rw [prog_each b L (hL b List.mem_cons_self)] at h; cases h

theorem bind_put_ne {m : T} {x : Tbl (S m)} {k : Prog S Unit} {q : Prog S Unit} : q.bind (fun _ => .put m x k) ≠ .ret () := by
  intro h; cases q <;> cases h

theorem bind_put_fail {m : T} {x : Tbl (S m)} {k : Prog S Unit} {q : Prog S Unit} {p : Panic}
    (h : q.bind (fun _ => .put m x k) = .fail p) : q = .fail p := by
  cases q <;> first | (cases h; rfl) | cases h

/-- C84: threads that do each piece of work (any guards of other tables, any calls, flushes with any events and whatever cascades
they cause, live flushes, restores, selections) while they have the write guard of table `m`. In every state of every
schedule the process is as if the pieces that have been finished had been done one after another by a single thread, those of
each thread in its order, all of them if it has returned: whenever nobody has the mutex, that is what the rows and
remappings are and nobody has any guard. A thread that has panicked, did so because the mutex is poisoned or because its next
piece, done alone after those, panics just so; and the mutex is poisoned only then. -/
theorem C84_serial (m : T) (L : ι → List (Script S)) (hL : ∀ i, ∀ b ∈ L i, b.Work m) (u0 : Uni S) (hu : Unlocked u0.env)
    (ht : ∀ t, Reach (key t) false (u0.env.tbl t)) (waits : Sys S ι → ι → Prop) (n : Nat) (s : Sys S ι)
    (hr : Run waits (startSys key cfg n u0.env.tbl u0.fl (fun i => Script.each m (L i))) s) :
    ∃ (order : List (ι × Script S)) (u : Uni S), Serially key cfg n u0 (order.map (·.2)) u ∧ Unlocked u.env ∧
      (∀ i, doneBy order i <+: L i ∧ ((s.th i).prog = .ret () → doneBy order i = L i ∧ (s.th i).held = [])) ∧
      ((∀ i, (.tbl m, .wr) ∉ (s.th i).held) → s.poisoned (.tbl m) = false →
        s.tbl = u.env.tbl ∧ s.fl = u.fl ∧ (∀ l, s.poisoned l = false) ∧ ∀ i, (s.th i).held = []) ∧
      (∀ i p, (s.th i).prog = .fail p → p = .poisoned ∧ s.poisoned (.tbl m) = true ∨
        ∃ b, doneBy order i ++ [b] <+: L i ∧ (b.prog key cfg n (fun _ => none)).run u = .error p) ∧
      (∀ l, s.poisoned l = true → ∃ i b p, doneBy order i ++ [b] <+: L i ∧ (s.th i).prog = .fail p ∧
        (b.prog key cfg n (fun _ => none)).run u = .error p) := by
  obtain ⟨order, pend, u, h⟩ := OneByOne.run hL ⟨_, _, _, start_oneByOne (key := key) (cfg := cfg) (n := n) (m := m) L u0 hu ht⟩ hr
  have hpend : ∀ i, ∀ b ∈ pend i, b.Work m := fun i b hb => hL i b (by rw [← h.proj i]; exact List.mem_append_right _ hb)
  have hnil : ∀ i, pend i = [] → doneBy order i = L i := fun i e => by rw [← h.proj i, e, List.append_nil]
  have hcons : ∀ {i b rest}, pend i = b :: rest → doneBy order i ++ [b] <+: L i := by
    intro i b rest e
    rw [← h.proj i, e]
    exact ⟨rest, by simp [doneBy]⟩
  have hout : ∀ j, s.th j = ⟨(Script.each m (pend j)).prog key cfg n (fun _ => none), []⟩ → (s.th j).prog = .ret () →
      doneBy order j = L j ∧ (s.th j).held = [] := by
    intro j hj hp
    refine ⟨?_, by rw [hj]⟩
    rw [hj] at hp
    exact hnil j (each_ret (hpend j) hp)
  have hnf : ∀ {p j}, s.th j = ⟨(Script.each m (pend j)).prog key cfg n (fun _ => none), []⟩ → (s.th j).prog ≠ .fail p := by
    intro p j hj hp
    rw [hj] at hp
    exact each_fail (hpend j) hp
  refine ⟨order, u, h.serial, h.quiet, fun i => ⟨⟨pend i, h.proj i⟩, ?_⟩, ?_, ?_, ?_⟩
  · intro hp
    cases h.stage with
    | idle hth => exact hout i (hth i) hp
    | took i' b rest e hth ho =>
      by_cases e : i = i'
      · subst e; rw [hth] at hp; cases hp
      · exact hout i (ho i e) hp
    | inside i' b rest g q v e hth ho =>
      by_cases e : i = i'
      · subst e; rw [hth] at hp; exact (bind_put_ne hp).elim
      · exact hout i (ho i e) hp
    | leaving i' hth ho =>
      by_cases e : i = i'
      · subst e; rw [hth] at hp; cases hp
      · exact hout i (ho i e) hp
    | dead i' b rest p e hrun hth hpo ho =>
      by_cases e : i = i'
      · subst e; rw [hth] at hp; cases hp
      · rcases ho i e with hj | hj
        · exact hout i hj hp
        · rw [hj] at hp; cases hp
  · intro hfree hpo
    cases h.stage with
    | idle hth hmi hpo => exact ⟨hmi.tbl.symm, hmi.fl.symm, hpo, fun i => by rw [hth]⟩
    | took i b rest e hth ho => exact (hfree i (by rw [hth]; simp)).elim
    | inside i b rest g q v e hth ho => exact (hfree i (by rw [hth]; simp)).elim
    | leaving i hth ho => exact (hfree i (by rw [hth]; simp)).elim
    | dead i b rest p e hrun hth hpo' ho => rw [hpo] at hpo'; cases hpo'
  · intro i p hp
    cases h.stage with
    | idle hth => exact (hnf (hth i) hp).elim
    | took i' b rest e hth ho =>
      by_cases e : i = i'
      · subst e; rw [hth] at hp; cases hp
      · exact (hnf (ho i e) hp).elim
    | inside i' b rest g q v e hth ho hin hrun hpo =>
      by_cases ei : i = i'
      · subst ei
        rw [hth] at hp
        have := bind_put_fail hp
        subst this
        exact Or.inr ⟨b, hcons e, hrun.symm⟩
      · exact (hnf (ho i ei) hp).elim
    | leaving i' hth ho =>
      by_cases e : i = i'
      · subst e; rw [hth] at hp; cases hp
      · exact (hnf (ho i e) hp).elim
    | dead i' b rest p' e hrun hth hpo ho =>
      by_cases ei : i = i'
      · subst ei
        rw [hth] at hp; cases hp
        exact Or.inr ⟨b, hcons e, hrun⟩
      · rcases ho i ei with hj | hj
        · exact (hnf hj hp).elim
        · rw [hj] at hp; cases hp
          exact Or.inl ⟨rfl, hpo⟩
  · intro l hl
    cases h.stage with
    | idle hth hmi hpo => rw [hpo] at hl; cases hl
    | took i b rest e hth ho hmi hpo => rw [hpo] at hl; cases hl
    | inside i b rest g q v e hth ho hin hrun hpo => rw [hpo] at hl; cases hl
    | leaving i hth ho hmi hpo => rw [hpo] at hl; cases hl
    | dead i b rest p e hrun hth hpo' ho => exact ⟨i, b, p, hcons e, by rw [hth], hrun⟩

/-- C84: so whatever each piece of work keeps when it is done alone, all of them together keep; and if each of them returns when
it is done alone, no thread ever panics and no lock is ever poisoned. -/
theorem C84_invariant (m : T) (L : ι → List (Script S)) (hL : ∀ i, ∀ b ∈ L i, b.Work m) (u0 : Uni S) (hu : Unlocked u0.env)
    (ht : ∀ t, Reach (key t) false (u0.env.tbl t)) (waits : Sys S ι → ι → Prop) (n : Nat) (I : Uni S → Prop) (h0 : I u0)
    (hI : ∀ i, ∀ b ∈ L i, ∀ u, Unlocked u.env → I u → ∃ w, (b.prog key cfg n (fun _ => none)).run u = .ok ((), w) ∧ Unlocked w.env ∧ I w)
    (s : Sys S ι) (hr : Run waits (startSys key cfg n u0.env.tbl u0.fl (fun i => Script.each m (L i))) s) :
    (∀ l, s.poisoned l = false) ∧ (∀ i p, (s.th i).prog ≠ .fail p) ∧
    ∃ (order : List (ι × Script S)) (u : Uni S), Serially key cfg n u0 (order.map (·.2)) u ∧ I u ∧
      (∀ i, doneBy order i <+: L i ∧ ((s.th i).prog = .ret () → doneBy order i = L i ∧ (s.th i).held = [])) ∧
      ((∀ i, (.tbl m, .wr) ∉ (s.th i).held) → s.tbl = u.env.tbl ∧ s.fl = u.fl) := by
  obtain ⟨order, u, a1, a2, a3, a4, a5, a6⟩ := C84_serial m L hL u0 hu ht waits n s hr
  have hmem : ∀ b ∈ order.map (·.2), ∃ i, b ∈ L i := by
    intro b hb
    obtain ⟨⟨i, b'⟩, h1, rfl⟩ := List.mem_map.1 hb
    exact ⟨i, (a3 i).1.subset (List.mem_map.2 ⟨(i, b'), List.mem_filter.2 ⟨h1, by simp⟩, rfl⟩)⟩
  have main : ∀ {l v}, Serially key cfg n u0 l v → (∀ b ∈ l, ∃ i, b ∈ L i) → Unlocked v.env ∧ I v := by
    intro l v h
    induction h with
    | nil => exact fun _ => ⟨hu, h0⟩
    | @snoc l b v w _ hb ih =>
      intro hl
      obtain ⟨h1, h2⟩ := ih (fun b h => hl b (List.mem_append_left _ h))
      obtain ⟨i, hi⟩ := hl b (by simp)
      obtain ⟨w', e, h3, h4⟩ := hI i b hi v h1 h2
      rw [hb] at e
      injection e with e; injection e with _ e; subst e
      exact ⟨h3, h4⟩
  have hIu := (main a1 hmem).2
  have nofail : ∀ {i b p}, doneBy order i ++ [b] <+: L i → (b.prog key cfg n (fun _ => none)).run u ≠ .error p := by
    intro i b p hb e
    obtain ⟨w, hw, -⟩ := hI i b (hb.subset (by simp)) u a2 hIu
    rw [hw] at e; cases e
  have hpo : ∀ l, s.poisoned l = false := by
    intro l
    by_contra hl
    obtain ⟨i, b, p, h1, -, h2⟩ := a6 l (by simpa using hl)
    exact nofail h1 h2
  refine ⟨hpo, ?_, ?_⟩
  · intro i p hp
    rcases a5 i p hp with ⟨-, h⟩ | ⟨b, h1, h2⟩
    · rw [hpo] at h; cases h
    · exact nofail h1 h2
  · refine ⟨order, u, a1, hIu, a3, fun hf => ?_⟩
    obtain ⟨h1, h2, -⟩ := a4 hf (hpo _)
    exact ⟨h1, h2⟩

/-- C84: in particular references: if every piece of work, done alone, is a history of steps that respect references (C30), then
no interleaving of them leaves a dangling reference, although that of two plain deletions and insertions does (C48). -/
theorem C84_integrity (hst : Standard cfg) (hac : Acyclic cfg rank) (hsr : SortsByRef cfg key) {n : Nat} (hn : ∀ t, rank t < n)
    (m : T) (L : ι → List (Script S)) (hL : ∀ i, ∀ b ∈ L i, b.Work m) (u0 : Uni S) (hu : Unlocked u0.env)
    (hrd : Ready key cfg u0.env.tbl) (hi : Integrity cfg u0.env.tbl) (waits : Sys S ι → ι → Prop)
    (hH : ∀ i, ∀ b ∈ L i, ∀ u w, Unlocked u.env → Ready key cfg u.env.tbl → Integrity cfg u.env.tbl →
      (b.prog key cfg n (fun _ => none)).run u = .ok ((), w) → History cfg n key u.env w.env)
    (s : Sys S ι) (hr : Run waits (startSys key cfg n u0.env.tbl u0.fl (fun i => Script.each m (L i))) s)
    (hf : ∀ i, (.tbl m, .wr) ∉ (s.th i).held) (hpo : s.poisoned (.tbl m) = false) : Ready key cfg s.tbl ∧ Integrity cfg s.tbl := by
  obtain ⟨order, u, a1, a2, a3, a4, a5, a6⟩ := C84_serial m L hL u0 hu (fun t => (hrd.reach t).weaken) waits n s hr
  have hmem : ∀ b ∈ order.map (·.2), ∃ i, b ∈ L i := by
    intro b hb
    obtain ⟨⟨i, b'⟩, h1, rfl⟩ := List.mem_map.1 hb
    exact ⟨i, (a3 i).1.subset (List.mem_map.2 ⟨(i, b'), List.mem_filter.2 ⟨h1, by simp⟩, rfl⟩)⟩
  have main : ∀ {l v}, Serially key cfg n u0 l v → (∀ b ∈ l, ∃ i, b ∈ L i) → Unlocked v.env ∧ Ready key cfg v.env.tbl ∧ Integrity cfg v.env.tbl := by
    intro l v h
    induction h with
    | nil => exact fun _ => ⟨hu, hrd, hi⟩
    | @snoc l b v w _ hb ih =>
      intro hl
      obtain ⟨h1, h2, h3⟩ := ih (fun b h => hl b (List.mem_append_left _ h))
      obtain ⟨i, hi⟩ := hl b (by simp)
      exact C30_integrity_always hst hac hsr hn h1 h2 h3 (hH i b hi v w h1 h2 h3 hb)
  obtain ⟨h1, -⟩ := a4 hf hpo
  rw [h1]
  exact (main a1 hmem).2

/-! ### It ends -/

/-- The script asks only for guards of tables ranked below `m`. -/
def Script.Below (rank : T → Nat) (m : T) : Script S → Prop
  | .done => True
  | .write t k => rank t < rank m ∧ k.Below rank m
  | .call _ _ k => k.Below rank m
  | .look _ k => ∀ x, (k x).Below rank m
  | .flush _ _ k => k.Below rank m
  | .liveFlush _ _ k => k.Below rank m
  | .restore _ _ _ _ _ k => k.Below rank m
  | .close _ k => k.Below rank m
  | .read t k => rank t < rank m ∧ k.Below rank m
  | .unread _ k => k.Below rank m
  | .select _ _ _ k => k.Below rank m
  | .tryWrite t yes no => rank t < rank m ∧ yes.Below rank m ∧ ∀ e, (no e).Below rank m
  | .tryRead t yes no => rank t < rank m ∧ yes.Below rank m ∧ ∀ e, (no e).Below rank m

theorem Script.Below.spares {m : T} (b : Script S) (h : b.Below rank m) : b.Spares m := by
  induction b with
  | done => trivial
  | write t k ih => exact ⟨fun e => by subst e; exact absurd h.1 (lt_irrefl _), ih h.2⟩
  | call t op k ih => exact ih h
  | look t k ih => exact fun x => ih x (h x)
  | flush t ev k ih => exact ih h
  | liveFlush t ev k ih => exact ih h
  | restore t sig own x ev k ih => exact ih h
  | close t k ih => exact ih h
  | read t k ih => exact ⟨fun e => by subst e; exact absurd h.1 (lt_irrefl _), ih h.2⟩
  | unread t k ih => exact ih h
  | select t ev sel k ih => exact ih h
  | tryWrite t yes no ih1 ih2 => exact ⟨fun e => by subst e; exact absurd h.1 (lt_irrefl _), ih1 h.2.1, fun e => ih2 e (h.2.2 e)⟩
  | tryRead t yes no ih1 ih2 => exact ⟨fun e => by subst e; exact absurd h.1 (lt_irrefl _), ih1 h.2.1, fun e => ih2 e (h.2.2 e)⟩

theorem Orderly.guardedTo (b : Script S) (h : List (T × Mode)) (hb : Orderly rank live h b) : GuardedTo (fun h => h = []) h b := by
  induction b generalizing h with
  | done => exact hb
  | write t k ih => exact ih _ hb.2
  | call t op k ih => exact ⟨hb.1, hb.2.1, ih _ hb.2.2⟩
  | look t k ih => exact ⟨hb.1, fun x => ih x _ (hb.2 x)⟩
  | flush t ev k ih => exact ⟨hb.1, ih _ hb.2.2⟩
  | liveFlush t ev k ih => exact ⟨hb.1, ih _ hb.2.2.2⟩
  | restore t sig own x ev k ih => exact ⟨hb.1, ih _ hb.2.2.2.2⟩
  | close t k ih => exact ⟨hb.1, ih _ hb.2⟩
  | read t k ih => exact ih _ hb.2
  | unread t k ih => exact ⟨hb.1, ih _ hb.2⟩
  | select t ev sel k ih => exact ⟨hb.1, ih _ hb.2.2⟩
  | tryWrite t yes no ih1 ih2 => exact ⟨ih1 _ hb.1, fun e => ih2 e _ (hb.2 e)⟩
  | tryRead t yes no ih1 ih2 => exact ⟨ih1 _ hb.1, fun e => ih2 e _ (hb.2 e)⟩

theorem orderly_work {m : T} {b : Script S} (ho : Orderly rank live [] b) (hb : b.Below rank m) : b.Work m :=
  ⟨ho.guardedTo b [], hb.spares b⟩

theorem orderly_andThen {m : T} {k : Script S} (hk : Orderly rank live [] k) (b : Script S) (h : List (T × Mode))
    (hh : ∀ x ∈ h, rank x.1 < rank m) (ho : Orderly rank live h b) (hb : b.Below rank m) :
    Orderly rank live (h ++ [(m, .wr)]) (b.andThen (.close m k)) := by
  have mem : ∀ {h : List (T × Mode)} {x : T × Mode}, x ∈ h → x ∈ h ++ [(m, Mode.wr)] := fun hx => List.mem_append_left _ hx
  have er : ∀ {h : List (T × Mode)} {x : T × Mode}, x ∈ h → (h ++ [(m, Mode.wr)]).erase x = h.erase x ++ [(m, Mode.wr)] :=
    fun hx => List.erase_append_left _ hx
  have all : ∀ {h : List (T × Mode)} {t : T}, rank t < rank m → (∀ x ∈ h, rank t < rank x.1) →
      ∀ x ∈ h ++ [(m, Mode.wr)], rank t < rank x.1 := by
    intro h t ht hh x hx
    rcases List.mem_append.1 hx with hx | hx
    · exact hh x hx
    · rw [List.mem_singleton.1 hx]; exact ht
  have ers : ∀ {h : List (T × Mode)} {y : T × Mode}, (∀ x ∈ h, rank x.1 < rank m) → ∀ x ∈ h.erase y, rank x.1 < rank m :=
    fun hh x hx => hh x (List.mem_of_mem_erase hx)
  have cn : ∀ {h : List (T × Mode)} {t : T} {md : Mode}, rank t < rank m → (∀ x ∈ h, rank x.1 < rank m) →
      ∀ x ∈ (t, md) :: h, rank x.1 < rank m := by
    intro h t md ht hh x hx
    rcases List.mem_cons.1 hx with rfl | hx
    · exact ht
    · exact hh x hx
  induction b generalizing h with
  | done =>
    have : h = [] := ho
    subst this
    exact ⟨by simp, by simpa using hk⟩
  | write t b ih => exact ⟨all hb.1 ho.1, ih _ (cn hb.1 hh) ho.2 hb.2⟩
  | call t op b ih => exact ⟨mem ho.1, ho.2.1, ih _ hh ho.2.2 hb⟩
  | look t b ih => exact ⟨⟨ho.1.choose, mem ho.1.choose_spec⟩, fun x => ih x _ hh (ho.2 x) (hb x)⟩
  | flush t ev b ih =>
    refine ⟨mem ho.1, ?_, ?_⟩
    · rw [er ho.1]; exact all (hh _ ho.1) ho.2.1
    · rw [er ho.1]; exact ih _ (ers hh) ho.2.2 hb
  | liveFlush t ev b ih =>
    refine ⟨mem ho.1, ho.2.1, ?_, ih _ hh ho.2.2.2 hb⟩
    rw [er ho.1]; exact all (hh _ ho.1) ho.2.2.1
  | restore t sig own x ev b ih =>
    refine ⟨mem ho.1, ho.2.1, ho.2.2.1, ?_, ?_⟩
    · rw [er ho.1]; exact all (hh _ ho.1) ho.2.2.2.1
    · rw [er ho.1]; exact ih _ (ers hh) ho.2.2.2.2 hb
  | close t b ih =>
    refine ⟨mem ho.1, ?_⟩
    rw [er ho.1]; exact ih _ (ers hh) ho.2 hb
  | read t b ih => exact ⟨all hb.1 ho.1, ih _ (cn hb.1 hh) ho.2 hb.2⟩
  | unread t b ih =>
    refine ⟨mem ho.1, ?_⟩
    rw [er ho.1]; exact ih _ (ers hh) ho.2 hb
  | select t ev sel b ih =>
    refine ⟨mem ho.1, ?_, ?_⟩
    · rw [er ho.1]; exact all (hh _ ho.1) ho.2.1
    · rw [er ho.1]; exact ih _ (ers hh) ho.2.2 hb
  | tryWrite t yes no ih1 ih2 => exact ⟨ih1 _ (cn hb.1 hh) ho.1 hb.2.1, fun e => ih2 e _ hh (ho.2 e) (hb.2.2 e)⟩
  | tryRead t yes no ih1 ih2 => exact ⟨ih1 _ (cn hb.1 hh) ho.1 hb.2.1, fun e => ih2 e _ hh (ho.2 e) (hb.2.2 e)⟩

theorem orderly_each {m : T} (L : List (Script S)) (hL : ∀ b ∈ L, Orderly rank live [] b ∧ b.Below rank m) :
    Orderly rank live [] (Script.each m L) := by
  induction L with
  | nil => rfl
  | cons b L ih =>
    refine ⟨fun x h => by (cases h), ?_⟩
    have hb := hL b List.mem_cons_self
    exact orderly_andThen (ih (fun b h => hL b (List.mem_cons_of_mem _ h))) b [] (fun x h => by (cases h)) hb.1 hb.2

/-- C84: if the pieces of work also take their locks in order, and the mutex before all others, nobody waits for ever: whatever
has happened, all threads can be finished (and every schedule ends, C63); and if each piece returns when done alone, all of the
work has been done then, in some order. -/
theorem C84_completes [Fintype ι] (hac : Acyclic cfg rank) (m : T) (L : ι → List (Script S))
    (hL : ∀ i, ∀ b ∈ L i, Orderly rank live [] b ∧ b.Below rank m) (u0 : Uni S) (hu : Unlocked u0.env)
    (ht : ∀ t, Reach (key t) false (u0.env.tbl t)) (hfl : ∀ t, (u0.fl t).leaked = 0 ∧ (live t = true → (u0.fl t).remapped = []))
    (waits : Sys S ι → ι → Prop) (hw : MayWait waits) (n : Nat) (I : Uni S → Prop) (h0 : I u0)
    (hI : ∀ i, ∀ b ∈ L i, ∀ u, Unlocked u.env → I u → ∃ w, (b.prog key cfg n (fun _ => none)).run u = .ok ((), w) ∧ Unlocked w.env ∧ I w)
    (s : Sys S ι) (hr : Run waits (startSys key cfg n u0.env.tbl u0.fl (fun i => Script.each m (L i))) s) :
    ∃ s' order u, Run waits s s' ∧ (∀ i, (s'.th i).prog = .ret ()) ∧ Serially key cfg n u0 (order.map (·.2)) u ∧
      (∀ i, doneBy order i = L i) ∧ s'.tbl = u.env.tbl ∧ s'.fl = u.fl ∧ I u := by
  have hW : ∀ i, ∀ b ∈ L i, b.Work m := fun i b hb => orderly_work (hL i b hb).1 (hL i b hb).2
  obtain ⟨s', hr', hfin⟩ := C63_completes (live := live) hac _ (fun i => orderly_each (L i) (hL i)) u0.env.tbl u0.fl hfl waits hw n s hr
  have hrr := Run.trans hr hr'
  obtain ⟨b1, b2, order, u, a1, a2, a3, a4⟩ := C84_invariant m L hW u0 hu ht waits n I h0 hI s' hrr
  have hret : ∀ i, (s'.th i).prog = .ret () := by
    intro i
    rcases hfin i with h | ⟨⟨p, h⟩, -⟩
    · exact h
    · exact (b2 i p h).elim
  obtain ⟨h1, h2⟩ := a4 (fun i hi => by rw [((a3 i).2 (hret i)).2] at hi; cases hi)
  exact ⟨s', order, u, hr', hret, a1, fun i => ((a3 i).2 (hret i)).1, h1, h2, a2⟩

/-! ### An example: children are added and parents removed by any number of threads -/

/-- `write; push; flush` on a universe in which everything referenced is there, when there is room. -/
theorem Sound.push (hst : Standard cfg) (hac : Acyclic cfg rank) (hsr : SortsByRef cfg key) {n : Nat} {env : Env S}
    (h : Sound key cfg env) {t : T} (hn : rank t < n) (hk : (S t).kind ≠ .sorted) {row : Row (S t)} {ev : Event} (hrem : ev.isRemoval = false)
    (hh : cfg.handlers[ev.id]? = some .null) (hs : RefsLive cfg env.tbl row) (hroom : (env.tbl t).len < (S t).max) :
    ∃ env', session cfg n key t [.push row] ev env = .ok env' ∧ Sound key cfg env' := by
  obtain ⟨w, i, c1, c2, c3, -, c5⟩ := push_one (key := key t) (w := W.lock (env.tbl t)) hk (h.ready.reach t) row (le_of_lt hroom)
  have hst' : (W.lock (env.tbl t)).steps (key t) [.push row] = .ok w := by
    unfold W.steps
    rw [List.foldlM_cons]
    have : W.step (key t) (W.lock (env.tbl t)) (.push row) = .ok w := by
      unfold W.step; simp only []; rw [c1, okBind]
    rw [this, okBind]; rfl
  obtain ⟨env1, a1, a2, a3, a4⟩ := unlocked_lock h.unlocked t
  have hpd : (w.pushed && w.delete) = false := by rw [c5.delete]; simp [W.lock]
  have hrd : Ready key cfg (Function.update env1.tbl t w.tbl) := by
    rw [a3]
    refine ⟨?_, ?_, ?_⟩
    · intro q
      by_cases e : q = t
      · subst e; simpa using c2
      · rw [Function.update_of_ne e]; exact h.ready.reach q
    · intro q
      by_cases e : q = t
      · subst e; rw [Function.update_self]
        have : (W.lock (env.tbl q)).tbl.len = (env.tbl q).len := rfl
        omega
      · rw [Function.update_of_ne e]; exact h.ready.room q
    · intro p fk hfk hb L hL
      have : fk.child ≠ t := by rintro rfl; exact hk (hst.sorted p fk hfk hb)
      rw [Function.update_of_ne this] at hL
      exact h.ready.inOrder p fk hfk hb L hL
  obtain ⟨env', b1, b2⟩ := C31_creation_returns (key := key) ⟨hst.sorted, hst.indexed⟩ hac hrem hh hn a2 hrd hpd
  have hrun : session cfg n key t [.push row] ev env = .ok env' := by
    unfold session
    rw [a1, okBind]
    simp only []
    rw [hst', okBind, b1]
  refine ⟨env', hrun, h.grow hst hac hsr hn hrem hh (by simp [LOp.Allowed, hk]) (by simpa [Safe] using hs) ?_ hrun⟩
  intro w' hw'
  rw [hst'] at hw'; injection hw' with hw'; subst hw'
  have : (W.lock (env.tbl t)).tbl.len = (env.tbl t).len := rfl
  omega

/-- `let x = t::read(universe); …look at x…; drop(x);` -/
def Script.glance (t : T) (k : Tbl (S t) → Script S) : Script S := .read t (.look t fun x => .unread t (k x))

theorem run_glance {n : Nat} (t : T) (k : Tbl (S t) → Script S) (u : Uni S) (hu : Unlocked u.env) :
    ((Script.glance t k).prog key cfg n (fun _ => none)).run u = ((k (u.env.tbl t)).prog key cfg n (fun _ => none)).run u := by
  show (Prog.acq (.tbl t) .rd (.get t fun x => .rel (.tbl t) .rd ((k x).prog key cfg n (fun _ => none)))).run u = _
  conv_lhs => unfold Prog.run
  rw [if_neg (by rw [hu.2]; simp)]
  conv_lhs => unfold Prog.run
  conv_lhs => unfold Prog.run
  congr 1
  obtain ⟨⟨tbl, reads, writer, log⟩, fl⟩ := u
  simp only [Env.releaseRead, Function.update_self, Nat.add_sub_cancel, Function.update_idem, Function.update_eq_self]

/-- Table 2 of the demo universe is the mutex here; nothing depends on it and it depends on nothing. -/
def muCfg : Cfg UniS where
  trackers
    | 0 => [.observer uniObs, .auto uniFK01]
    | _ => []
  handlers := [.panicking, .null, .delete]

theorem muIsFK {p : Fin 3} {fk : FK UniS} : IsFK muCfg p fk ↔ p = 0 ∧ fk = uniFK01 := by
  unfold IsFK muCfg
  match p with
  | 0 => simp
  | 1 => simp
  | 2 => simp

def muRank : Fin 3 → Nat
  | 0 => 1
  | 1 => 0
  | 2 => 2

theorem muAcyclic : Acyclic muCfg muRank := by
  intro p fk h
  obtain ⟨rfl, rfl⟩ := muIsFK.1 h
  decide

theorem muStandard : Standard muCfg where
  parent p h := by
    match p with
    | 0 => rfl
    | 1 => exact absurd rfl h
    | 2 => exact absurd rfl h
  child p fk h := by obtain ⟨rfl, rfl⟩ := muIsFK.1 h; exact Or.inl rfl
  sorted p fk h hb := by obtain ⟨rfl, rfl⟩ := muIsFK.1 h; cases hb
  indexed p fk h hb := by obtain ⟨rfl, rfl⟩ := muIsFK.1 h; rfl

theorem muSorts : SortsByRef muCfg uniKey := by
  intro p fk h hb
  obtain ⟨rfl, rfl⟩ := muIsFK.1 h
  cases hb

/-- Adds a child of parent `p`, if that exists and there is room. -/
def addChild (p v : Nat) : Script UniS :=
  .glance 0 fun x => if x.contains p then
    .glance 1 fun y => if y.len < 255 then .write 1 (Script.session 1 evCreate .done [.push (uniRow 1 p v)]) else .done
  else .done

/-- Removes parent `p`, if it exists, and with it all its children. -/
def removeParent (p : Nat) : Script UniS :=
  .glance 0 fun x => if x.contains p then .write 0 (Script.session 0 evDelete .done ([p].map .delete)) else .done

theorem addChild_ok (p v : Nat) : Orderly muRank (fun _ => false) [] (addChild p v) ∧ (addChild p v).Below muRank 2 := by
  have h0 : muRank 0 < muRank 2 := by decide
  have h1 : muRank 1 < muRank 2 := by decide
  constructor
  · refine ⟨by simp, ⟨.rd, by simp⟩, fun x => ⟨by simp, ?_⟩⟩
    beta_reduce
    by_cases e : x.contains p = true
    · rw [if_pos e]
      refine ⟨by simp, ⟨.rd, by simp⟩, fun y => ⟨by simp, ?_⟩⟩
      beta_reduce
      by_cases e : y.len < 255
      · rw [if_pos e]
        exact ⟨by simp, by simp, by simp [LOp.Allowed], by simp, by simp, by simp [Orderly]⟩
      · rw [if_neg e]; simp [Orderly]
    · rw [if_neg e]; simp [Orderly]
  · refine ⟨h0, fun x => ?_⟩
    show Script.Below muRank 2 (if x.contains p = true then _ else _)
    by_cases e : x.contains p = true
    · rw [if_pos e]
      refine ⟨h1, fun y => ?_⟩
      show Script.Below muRank 2 (if y.len < 255 then _ else _)
      by_cases e : y.len < 255
      · rw [if_pos e]; exact ⟨h1, trivial⟩
      · rw [if_neg e]; trivial
    · rw [if_neg e]; trivial

theorem removeParent_ok (p : Nat) : Orderly muRank (fun _ => false) [] (removeParent p) ∧ (removeParent p).Below muRank 2 := by
  have h0 : muRank 0 < muRank 2 := by decide
  constructor
  · refine ⟨by simp, ⟨.rd, by simp⟩, fun x => ⟨by simp, ?_⟩⟩
    beta_reduce
    by_cases e : x.contains p = true
    · rw [if_pos e]
      exact ⟨by simp, by simp, by simp [LOp.Allowed], by simp, by simp, by simp [Orderly]⟩
    · rw [if_neg e]; simp [Orderly]
  · refine ⟨h0, fun x => ?_⟩
    show Script.Below muRank 2 (if x.contains p = true then _ else _)
    by_cases e : x.contains p = true
    · rw [if_pos e]; exact ⟨h0, trivial⟩
    · rw [if_neg e]; trivial

theorem addChild_keeps (p v : Nat) (u : Uni UniS) (h : Sound uniKey muCfg u.env) :
    ∃ w, ((addChild p v).prog uniKey muCfg 3 (fun _ => none)).run u = .ok ((), w) ∧ Sound uniKey muCfg w.env := by
  unfold addChild
  rw [run_glance _ _ _ h.unlocked]
  by_cases e : (u.env.tbl 0).contains p = true
  · rw [if_pos e, run_glance _ _ _ h.unlocked]
    by_cases e' : (u.env.tbl 1).len < 255
    · rw [if_pos e', C64_session_alone]
      obtain ⟨env', a, b⟩ := h.push muStandard muAcyclic muSorts (rank := muRank) (n := 3) (t := 1) (by decide) (by decide)
        (row := uniRow 1 p v) (ev := evCreate) rfl rfl (by
          rintro q fk k hfk ⟨e1, hk⟩
          obtain ⟨rfl, rfl⟩ := muIsFK.1 hfk
          subst hk
          exact e) e'
      rw [a, okBind]
      exact ⟨_, rfl, b⟩
    · rw [if_neg e']; exact ⟨u, rfl, h⟩
  · rw [if_neg e]; exact ⟨u, rfl, h⟩

theorem removeParent_keeps (p : Nat) (u : Uni UniS) (h : Sound uniKey muCfg u.env) :
    ∃ w, ((removeParent p).prog uniKey muCfg 3 (fun _ => none)).run u = .ok ((), w) ∧ Sound uniKey muCfg w.env := by
  unfold removeParent
  rw [run_glance _ _ _ h.unlocked]
  by_cases e : (u.env.tbl 0).contains p = true
  · rw [if_pos e, C64_session_alone]
    obtain ⟨env', c1, c2, c3, c4⟩ := C29_cascade_exact (key := uniKey) muStandard muAcyclic (ev := evDelete) rfl rfl rfl (n := 3) (p := 0)
      (by decide) rfl h.unlocked h.ready [p] (by simpa using e) (fun _ => by simp)
    rw [c1, okBind]
    exact ⟨_, rfl, c2, c3, c4.integrity muStandard h.ready c3 h.integrity⟩
  · rw [if_neg e]; exact ⟨u, rfl, h⟩

/-- C84 in use: any number of threads, each with any list of additions of children and removals of parents, done under the mutex. In
every schedule nobody panics, there is never a dangling reference while nobody has the mutex, and all can always be finished. -/
theorem C84_example [Fintype ι] (L : ι → List (Nat × Option Nat)) (waits : Sys UniS ι → ι → Prop) (hw : MayWait waits) (u0 : Uni UniS)
    (h0 : Sound uniKey muCfg u0.env) (hfl : ∀ t, (u0.fl t).leaked = 0) (s : Sys UniS ι)
    (hr : Run waits (startSys uniKey muCfg 3 u0.env.tbl u0.fl (fun i => Script.each 2 ((L i).map fun x =>
      match x.2 with | some v => addChild x.1 v | none => removeParent x.1))) s) :
    (∀ i p, (s.th i).prog ≠ .fail p) ∧ ((∀ i, (.tbl 2, .wr) ∉ (s.th i).held) → Integrity muCfg s.tbl) ∧
    ∃ s', Run waits s s' ∧ (∀ i, (s'.th i).prog = .ret ()) ∧ Integrity muCfg s'.tbl := by
  have ht : ∀ t, Reach (uniKey t) false (u0.env.tbl t) := fun t => (h0.ready.reach t).weaken
  have hO : ∀ i, ∀ b ∈ (L i).map (fun x : Nat × Option Nat => match x.2 with | some v => addChild x.1 v | none => removeParent x.1),
      Orderly muRank (fun _ => false) [] b ∧ b.Below muRank 2 := by
    intro i b hb
    obtain ⟨⟨p, x⟩, -, rfl⟩ := List.mem_map.1 hb
    cases x with
    | some v => exact addChild_ok p v
    | none => exact removeParent_ok p
  have hI : ∀ i, ∀ b ∈ (L i).map (fun x : Nat × Option Nat => match x.2 with | some v => addChild x.1 v | none => removeParent x.1),
      ∀ u, Unlocked u.env → Sound uniKey muCfg u.env →
        ∃ w, (b.prog uniKey muCfg 3 (fun _ => none)).run u = .ok ((), w) ∧ Unlocked w.env ∧ Sound uniKey muCfg w.env := by
    intro i b hb u _ hu
    obtain ⟨⟨p, x⟩, -, rfl⟩ := List.mem_map.1 hb
    cases x with
    | some v => obtain ⟨w, a, b⟩ := addChild_keeps p v u hu; exact ⟨w, a, b.unlocked, b⟩
    | none => obtain ⟨w, a, b⟩ := removeParent_keeps p u hu; exact ⟨w, a, b.unlocked, b⟩
  obtain ⟨-, b2, order, u, -, b3, -, b4⟩ := C84_invariant 2 _ (fun i b hb => orderly_work (hO i b hb).1 (hO i b hb).2) u0 h0.unlocked ht waits 3
    (fun u => Sound uniKey muCfg u.env) h0 hI s hr
  obtain ⟨s', -, u', c1, c2, -, -, c3, -, c4⟩ := C84_completes (live := fun _ => false) muAcyclic 2 _ hO u0 h0.unlocked ht
    (fun t => ⟨hfl t, fun h => by cases h⟩) waits hw 3 (fun u => Sound uniKey muCfg u.env) h0 hI s hr
  exact ⟨b2, fun h => by rw [(b4 h).1]; exact b3.integrity, s', c1, c2, by rw [c3]; exact c4.integrity⟩

/-- The demo universe is such a universe, and the pieces of work do something in it. -/
theorem muSound : Sound uniKey muCfg uniEnv where
  unlocked := uniUnlocked
  ready := ⟨uniReady.reach, uniReady.room, fun p fk h hb => by obtain ⟨rfl, rfl⟩ := muIsFK.1 h; cases hb⟩
  integrity := by
    intro p fk i r h hv
    obtain ⟨rfl, rfl⟩ := muIsFK.1 h
    obtain ⟨L, hL⟩ := (uniTbl_reach 1).wf
    have hi : i < 4 := by
      have h1 := ((hL.view_iff i r).1 hv).1
      have h2 : i < L.length := (List.getElem?_eq_some_iff.1 h1).1
      rw [← hL.len] at h2
      exact h2
    have hval : ((uniTbl 1).view i).map uniVals = some (uniFK01.ref r, r 1) := by rw [show (uniTbl 1).view i = some r from hv]; rfl
    have hall : ∀ i : Fin 4, ∀ a, ((uniTbl 1).view i).map uniVals = some a → (uniTbl 0).contains a.1 = true := by
      intro i a ha
      have : ∀ i : Fin 4, (match ((uniTbl 1).view i).map uniVals with | some a => (uniTbl 0).contains a.1 | none => true) = true := by decide
      have := this i
      rw [ha] at this
      exact this
    exact hall ⟨i, hi⟩ _ hval

/-- What is in the demo universe after these pieces of work: parent 0 goes with its children 0 and 1, a child of
parent 1 is added in the place of one of them, a child of parent 0 is not. -/
example : ((do let (_, u) ← ((removeParent 0).prog uniKey muCfg 3 (fun _ => none)).run ⟨uniEnv, fun _ => .new⟩
               let (_, u) ← ((addChild 1 99).prog uniKey muCfg 3 (fun _ => none)).run u
               let (_, u) ← ((addChild 0 98).prog uniKey muCfg 3 (fun _ => none)).run u
               .ok (uniView (u.env.tbl 0) 4, uniView (u.env.tbl 1) 5)) : R _) =
    .ok ([none, some (11, 0), some (12, 0), none], [some (1, 99), none, some (2, 22), none, none]) := by decide

/-- And with two threads that do one of them each: both orders are possible (C84 applies), and nothing else. -/
example (waits : Sys UniS Bool → Bool → Prop) (hw : MayWait waits) :
    ∃ s, Run waits (startSys uniKey muCfg 3 uniTbl (fun _ => .new) (fun i => Script.each 2 ((if i then [(0, none)] else [(0, some 98)] :
      List (Nat × Option Nat)).map fun x => match x.2 with | some v => addChild x.1 v | none => removeParent x.1))) s ∧
      (∀ i, (s.th i).prog = .ret ()) ∧ Integrity muCfg s.tbl := by
  obtain ⟨-, -, s', h1, h2, h3⟩ := C84_example (ι := Bool) (fun i => if i then [(0, none)] else [(0, some 98)]) waits hw
    ⟨uniEnv, fun _ => .new⟩ muSound (fun _ => rfl) _ Run.start
  exact ⟨s', h1, h2, h3⟩

/-! ### Without it -/

/-- Adds a child of parent `p`, if that exists; the parent's table is read-locked all the while. -/
def carefulAdd (p v : Nat) : Script UniS :=
  .read 0 (.look 0 fun x => if x.contains p then .write 1 (Script.session 1 evCreate (.unread 0 .done) [.push (uniRow 1 p v)])
    else .unread 0 .done)

/-- Removes parent `p` and with it all its children. -/
def plainRemove (p : Nat) : Script UniS := .write 0 (Script.session 0 evDelete .done ([p].map .delete))

theorem carefulAdd_orderly (p v : Nat) : Orderly muRank (fun _ => false) [] (carefulAdd p v) := by
  refine ⟨by simp, ⟨.rd, by simp⟩, fun x => ?_⟩
  beta_reduce
  by_cases e : x.contains p = true
  · rw [if_pos e]
    exact ⟨by simp [muRank], by simp, by simp [LOp.Allowed], by simp, by simp [muRank], by simp, by simp [Orderly]⟩
  · rw [if_neg e]; simp [Orderly]

theorem plainRemove_orderly (p : Nat) : Orderly muRank (fun _ => false) [] (plainRemove p) :=
  ⟨by simp, by simp, by simp [LOp.Allowed], by simp, by simp, by simp [Orderly]⟩

/-- Whether a thread has returned. -/
def Prog.returned {α : Type} : Prog S α → Bool
  | .ret _ => true
  | _ => false

/-- C48 among threads, whatever the policy of the locks: one thread deletes a parent and flushes, another adds a child of that parent while it
has the table of the parents locked for reading and has seen that the parent is there. Both take their locks in order, both
return, and there is a child whose parent is gone. (Under a mutex this cannot happen, C84.) -/
theorem C48_schedule (waits : Sys UniS Bool → Bool → Prop) (hw : MayWait waits) :
    ∃ s, Run waits (startSys uniKey muCfg 3 uniTbl (fun _ => .new) (pair (carefulAdd 0 98) (plainRemove 0))) s ∧
      (∀ i, (s.th i).prog = .ret ()) ∧ ((s.tbl 1).view 0).map uniVals = some (0, 98) ∧ (s.tbl 0).contains 0 = false ∧ ¬ Integrity muCfg s.tbl := by
  have key : ∃ s, (startSys uniKey muCfg 3 uniTbl (fun _ => .new) (pair (carefulAdd 0 98) (plainRemove 0)) : Sys UniS Bool).exec
      (List.replicate 23 true ++ List.replicate 9 false ++ List.replicate 5 true) = some s ∧
      ((s.th false).prog.returned = true ∧ (s.th true).prog.returned = true ∧ ((s.tbl 1).view 0).map uniVals = some (0, 98) ∧
        (s.tbl 0).contains 0 = false) := by
    have : ((startSys uniKey muCfg 3 uniTbl (fun _ => .new) (pair (carefulAdd 0 98) (plainRemove 0)) : Sys UniS Bool).exec
      (List.replicate 23 true ++ List.replicate 9 false ++ List.replicate 5 true)).any (fun s =>
      decide ((s.th false).prog.returned = true ∧ (s.th true).prog.returned = true ∧ ((s.tbl 1).view 0).map uniVals = some (0, 98) ∧
        (s.tbl 0).contains 0 = false)) = true := by decide
    rw [Option.any_eq_true_iff_get] at this
    obtain ⟨h, h'⟩ := this
    exact ⟨_, (Option.some_get h).symm, of_decide_eq_true h'⟩
  obtain ⟨s, he, h1, h2, h3, h4⟩ := key
  have ret : ∀ i, (s.th i).prog.returned = true → (s.th i).prog = .ret () := by
    intro i h
    cases e : (s.th i).prog <;> rw [e] at h <;> first | rfl | cases h
  refine ⟨s, exec_run hw _ he, ?_, h3, h4, ?_⟩
  · intro i; cases i
    · exact ret _ h1
    · exact ret _ h2
  · intro hi
    cases hv : (s.tbl 1).view 0 with
    | none => rw [hv] at h3; cases h3
    | some r =>
      rw [hv] at h3
      have := hi 0 uniFK01 0 r (muIsFK.2 ⟨rfl, rfl⟩) hv
      have hr : uniFK01.ref r = 0 := congrArg (fun x => (x.getD (0, 0)).1) h3
      rw [hr, h4] at this; cases this

end V11
