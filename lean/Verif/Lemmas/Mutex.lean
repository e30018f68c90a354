import Verif.Lemmas.Guarded
import Verif.Spec.Mutex
import Verif.Spec.Cascade

/-!
# Threads that work under one lock work one after another
-/

set_option linter.unusedSectionVars false
set_option linter.unusedVariables false

namespace V11
variable {T : Type} [DecidableEq T] {S : T → Schema} [LS : ∀ t, LawfulSchema (S t)] {K : Type} [LinearOrder K]
  {key : (t : T) → Row (S t) → K} {cfg : Cfg S} {ι : Type} [DecidableEq ι]
open Sys

theorem Prog.bindAssoc {α β γ : Type} (p : Prog S α) (f : α → Prog S β) (g : β → Prog S γ) :
    (p.bind f).bind g = p.bind (fun a => (f a).bind g) := by
  induction p with
  | ret a => rfl
  | fail p => rfl
  | acq l m k ih => exact congrArg _ ih
  | att t m yes no ih1 ih2 => exact congrArg₂ _ ih1 (funext ih2)
  | rel l m k ih => exact congrArg _ ih
  | get t k ih => exact congrArg _ (funext ih)
  | put t y k ih => exact congrArg _ ih
  | getF t k ih => exact congrArg _ (funext ih)
  | putF t f k ih => exact congrArg _ ih
  | forget t k ih => exact congrArg _ ih
  | see p o ev rows k ih => exact congrArg _ ih

/-! ## The program of such a thread -/

/-- A script that does not have `m` does not care what is recorded for it. -/
theorem prog_spares {E : List (T × Mode) → Prop} {m : T} {n : Nat} (b : Script S) (h : List (T × Mode)) (hb : GuardedTo E h b) (hs : b.Spares m)
    (hm : ∀ md, (m, md) ∉ h) (o : Open S) (x : Option (W (S m))) :
    b.prog key cfg n (Function.update o m x) = b.prog key cfg n o := by
  have ne : ∀ {t md} {h : List (T × Mode)}, (∀ md, (m, md) ∉ h) → (t, md) ∈ h → t ≠ m := fun hm ht e => by subst e; exact hm _ ht
  have up : ∀ {t} (ht : t ≠ m) (o : Open S), Function.update o m x t = o t := fun ht o => Function.update_of_ne ht ..
  have sw : ∀ {t} (ht : t ≠ m) (o : Open S) (y : Option (W (S t))),
      Function.update (Function.update o m x) t y = Function.update (Function.update o t y) m x := fun ht o y => Function.update_comm ht.symm ..
  have er : ∀ {h : List (T × Mode)} (y : T × Mode), (∀ md, (m, md) ∉ h) → ∀ md, (m, md) ∉ h.erase y :=
    fun y hm md hx => hm md (List.mem_of_mem_erase hx)
  have cn : ∀ {h : List (T × Mode)} {t} {md0 : Mode}, t ≠ m → (∀ md, (m, md) ∉ h) → ∀ md, (m, md) ∉ (t, md0) :: h := by
    intro h t md0 ht hm md hx
    rcases List.mem_cons.1 hx with e | hx
    · injection e with e _; exact ht e.symm
    · exact hm md hx
  induction b generalizing h o with
  | done => rfl
  | write t k ih =>
    simp only [Script.prog]
    congr 1; funext w
    rw [sw hs.1]
    exact ih _ hb hs.2 (cn hs.1 hm) _
  | call t op k ih =>
    have ht := ne hm hb.1
    simp only [Script.prog, up ht]
    cases o t with
    | none => rfl
    | some w =>
      simp only []
      congr 1; funext w
      rw [sw ht]
      exact ih _ hb.2.2 hs hm _
  | look t k ih =>
    obtain ⟨md, hmd⟩ := hb.1
    have ht := ne hm hmd
    simp only [Script.prog, up ht]
    cases o t with
    | some w => exact ih _ _ (hb.2 _) (hs _) hm _
    | none => exact congrArg _ (funext fun y => ih _ _ (hb.2 _) (hs _) hm _)
  | flush t ev k ih =>
    have ht := ne hm hb.1
    simp only [Script.prog, up ht]
    cases o t with
    | none => rfl
    | some w =>
      simp only []
      congr 1; funext w
      rw [sw ht]
      exact ih _ hb.2 hs (er _ hm) _
  | liveFlush t ev k ih =>
    have ht := ne hm hb.1
    simp only [Script.prog, up ht]
    cases o t with
    | none => rfl
    | some w =>
      simp only []
      congr 1; funext w
      rw [sw ht]
      exact ih _ hb.2 hs hm _
  | restore t sig own y ev k ih =>
    have ht := ne hm hb.1
    simp only [Script.prog, up ht]
    cases o t with
    | none => rfl
    | some w =>
      simp only []
      congr 1; funext w
      rw [sw ht]
      exact ih _ hb.2 hs (er _ hm) _
  | close t k ih =>
    have ht := ne hm hb.1
    simp only [Script.prog, up ht]
    cases o t with
    | none => rfl
    | some w =>
      simp only []
      congr 1; funext w
      congr 1; funext w
      rw [sw ht]
      exact ih _ hb.2 hs (er _ hm) _
  | read t k ih =>
    simp only [Script.prog]
    congr 1; funext w
    exact ih _ hb hs.2 (cn hs.1 hm) _
  | unread t k ih =>
    simp only [Script.prog]
    congr 1; funext w
    exact ih _ hb.2 hs (er _ hm) _
  | select t ev sel k ih =>
    simp only [Script.prog]
    congr 1; funext w
    exact ih _ hb.2 hs (er _ hm) _
  | tryWrite t yes no ih1 ih2 =>
    simp only [Script.prog]
    congr 1
    · congr 1; funext w
      rw [sw hs.1]
      exact ih1 _ hb.1 hs.2.1 (cn hs.1 hm) _
    · funext e
      exact ih2 e _ (hb.2 e) (hs.2.2 e) hm _
  | tryRead t yes no ih1 ih2 =>
    simp only [Script.prog]
    congr 1
    · exact ih1 _ hb.1 hs.2.1 (cn hs.1 hm) _
    · funext e
      exact ih2 e _ (hb.2 e) (hs.2.2 e) hm _

/-- `b; k` where `b` drops the guards it takes. -/
theorem prog_andThen {n : Nat} (k : Script S) (o0 : Open S) (b : Script S) (h : List (T × Mode)) (hb : GuardedTo (fun h => h = []) h b)
    (o : Open S) (hd : ∀ t, (t, .wr) ∈ h → o0 t = none) (ho : ∀ t, (t, .wr) ∉ h → o t = o0 t) (hs : ∀ t, (∃ w, o0 t = some w) → b.Spares t) :
    (b.andThen k).prog key cfg n o = (b.prog key cfg n o).bind (fun _ => k.prog key cfg n o0) := by
  have set : ∀ {h : List (T × Mode)} {o : Open S} {t} (w : W (S t)), (t, .wr) ∈ h → (∀ t, (t, .wr) ∉ h → o t = o0 t) →
      ∀ t', (t', .wr) ∉ h → Function.update o t (some w) t' = o0 t' := by
    intro h o t w ht ho t' ht'
    have : t' ≠ t := by rintro rfl; exact ht' ht
    rw [Function.update_of_ne this]; exact ho t' ht'
  have put : ∀ {h : List (T × Mode)} {o : Open S} {t} (w : W (S t)), (∀ t, (t, .wr) ∉ h → o t = o0 t) →
      ∀ t', (t', .wr) ∉ (t, Mode.wr) :: h → Function.update o t (some w) t' = o0 t' := by
    intro h o t w ho t' ht'
    have : t' ≠ t := by rintro rfl; exact ht' List.mem_cons_self
    rw [Function.update_of_ne this]; exact ho t' (fun h => ht' (List.mem_cons_of_mem _ h))
  have del : ∀ {h : List (T × Mode)} {o : Open S} {t}, (t, .wr) ∈ h → (∀ t, (t, .wr) ∈ h → o0 t = none) → (∀ t, (t, .wr) ∉ h → o t = o0 t) →
      ∀ t', (t', .wr) ∉ h.erase (t, Mode.wr) → Function.update o t none t' = o0 t' := by
    intro h o t ht hd ho t' ht'
    by_cases e : t' = t
    · subst e; rw [Function.update_self]; exact (hd _ ht).symm
    · rw [Function.update_of_ne e]
      exact ho t' (fun h => ht' ((List.mem_erase_of_ne (fun he => e (congrArg Prod.fst he))).2 h))
  have er : ∀ {h : List (T × Mode)} (y : T × Mode), (∀ t, (t, .wr) ∈ h → o0 t = none) → ∀ t, (t, .wr) ∈ h.erase y → o0 t = none :=
    fun y hd t ht => hd t (List.mem_of_mem_erase ht)
  have dn : ∀ {t : T}, ((∃ w, o0 t = some w) → t ≠ t) → o0 t = none := by
    intro t ht
    cases e : o0 t with
    | none => rfl
    | some w => exact absurd rfl (ht ⟨w, e⟩)
  have erRd : ∀ {h : List (T × Mode)} {o : Open S} {t}, (∀ t, (t, .wr) ∉ h → o t = o0 t) →
      ∀ t', (t', .wr) ∉ h.erase (t, Mode.rd) → o t' = o0 t' := by
    intro h o t ho t' ht'
    exact ho t' (fun h => ht' ((List.mem_erase_of_ne (fun he => by injection he with _ he; cases he)).2 h))
  induction b generalizing h o with
  | done =>
    have hb : h = [] := hb
    subst hb
    have : o = o0 := funext fun t => ho t (by simp)
    subst this; rfl
  | write t b ih =>
    show Prog.bind (lockP t) _ = Prog.bind (Prog.bind (lockP t) _) _
    rw [Prog.bindAssoc]
    congr 1; funext w
    refine ih _ hb _ ?_ (put w ho) (fun t' ht' => (hs t' ht').2)
    intro t' ht'
    rcases List.mem_cons.1 ht' with e | ht'
    · injection e with e _; subst e; exact dn (fun h => (hs _ h).1)
    · exact hd t' ht'
  | call t op b ih =>
    simp only [Script.andThen, Script.prog]
    cases o t with
    | none => rfl
    | some w =>
      show Prog.bind _ _ = Prog.bind (Prog.bind _ _) _
      rw [Prog.bindAssoc]
      congr 1; funext w
      exact ih _ hb.2.2 _ hd (set w hb.1 ho) hs
  | look t b ih =>
    simp only [Script.andThen, Script.prog]
    cases o t with
    | some w => exact ih _ _ (hb.2 _) _ hd ho (fun t' ht' => hs t' ht' _)
    | none => exact congrArg _ (funext fun y => ih _ _ (hb.2 _) _ hd ho (fun t' ht' => hs t' ht' _))
  | flush t ev b ih =>
    simp only [Script.andThen, Script.prog]
    cases o t with
    | none => rfl
    | some w =>
      show Prog.bind _ _ = Prog.bind (Prog.bind _ _) _
      rw [Prog.bindAssoc]
      congr 1; funext w
      exact ih _ hb.2 _ (er _ hd) (del hb.1 hd ho) hs
  | liveFlush t ev b ih =>
    simp only [Script.andThen, Script.prog]
    cases o t with
    | none => rfl
    | some w =>
      show Prog.bind _ _ = Prog.bind (Prog.bind _ _) _
      rw [Prog.bindAssoc]
      congr 1; funext w
      exact ih _ hb.2 _ hd (set w hb.1 ho) hs
  | restore t sig own y ev b ih =>
    simp only [Script.andThen, Script.prog]
    cases o t with
    | none => rfl
    | some w =>
      show Prog.bind _ _ = Prog.bind (Prog.bind _ _) _
      rw [Prog.bindAssoc]
      congr 1; funext w
      exact ih _ hb.2 _ (er _ hd) (del hb.1 hd ho) hs
  | close t b ih =>
    simp only [Script.andThen, Script.prog]
    cases o t with
    | none => rfl
    | some w =>
      show Prog.bind _ _ = Prog.bind (Prog.bind _ _) _
      rw [Prog.bindAssoc]
      congr 1; funext w
      show Prog.bind _ _ = Prog.bind (Prog.bind _ _) _
      rw [Prog.bindAssoc]
      congr 1; funext w
      exact ih _ hb.2 _ (er _ hd) (del hb.1 hd ho) hs
  | read t b ih =>
    simp only [Script.andThen, Script.prog]
    show Prog.bind _ _ = Prog.bind (Prog.bind _ _) _
    rw [Prog.bindAssoc]
    congr 1; funext w
    refine ih _ hb _ ?_ ?_ (fun t' ht' => (hs t' ht').2)
    · intro t' ht'
      rcases List.mem_cons.1 ht' with e | ht'
      · injection e with _ e; cases e
      · exact hd t' ht'
    · exact fun t' ht' => ho t' (fun h => ht' (List.mem_cons_of_mem _ h))
  | unread t b ih =>
    simp only [Script.andThen, Script.prog]
    show Prog.bind _ _ = Prog.bind (Prog.bind _ _) _
    rw [Prog.bindAssoc]
    congr 1; funext w
    exact ih _ hb.2 _ (er _ hd) (erRd ho) hs
  | select t ev sel b ih =>
    simp only [Script.andThen, Script.prog]
    show Prog.bind _ _ = Prog.bind (Prog.bind _ _) _
    rw [Prog.bindAssoc]
    congr 1; funext w
    exact ih _ hb.2 _ (er _ hd) (erRd ho) hs
  | tryWrite t yes no ih1 ih2 =>
    simp only [Script.andThen, Script.prog, Prog.bind]
    congr 1
    · congr 1; funext w
      refine ih1 _ hb.1 _ ?_ (put _ ho) (fun t' ht' => (hs t' ht').2.1)
      intro t' ht'
      rcases List.mem_cons.1 ht' with e | ht'
      · injection e with e _; subst e; exact dn (fun h => (hs _ h).1)
      · exact hd t' ht'
    · funext e
      exact ih2 e _ (hb.2 e) _ hd ho (fun t' ht' => (hs t' ht').2.2 e)
  | tryRead t yes no ih1 ih2 =>
    simp only [Script.andThen, Script.prog, Prog.bind]
    congr 1
    · refine ih1 _ hb.1 _ ?_ ?_ (fun t' ht' => (hs t' ht').2.1)
      · intro t' ht'
        rcases List.mem_cons.1 ht' with e | ht'
        · injection e with _ e; cases e
        · exact hd t' ht'
      · exact fun t' ht' => ho t' (fun h => ht' (List.mem_cons_of_mem _ h))
    · funext e
      exact ih2 e _ (hb.2 e) _ hd ho (fun t' ht' => (hs t' ht').2.2 e)

/-- What such a thread does: take the mutex, do the work, give it back. -/
theorem prog_each {m : T} {n : Nat} (b : Script S) (L : List (Script S)) (hb : b.Work m) :
    (Script.each m (b :: L)).prog key cfg n (fun _ => none) =
      .acq (.tbl m) .wr (.get m fun x => (b.prog key cfg n (fun _ => none)).bind fun _ =>
        .put m x (.rel (.tbl m) .wr ((Script.each m L).prog key cfg n (fun _ => none)))) := by
  show Prog.acq _ _ (.get m fun x => _) = _
  congr 2; funext x
  show (b.andThen (.close m (Script.each m L))).prog key cfg n (Function.update (fun _ => none) m (some (W.lock x))) = _
  rw [prog_andThen (key := key) (cfg := cfg) _ (Function.update (fun _ => none) m (some (W.lock x))) b [] hb.1 _ (fun t h => by cases h) (fun _ _ => rfl) ?_]
  · rw [prog_spares (key := key) (cfg := cfg) b [] hb.1 hb.2 (fun _ h => by cases h)]
    congr 1; funext _
    simp only [Script.prog, Function.update_self]
    have : (W.lock x).drop = .ok x := by
      unfold W.drop W.lock; simp [Select.isEmpty]
    rw [this]
    show Prog.put m x (.rel _ _ _) = _
    congr 2
    rw [Function.update_idem]
    show Script.prog key cfg n (Script.each m L) (Function.update (fun x => none) m none) = _
    congr 1
    funext t
    by_cases e : t = m
    · subst e; rw [Function.update_self]
    · rw [Function.update_of_ne e]
  · rintro t ⟨w, hw⟩
    by_cases e : t = m
    · subst e; exact hb.2
    · rw [Function.update_of_ne e] at hw; cases hw


/-! ## What one thread alone does, step by step -/

/-- The universe `v` is what the process looks like to a thread with guards `h` that is alone. -/
structure Mirrors (s : Sys S ι) (h : List (Lk T × Mode)) (v : Uni S) : Prop where
  tbl : v.env.tbl = s.tbl
  fl : v.fl = s.fl
  wr : ∀ t, v.env.writer t = decide ((Lk.tbl t, Mode.wr) ∈ h)
  rd : ∀ t, v.env.reads t = h.count (.tbl t, .rd)
  once : ∀ t, h.count (.tbl t, .wr) ≤ 1

theorem Mirrors.unlocked {s : Sys S ι} {v : Uni S} (h : Mirrors s [] v) : Unlocked v.env :=
  ⟨fun t => by rw [h.rd]; rfl, fun t => by rw [h.wr]; rfl⟩

theorem Mirrors.same {s s' : Sys S ι} {h : List (Lk T × Mode)} {v : Uni S} (hm : Mirrors s h v) (ht : s'.tbl = s.tbl) (hf : s'.fl = s.fl) :
    Mirrors s' h v := ⟨by rw [ht, hm.tbl], by rw [hf, hm.fl], hm.wr, hm.rd, hm.once⟩

theorem Mirrors.addWr {s : Sys S ι} {h : List (Lk T × Mode)} {v : Uni S} (hmi : Mirrors s h v) {t : T} (hwh : (Lk.tbl t, Mode.wr) ∉ h) :
    Mirrors s ((.tbl t, .wr) :: h) { v with env := { v.env with writer := Function.update v.env.writer t true } } := by
  refine ⟨hmi.tbl, hmi.fl, ?_, ?_, ?_⟩
  · intro t'
    show Function.update v.env.writer t true t' = _
    by_cases e : t' = t
    · subst e; simp
    · rw [Function.update_of_ne e, hmi.wr]; simp [e]
  · intro t'
    rw [List.count_cons_of_ne (by intro he; injection he with _ he; cases he)]; exact hmi.rd t'
  · intro t'
    by_cases e : t' = t
    · subst e; rw [List.count_cons_self, List.count_eq_zero.2 hwh]
    · rw [List.count_cons_of_ne (by intro he; injection he with he _; injection he with he; exact e he.symm)]; exact hmi.once t'

theorem Mirrors.addRd {s : Sys S ι} {h : List (Lk T × Mode)} {v : Uni S} (hmi : Mirrors s h v) (t : T) :
    Mirrors s ((.tbl t, .rd) :: h) { v with env := { v.env with reads := Function.update v.env.reads t (v.env.reads t + 1) } } := by
  refine ⟨hmi.tbl, hmi.fl, ?_, ?_, ?_⟩
  · intro t'
    show v.env.writer t' = _
    rw [hmi.wr]; simp
  · intro t'
    show Function.update v.env.reads t (v.env.reads t + 1) t' = _
    by_cases e : t' = t
    · subst e; rw [Function.update_self, List.count_cons_self, hmi.rd]
    · rw [Function.update_of_ne e, List.count_cons_of_ne (by intro he; injection he with he _; injection he with he; exact e he.symm)]
      exact hmi.rd t'
  · intro t'
    rw [List.count_cons_of_ne (by intro he; injection he with _ he; cases he)]; exact hmi.once t'

/-- Where the body of a piece of work is: `q` is left to do, with the guards `h` (and that of the mutex below). -/
structure Inside (key : (t : T) → Row (S t) → K) (m : T) (s : Sys S ι) (h : List (Lk T × Mode)) (q : Prog S Unit) (v : Uni S) : Prop where
  mirrors : Mirrors s h v
  careful : Careful (fun t => t ≠ m) key h q (fun h' _ => h' = [])
  spared : ∀ md, (Lk.tbl m, md) ∉ h

theorem erase_append_left' {α : Type} [DecidableEq α] {a : α} {l r : List α} (h : a ∈ l) : (l ++ r).erase a = l.erase a ++ r :=
  List.erase_append_left _ h

/-- One step of a thread inside its work is the corresponding step of the thread alone. -/
theorem inside_step {m : T} {s s' : Sys S ι} {i : ι} {h : List (Lk T × Mode)} {q : Prog S Unit} {v : Uni S} {f : Unit → Prog S Unit}
    (hth : s.th i = ⟨q.bind f, h ++ [(.tbl m, .wr)]⟩) (hin : Inside key m s h q v) (hr : ∀ t, Reach (key t) false (s.tbl t))
    (hoth : ∀ j, j ≠ i → (s.th j).held = [] ∧ ∀ t k, (s.th j).prog = .acq (.tbl t) .wr k → t = m)
    (hpo : ∀ l, s.poisoned l = false) (hnr : ∀ a, q ≠ .ret a) (hnf : ∀ p, q ≠ .fail p) (hs : Step s i s') :
    ∃ h' q' v', s'.th = Function.update s.th i ⟨q'.bind f, h' ++ [(.tbl m, .wr)]⟩ ∧ Inside key m s' h' q' v' ∧ q'.run v' = q.run v ∧
      (∀ l, s'.poisoned l = false) ∧ s'.tbl m = s.tbl m ∧ ∀ t, Reach (key t) false (s'.tbl t) := by
  obtain ⟨hmi, hca, hsp⟩ := hin
  have hprog : (s.th i).prog = q.bind f := by rw [hth]
  have hheld : (s.th i).held = h ++ [(.tbl m, .wr)] := by rw [hth]
  cases q with
  | ret a => exact absurd rfl (hnr a)
  | fail p => exact absurd rfl (hnf p)
  | acq l md k =>
    cases hs with
    | @acq l' md' k' hp hfr hn =>
      rw [hprog] at hp; injection hp with e1 e2 e3; subst e1 e2 e3
      have hex := free_excl hfr
      have hw : (l, Mode.wr) ∉ h ++ [(Lk.tbl m, Mode.wr)] := by have := hex.1 i; rwa [hheld] at this
      have hlm : l ≠ .tbl m := by rintro rfl; exact hw (by simp)
      have hwh : (l, Mode.wr) ∉ h := fun hx => hw (List.mem_append_left _ hx)
      have hall : md = .wr → ∀ m', (l, m') ∉ h := fun e m' hx => by
        have := hex.2 e i m'; rw [hheld] at this; exact this (List.mem_append_left _ hx)
      have hc := hca (fun t _ e m' => hall e m')
      have hsp' : ∀ md', (Lk.tbl m, md') ∉ (l, md) :: h := by
        intro md' hx
        rcases List.mem_cons.1 hx with e | hx
        · injection e with e _; exact hlm e.symm
        · exact hsp md' hx
      cases l with
      | tbl t =>
        cases md with
        | wr =>
          refine ⟨(.tbl t, .wr) :: h, k, { v with env := { v.env with writer := Function.update v.env.writer t true } },
            by rw [hheld]; rfl, ⟨(hmi.addWr hwh).same rfl rfl, hc, hsp'⟩, ?_, hpo, rfl, hr⟩
          · conv_rhs => unfold Prog.run
            rw [if_neg]
            rw [hmi.rd, hmi.wr, List.count_eq_zero.2 (hall rfl .rd)]
            simp [hwh]
        | rd =>
          refine ⟨(.tbl t, .rd) :: h, k, { v with env := { v.env with reads := Function.update v.env.reads t (v.env.reads t + 1) } },
            by rw [hheld]; rfl, ⟨(hmi.addRd t).same rfl rfl, hc, hsp'⟩, ?_, hpo, rfl, hr⟩
          · conv_rhs => unfold Prog.run
            rw [if_neg]
            rw [hmi.wr]
            simp [hwh]
      | fl t =>
        have hm' : Mirrors (s.go i (k.bind f) ((Lk.fl t, md) :: (s.th i).held)) ((Lk.fl t, md) :: h) v := by
          refine ⟨hmi.tbl, hmi.fl, ?_, ?_, ?_⟩
          · intro t'; rw [hmi.wr]; simp
          · intro t'
            rw [List.count_cons_of_ne (by intro he; injection he with he _; cases he)]; exact hmi.rd t'
          · intro t'
            rw [List.count_cons_of_ne (by intro he; injection he with he _; cases he)]; exact hmi.once t'
        refine ⟨(.fl t, md) :: h, k, v, by rw [hheld]; rfl, ⟨hm', hc, hsp'⟩, ?_, hpo, rfl, hr⟩
        cases md with
        | rd => conv_rhs => unfold Prog.run
        | wr =>
          conv_rhs => unfold Prog.run
          rw [if_neg]
          rw [hmi.fl]
          exact not_not.2 hfr.2
    | acqPoisoned hp hfr hn => rw [hpo] at hn; cases hn
    | att hp => rw [hprog] at hp; cases hp
    | attPoisoned hp => rw [hprog] at hp; cases hp
    | attBusy hp => rw [hprog] at hp; cases hp
    | rel hp => rw [hprog] at hp; cases hp
    | get hp => rw [hprog] at hp; cases hp
    | put hp => rw [hprog] at hp; cases hp
    | getF hp => rw [hprog] at hp; cases hp
    | putF hp => rw [hprog] at hp; cases hp
    | forget hp => rw [hprog] at hp; cases hp
    | see hp => rw [hprog] at hp; cases hp
    | unwind hp => rw [hprog] at hp; cases hp
  | att t md yes no =>
    obtain ⟨htm, hyes, hno⟩ := hca
    cases hs with
    | @att t' md' yes' no' hp hfr hn =>
      rw [hprog] at hp; injection hp with e1 e2 e3 e4; subst e1 e2 e3 e4
      have hex := free_excl hfr
      have hwh : (Lk.tbl t, Mode.wr) ∉ h := fun hx => by
        have := hex.1 i; rw [hheld] at this; exact this (List.mem_append_left _ hx)
      have hall : md = .wr → ∀ m', (Lk.tbl t, m') ∉ h := fun e m' hx => by
        have := hex.2 e i m'; rw [hheld] at this; exact this (List.mem_append_left _ hx)
      have hc := hyes (fun t _ e m' => hall e m')
      have hsp' : ∀ md', (Lk.tbl m, md') ∉ (Lk.tbl t, md) :: h := by
        intro md' hx
        rcases List.mem_cons.1 hx with e | hx
        · injection e with e _; injection e with e; exact htm e.symm
        · exact hsp md' hx
      cases md with
      | wr =>
        refine ⟨(.tbl t, .wr) :: h, yes, { v with env := { v.env with writer := Function.update v.env.writer t true } },
          by rw [hheld]; rfl, ⟨(hmi.addWr hwh).same rfl rfl, hc, hsp'⟩, ?_, hpo, rfl, hr⟩
        conv_rhs => unfold Prog.run
        rw [if_neg]
        rw [hmi.rd, hmi.wr, List.count_eq_zero.2 (hall rfl .rd)]
        simp [hwh]
      | rd =>
        refine ⟨(.tbl t, .rd) :: h, yes, { v with env := { v.env with reads := Function.update v.env.reads t (v.env.reads t + 1) } },
          by rw [hheld]; rfl, ⟨(hmi.addRd t).same rfl rfl, hc, hsp'⟩, ?_, hpo, rfl, hr⟩
        conv_rhs => unfold Prog.run
        rw [if_neg]
        rw [hmi.wr]
        simp [hwh]
    | attPoisoned hp hfr hn => rw [hpo] at hn; cases hn
    | @attBusy t' md' yes' no' hp hb =>
      rw [hprog] at hp; injection hp with e1 e2 e3 e4; subst e1 e2 e3 e4
      refine ⟨h, no .wouldBlock, v, by rw [hheld]; rfl, ⟨hmi.same rfl rfl, hno _, hsp⟩, ?_, hpo, rfl, hr⟩
      have mine : ∀ {j m'}, (Lk.tbl t, m') ∈ (s.th j).held → (Lk.tbl t, m') ∈ h := by
        intro j m' hx
        by_cases e : j = i
        · subst e
          rw [hheld] at hx
          rcases List.mem_append.1 hx with hx | hx
          · exact hx
          · rw [List.mem_singleton] at hx; injection hx with hx _; injection hx with hx; exact absurd hx htm
        · rw [(hoth j e).1] at hx; cases hx
      have nf : ¬ s.Free (.tbl t) md := by
        rcases hb with hb | ⟨-, j, k, hj, hb⟩
        · exact hb
        · exact absurd ((hoth j hj).2 t k hb) htm
      conv_rhs => unfold Prog.run
      cases md with
      | wr =>
        have : ∃ m', (Lk.tbl t, m') ∈ h := by
          by_contra hc
          push Not at hc
          exact nf (fun j m' hx => hc m' (mine hx))
        obtain ⟨m', hm'⟩ := this
        simp only []
        rw [if_pos]
        cases m' with
        | rd => left; rw [hmi.rd]; exact Nat.pos_iff_ne_zero.1 (List.count_pos_iff.2 hm')
        | wr => right; rw [hmi.wr]; exact decide_eq_true hm'
      | rd =>
        have : (Lk.tbl t, Mode.wr) ∈ h := by
          by_contra hc
          exact nf (fun j hx => hc (mine hx))
        simp only []
        rw [if_pos]
        rw [hmi.wr]; exact decide_eq_true this
    | acq hp => rw [hprog] at hp; cases hp
    | acqPoisoned hp => rw [hprog] at hp; cases hp
    | rel hp => rw [hprog] at hp; cases hp
    | get hp => rw [hprog] at hp; cases hp
    | put hp => rw [hprog] at hp; cases hp
    | getF hp => rw [hprog] at hp; cases hp
    | putF hp => rw [hprog] at hp; cases hp
    | forget hp => rw [hprog] at hp; cases hp
    | see hp => rw [hprog] at hp; cases hp
    | unwind hp => rw [hprog] at hp; cases hp
  | rel l md k =>
    cases hs with
    | @rel l' md' k' hp =>
      rw [hprog] at hp; injection hp with e1 e2 e3; subst e1 e2 e3
      have hmem : ∀ x, x ∈ h.erase (l, md) → x ∈ h := fun x hx => List.mem_of_mem_erase hx
      have hth' : (s.go i (k.bind f) ((s.th i).held.erase (l, md))).th = Function.update s.th i ⟨k.bind f, h.erase (l, md) ++ [(.tbl m, .wr)]⟩ := by
        rw [hheld, List.erase_append_left _ hca.1]; rfl
      have hsp' : ∀ md', (Lk.tbl m, md') ∉ h.erase (l, md) := fun md' hx => hsp md' (hmem _ hx)
      cases l with
      | tbl t =>
        cases md with
        | wr =>
          refine ⟨h.erase (.tbl t, .wr), k, { v with env := { v.env with writer := Function.update v.env.writer t false } },
            hth', ⟨⟨hmi.tbl, hmi.fl, ?_, ?_, ?_⟩, hca.2, hsp'⟩, ?_, hpo, rfl, hr⟩
          · intro t'
            show Function.update v.env.writer t false t' = _
            by_cases e : t' = t
            · subst e
              have h2 : (h.erase (Lk.tbl t', Mode.wr)).count (.tbl t', .wr) = 0 := by rw [List.count_erase_self]; have := hmi.once t'; omega
              rw [Function.update_self]
              exact (decide_eq_false (List.count_eq_zero.1 h2)).symm
            · rw [Function.update_of_ne e, hmi.wr]
              congr 1
              exact propext (List.mem_erase_of_ne (fun he => by injection he with he _; injection he with he; exact e he)).symm
          · intro t'
            rw [List.count_erase_of_ne (by intro he; injection he with _ he; cases he)]; exact hmi.rd t'
          · intro t'; exact (List.Sublist.count_le _ List.erase_sublist).trans (hmi.once t')
          · conv_rhs => unfold Prog.run
        | rd =>
          refine ⟨h.erase (.tbl t, .rd), k, { v with env := v.env.releaseRead t },
            hth', ⟨⟨hmi.tbl, hmi.fl, ?_, ?_, ?_⟩, hca.2, hsp'⟩, ?_, hpo, rfl, hr⟩
          · intro t'
            show v.env.writer t' = _
            rw [hmi.wr]
            congr 1
            exact propext (List.mem_erase_of_ne (fun he => by injection he with _ he; cases he)).symm
          · intro t'
            show Function.update v.env.reads t (v.env.reads t - 1) t' = _
            by_cases e : t' = t
            · subst e; rw [Function.update_self, List.count_erase_self, hmi.rd]
            · rw [Function.update_of_ne e, List.count_erase_of_ne (by intro he; injection he with he _; injection he with he; exact e he)]
              exact hmi.rd t'
          · intro t'; exact (List.Sublist.count_le _ List.erase_sublist).trans (hmi.once t')
          · conv_rhs => unfold Prog.run
      | fl t =>
        refine ⟨h.erase (.fl t, md), k, v, hth', ⟨⟨hmi.tbl, hmi.fl, ?_, ?_, ?_⟩, hca.2, hsp'⟩, ?_, hpo, rfl, hr⟩
        · intro t'
          rw [hmi.wr]
          congr 1
          exact propext (List.mem_erase_of_ne (fun he => by injection he with he _; cases he)).symm
        · intro t'
          rw [List.count_erase_of_ne (by intro he; injection he with he _; cases he)]; exact hmi.rd t'
        · intro t'; exact (List.Sublist.count_le _ List.erase_sublist).trans (hmi.once t')
        · conv_rhs => unfold Prog.run
    | acq hp => rw [hprog] at hp; cases hp
    | acqPoisoned hp => rw [hprog] at hp; cases hp
    | att hp => rw [hprog] at hp; cases hp
    | attPoisoned hp => rw [hprog] at hp; cases hp
    | attBusy hp => rw [hprog] at hp; cases hp
    | get hp => rw [hprog] at hp; cases hp
    | put hp => rw [hprog] at hp; cases hp
    | getF hp => rw [hprog] at hp; cases hp
    | putF hp => rw [hprog] at hp; cases hp
    | forget hp => rw [hprog] at hp; cases hp
    | see hp => rw [hprog] at hp; cases hp
    | unwind hp => rw [hprog] at hp; cases hp
  | get t k =>
    cases hs with
    | @get t' k' hp =>
      rw [hprog] at hp; injection hp with e1 e2; subst e1; replace e2 := eq_of_heq e2; subst e2
      refine ⟨h, k (s.tbl t), v, by rw [hheld]; rfl, ⟨⟨hmi.tbl, hmi.fl, hmi.wr, hmi.rd, hmi.once⟩, hca.2 _ (hr t), hsp⟩, ?_, hpo, rfl, hr⟩
      conv_rhs => unfold Prog.run
      rw [hmi.tbl]
    | acq hp => rw [hprog] at hp; cases hp
    | acqPoisoned hp => rw [hprog] at hp; cases hp
    | att hp => rw [hprog] at hp; cases hp
    | attPoisoned hp => rw [hprog] at hp; cases hp
    | attBusy hp => rw [hprog] at hp; cases hp
    | rel hp => rw [hprog] at hp; cases hp
    | put hp => rw [hprog] at hp; cases hp
    | getF hp => rw [hprog] at hp; cases hp
    | putF hp => rw [hprog] at hp; cases hp
    | forget hp => rw [hprog] at hp; cases hp
    | see hp => rw [hprog] at hp; cases hp
    | unwind hp => rw [hprog] at hp; cases hp
  | put t x k =>
    cases hs with
    | @put t' x' k' hp =>
      rw [hprog] at hp; injection hp with e1 e2 e3; subst e1; replace e2 := eq_of_heq e2; subst e2 e3
      refine ⟨h, k, { v with env := v.env.put t x }, by rw [hheld]; rfl,
        ⟨⟨?_, hmi.fl, hmi.wr, hmi.rd, hmi.once⟩, hca.2.2, hsp⟩, ?_, hpo, ?_, ?_⟩
      · show Function.update v.env.tbl t x = Function.update s.tbl t x
        rw [hmi.tbl]
      · conv_rhs => unfold Prog.run
      · show Function.update s.tbl t x m = s.tbl m
        rw [Function.update_of_ne]
        rintro rfl
        exact hsp _ hca.1
      · intro t'
        show Reach (key t') false (Function.update s.tbl t x t')
        by_cases e : t' = t
        · subst e; rw [Function.update_self]; exact hca.2.1
        · rw [Function.update_of_ne e]; exact hr t'
    | acq hp => rw [hprog] at hp; cases hp
    | acqPoisoned hp => rw [hprog] at hp; cases hp
    | att hp => rw [hprog] at hp; cases hp
    | attPoisoned hp => rw [hprog] at hp; cases hp
    | attBusy hp => rw [hprog] at hp; cases hp
    | rel hp => rw [hprog] at hp; cases hp
    | get hp => rw [hprog] at hp; cases hp
    | getF hp => rw [hprog] at hp; cases hp
    | putF hp => rw [hprog] at hp; cases hp
    | forget hp => rw [hprog] at hp; cases hp
    | see hp => rw [hprog] at hp; cases hp
    | unwind hp => rw [hprog] at hp; cases hp
  | getF t k =>
    cases hs with
    | @getF t' k' hp =>
      rw [hprog] at hp; injection hp with e1 e2; subst e1 e2
      refine ⟨h, k (s.fl t), v, by rw [hheld]; rfl, ⟨⟨hmi.tbl, hmi.fl, hmi.wr, hmi.rd, hmi.once⟩, hca.2 _, hsp⟩, ?_, hpo, rfl, hr⟩
      conv_rhs => unfold Prog.run
      rw [hmi.fl]
    | acq hp => rw [hprog] at hp; cases hp
    | acqPoisoned hp => rw [hprog] at hp; cases hp
    | att hp => rw [hprog] at hp; cases hp
    | attPoisoned hp => rw [hprog] at hp; cases hp
    | attBusy hp => rw [hprog] at hp; cases hp
    | rel hp => rw [hprog] at hp; cases hp
    | get hp => rw [hprog] at hp; cases hp
    | put hp => rw [hprog] at hp; cases hp
    | putF hp => rw [hprog] at hp; cases hp
    | forget hp => rw [hprog] at hp; cases hp
    | see hp => rw [hprog] at hp; cases hp
    | unwind hp => rw [hprog] at hp; cases hp
  | putF t x k =>
    cases hs with
    | @putF t' x' k' hp =>
      rw [hprog] at hp; injection hp with e1 e2 e3; subst e1 e2 e3
      refine ⟨h, k, { v with fl := Function.update v.fl t x }, by rw [hheld]; rfl,
        ⟨⟨hmi.tbl, ?_, hmi.wr, hmi.rd, hmi.once⟩, hca.2, hsp⟩, ?_, hpo, rfl, hr⟩
      · show Function.update v.fl t x = Function.update s.fl t x
        rw [hmi.fl]
      · conv_rhs => unfold Prog.run
    | acq hp => rw [hprog] at hp; cases hp
    | acqPoisoned hp => rw [hprog] at hp; cases hp
    | att hp => rw [hprog] at hp; cases hp
    | attPoisoned hp => rw [hprog] at hp; cases hp
    | attBusy hp => rw [hprog] at hp; cases hp
    | rel hp => rw [hprog] at hp; cases hp
    | get hp => rw [hprog] at hp; cases hp
    | put hp => rw [hprog] at hp; cases hp
    | getF hp => rw [hprog] at hp; cases hp
    | forget hp => rw [hprog] at hp; cases hp
    | see hp => rw [hprog] at hp; cases hp
    | unwind hp => rw [hprog] at hp; cases hp
  | forget t k =>
    cases hs with
    | @forget t' k' hp =>
      rw [hprog] at hp; injection hp with e1 e2; subst e1 e2
      refine ⟨h.erase (.fl t, .rd), k, { v with fl := Function.update v.fl t { v.fl t with leaked := (v.fl t).leaked + 1 } },
        ?_, ⟨⟨hmi.tbl, ?_, ?_, ?_, ?_⟩, hca.2, fun md' hx => hsp md' (List.mem_of_mem_erase hx)⟩, ?_, hpo, rfl, hr⟩
      · show Function.update s.th i ⟨_, (s.th i).held.erase _⟩ = _
        rw [hheld, List.erase_append_left _ hca.1]
      · show Function.update v.fl t _ = Function.update s.fl t _
        rw [hmi.fl]
      · intro t'
        show v.env.writer t' = _
        rw [hmi.wr]
        congr 1
        exact propext (List.mem_erase_of_ne (fun he => by injection he with he _; cases he)).symm
      · intro t'
        rw [List.count_erase_of_ne (by intro he; injection he with he _; cases he)]; exact hmi.rd t'
      · intro t'; exact (List.Sublist.count_le _ List.erase_sublist).trans (hmi.once t')
      · conv_rhs => unfold Prog.run
    | acq hp => rw [hprog] at hp; cases hp
    | acqPoisoned hp => rw [hprog] at hp; cases hp
    | att hp => rw [hprog] at hp; cases hp
    | attPoisoned hp => rw [hprog] at hp; cases hp
    | attBusy hp => rw [hprog] at hp; cases hp
    | rel hp => rw [hprog] at hp; cases hp
    | get hp => rw [hprog] at hp; cases hp
    | put hp => rw [hprog] at hp; cases hp
    | getF hp => rw [hprog] at hp; cases hp
    | putF hp => rw [hprog] at hp; cases hp
    | see hp => rw [hprog] at hp; cases hp
    | unwind hp => rw [hprog] at hp; cases hp
  | see p o ev rows k =>
    cases hs with
    | @see p' o' ev' rows' k' hp =>
      rw [hprog] at hp; injection hp with e1 e2 e3 e4 e5; subst e1 e2 e3 e4 e5
      refine ⟨h, k, { v with env := { v.env with log := v.env.log ++ [⟨p, o, ev, rows, v.env.tbl⟩] } }, by rw [hheld]; rfl,
        ⟨⟨hmi.tbl, hmi.fl, hmi.wr, hmi.rd, hmi.once⟩, hca, hsp⟩, ?_, hpo, rfl, hr⟩
      conv_rhs => unfold Prog.run
    | acq hp => rw [hprog] at hp; cases hp
    | acqPoisoned hp => rw [hprog] at hp; cases hp
    | att hp => rw [hprog] at hp; cases hp
    | attPoisoned hp => rw [hprog] at hp; cases hp
    | attBusy hp => rw [hprog] at hp; cases hp
    | rel hp => rw [hprog] at hp; cases hp
    | get hp => rw [hprog] at hp; cases hp
    | put hp => rw [hprog] at hp; cases hp
    | getF hp => rw [hprog] at hp; cases hp
    | putF hp => rw [hprog] at hp; cases hp
    | forget hp => rw [hprog] at hp; cases hp
    | unwind hp => rw [hprog] at hp; cases hp


/-! ## The whole process -/

/-- How far the process is: `pend` is what each thread still has to do, `u` the universe after what has been done. -/
inductive Stage (key : (t : T) → Row (S t) → K) (cfg : Cfg S) (n : Nat) (m : T) (s : Sys S ι) (pend : ι → List (Script S)) (u : Uni S) : Prop
  /-- nobody is at work -/
  | idle : (∀ j, s.th j = ⟨(Script.each m (pend j)).prog key cfg n (fun _ => none), []⟩) → Mirrors s [] u →
      (∀ l, s.poisoned l = false) → Stage key cfg n m s pend u
  /-- `i` has taken the mutex -/
  | took (i : ι) (b : Script S) (rest : List (Script S)) : pend i = b :: rest →
      s.th i = ⟨.get m fun x => (b.prog key cfg n (fun _ => none)).bind fun _ =>
        .put m x (.rel (.tbl m) .wr ((Script.each m rest).prog key cfg n (fun _ => none))), [(.tbl m, .wr)]⟩ →
      (∀ j, j ≠ i → s.th j = ⟨(Script.each m (pend j)).prog key cfg n (fun _ => none), []⟩) → Mirrors s [] u →
      (∀ l, s.poisoned l = false) → Stage key cfg n m s pend u
  /-- `i` is at work -/
  | inside (i : ι) (b : Script S) (rest : List (Script S)) (h : List (Lk T × Mode)) (q : Prog S Unit) (v : Uni S) : pend i = b :: rest →
      s.th i = ⟨q.bind fun _ => .put m (s.tbl m) (.rel (.tbl m) .wr ((Script.each m rest).prog key cfg n (fun _ => none))),
        h ++ [(.tbl m, .wr)]⟩ →
      (∀ j, j ≠ i → s.th j = ⟨(Script.each m (pend j)).prog key cfg n (fun _ => none), []⟩) → Inside key m s h q v →
      q.run v = (b.prog key cfg n (fun _ => none)).run u →
      (∀ l, s.poisoned l = false) → Stage key cfg n m s pend u
  /-- `i` is about to give the mutex back -/
  | leaving (i : ι) : s.th i = ⟨.rel (.tbl m) .wr ((Script.each m (pend i)).prog key cfg n (fun _ => none)), [(.tbl m, .wr)]⟩ →
      (∀ j, j ≠ i → s.th j = ⟨(Script.each m (pend j)).prog key cfg n (fun _ => none), []⟩) → Mirrors s [] u →
      (∀ l, s.poisoned l = false) → Stage key cfg n m s pend u
  /-- `i` has panicked at work -/
  | dead (i : ι) (b : Script S) (rest : List (Script S)) (p : Panic) : pend i = b :: rest →
      (b.prog key cfg n (fun _ => none)).run u = .error p → s.th i = ⟨.fail p, []⟩ → s.poisoned (.tbl m) = true →
      (∀ j, j ≠ i → s.th j = ⟨(Script.each m (pend j)).prog key cfg n (fun _ => none), []⟩ ∨ s.th j = ⟨.fail .poisoned, []⟩) →
      Stage key cfg n m s pend u

/-- A thread between its pieces of work can only take the mutex. -/
theorem outside_step {n : Nat} {m : T} {s s' : Sys S ι} {j : ι} {L : List (Script S)} (hL : ∀ b ∈ L, b.Work m)
    (hth : s.th j = ⟨(Script.each m L).prog key cfg n (fun _ => none), []⟩) (hs : Step s j s') :
    ∃ b rest, L = b :: rest ∧ s.Free (.tbl m) .wr ∧
      ((s.poisoned (.tbl m) = false ∧ s' = s.go j (.get m fun x => (b.prog key cfg n (fun _ => none)).bind fun _ =>
        .put m x (.rel (.tbl m) .wr ((Script.each m rest).prog key cfg n (fun _ => none)))) [(.tbl m, .wr)]) ∨
      (s.poisoned (.tbl m) = true ∧ s' = s.go j (.fail .poisoned) [])) := by
  have hheld : (s.th j).held = [] := by rw [hth]
  cases L with
  | nil =>
    have hprog : (s.th j).prog = .ret () := by rw [hth]; rfl
    cases hs with
    | acq hp => rw [hprog] at hp; cases hp
    | acqPoisoned hp => rw [hprog] at hp; cases hp
    | att hp => rw [hprog] at hp; cases hp
    | attPoisoned hp => rw [hprog] at hp; cases hp
    | attBusy hp => rw [hprog] at hp; cases hp
    | rel hp => rw [hprog] at hp; cases hp
    | get hp => rw [hprog] at hp; cases hp
    | put hp => rw [hprog] at hp; cases hp
    | getF hp => rw [hprog] at hp; cases hp
    | putF hp => rw [hprog] at hp; cases hp
    | forget hp => rw [hprog] at hp; cases hp
    | see hp => rw [hprog] at hp; cases hp
    | unwind hp => rw [hprog] at hp; cases hp
  | cons b rest =>
    rw [prog_each b rest (hL b List.mem_cons_self)] at hth
    have hprog := congrArg Thread.prog hth
    simp only [] at hprog
    refine ⟨b, rest, rfl, ?_⟩
    cases hs with
    | acq hp hf hn =>
      rw [hprog] at hp; injection hp with e1 e2 e3; subst e1 e2 e3
      exact ⟨hf, Or.inl ⟨hn, by rw [hheld]⟩⟩
    | acqPoisoned hp hf hn =>
      rw [hprog] at hp; injection hp with e1 e2 e3; subst e1 e2 e3
      exact ⟨hf, Or.inr ⟨hn, by rw [hheld]⟩⟩
    | att hp => rw [hprog] at hp; cases hp
    | attPoisoned hp => rw [hprog] at hp; cases hp
    | attBusy hp => rw [hprog] at hp; cases hp
    | rel hp => rw [hprog] at hp; cases hp
    | get hp => rw [hprog] at hp; cases hp
    | put hp => rw [hprog] at hp; cases hp
    | getF hp => rw [hprog] at hp; cases hp
    | putF hp => rw [hprog] at hp; cases hp
    | forget hp => rw [hprog] at hp; cases hp
    | see hp => rw [hprog] at hp; cases hp
    | unwind hp => rw [hprog] at hp; cases hp

/-- The invariant: `order` is what has been done, in that order. -/
structure OneByOne (key : (t : T) → Row (S t) → K) (cfg : Cfg S) (n : Nat) (m : T) (L : ι → List (Script S)) (u0 : Uni S) (s : Sys S ι)
    (order : List (ι × Script S)) (pend : ι → List (Script S)) (u : Uni S) : Prop where
  serial : Serially key cfg n u0 (order.map (·.2)) u
  proj : ∀ i, (order.filter (fun x => decide (x.1 = i))).map (·.2) ++ pend i = L i
  stage : Stage key cfg n m s pend u
  quiet : Unlocked u.env
  rows : ∀ t, Reach (key t) false (s.tbl t)

theorem OneByOne.step {n : Nat} {m : T} {L : ι → List (Script S)} (hL : ∀ i, ∀ b ∈ L i, b.Work m) {u0 : Uni S} {s s' : Sys S ι}
    {order : List (ι × Script S)} {pend : ι → List (Script S)} {u : Uni S} (h : OneByOne key cfg n m L u0 s order pend u) {j : ι} (hs : Step s j s') :
    ∃ order' pend' u', OneByOne key cfg n m L u0 s' order' pend' u' := by
  have hpend : ∀ i, ∀ b ∈ pend i, b.Work m := fun i b hb => hL i b (by rw [← h.proj i]; exact List.mem_append_right _ hb)
  have blocked : ∀ {i : ι}, j ≠ i → (Lk.tbl m, Mode.wr) ∈ (s.th i).held →
      s.th j = ⟨(Script.each m (pend j)).prog key cfg n (fun _ => none), []⟩ → False := by
    intro i _ hi hth
    obtain ⟨b, rest, _, hf, _⟩ := outside_step (hpend j) hth hs
    exact hf i .wr hi
  have others : ∀ {i : ι}, (∀ j, j ≠ i → s.th j = ⟨(Script.each m (pend j)).prog key cfg n (fun _ => none), []⟩) →
      ∀ j, j ≠ i → (s.th j).held = [] ∧ ∀ t k, (s.th j).prog = .acq (.tbl t) .wr k → t = m := by
    intro i ho j hj
    rw [ho j hj]
    refine ⟨rfl, fun t k hp => ?_⟩
    have hw := hpend j
    cases e : pend j with
    | nil => rw [e] at hp; cases hp
    | cons b rest =>
      rw [e] at hw
      rw [e] at hp
      simp only [] at hp
      rw [prog_each b rest (hw b List.mem_cons_self)] at hp
      injection hp with hp _ _
      injection hp with hp
      exact hp.symm
  cases h.stage with
  | idle hth hmi hpo =>
    obtain ⟨b, rest, e, hf, ⟨hn, rfl⟩ | ⟨hn, rfl⟩⟩ := outside_step (hpend j) (hth j) hs
    · refine ⟨order, pend, u, h.serial, h.proj, ?_, h.quiet, h.rows⟩
      exact .took j b rest e (go_self ..) (fun i hi => by rw [go_other _ hi]; exact hth i) (hmi.same rfl rfl) hpo
    · rw [hpo] at hn; cases hn
  | took i b rest e hth ho hmi hpo =>
    by_cases hij : j = i
    · subst hij
      have hprog := congrArg Thread.prog hth
      have hheld := congrArg Thread.held hth
      simp only [] at hprog hheld
      cases hs with
      | @get t' k' hp =>
        rw [hprog] at hp; injection hp with e1 e2; subst e1; replace e2 := eq_of_heq e2; subst e2
        refine ⟨order, pend, u, h.serial, h.proj, ?_, h.quiet, h.rows⟩
        refine .inside j b rest [] (b.prog key cfg n (fun _ => none)) u e ?_ (fun i hi => by rw [go_other _ hi]; exact ho i hi)
          ⟨hmi.same rfl rfl, ?_, fun _ h => by cases h⟩ rfl hpo
        · rw [go_self, hheld]; rfl
        · have hw := hpend j b (by rw [e]; exact List.mem_cons_self)
          refine (cf_scriptTo (key := key) (cfg := cfg) n b (fun _ => none) []
            ⟨fun _ h => by (cases h), fun _ _ h => by (cases h), fun _ => Nat.zero_le _⟩ hw.1
            (fun t ht => by rw [not_not.1 ht]; exact hw.2)).mono ?_
          rintro h' - ⟨g, rfl, rfl⟩
          rfl
      | acq hp => rw [hprog] at hp; cases hp
      | acqPoisoned hp => rw [hprog] at hp; cases hp
      | att hp => rw [hprog] at hp; cases hp
      | attPoisoned hp => rw [hprog] at hp; cases hp
      | attBusy hp => rw [hprog] at hp; cases hp
      | rel hp => rw [hprog] at hp; cases hp
      | put hp => rw [hprog] at hp; cases hp
      | getF hp => rw [hprog] at hp; cases hp
      | putF hp => rw [hprog] at hp; cases hp
      | forget hp => rw [hprog] at hp; cases hp
      | see hp => rw [hprog] at hp; cases hp
      | unwind hp => rw [hprog] at hp; cases hp
    · exact (blocked hij (by rw [hth]; simp) (ho j hij)).elim
  | inside i b rest g q v e hth ho hin hrun hpo =>
    by_cases hij : j = i
    · subst hij
      have hprog := congrArg Thread.prog hth
      have hheld := congrArg Thread.held hth
      simp only [] at hprog hheld
      by_cases hret : ∃ a, q = .ret a
      · obtain ⟨a, rfl⟩ := hret
        have hg : g = [] := hin.careful
        subst hg
        replace hprog : (s.th j).prog = .put m (s.tbl m) (.rel (.tbl m) .wr ((Script.each m rest).prog key cfg n (fun _ => none))) := hprog
        cases hs with
        | @put t' x' k' hp =>
          rw [hprog] at hp; injection hp with e1 e2 e3; subst e1; replace e2 := eq_of_heq e2; subst e2 e3
          have hself : Function.update s.tbl m (s.tbl m) = s.tbl := Function.update_eq_self ..
          refine ⟨order ++ [(j, b)], Function.update pend j rest, v, ?_, ?_, ?_, hin.mirrors.unlocked, ?_⟩
          · rw [List.map_append]
            exact h.serial.snoc hrun.symm
          · intro i
            rw [List.filter_append, List.map_append, ← h.proj i]
            by_cases hi : i = j
            · subst hi
              simp [e, Function.update_self]
            · rw [Function.update_of_ne hi]
              simp [Ne.symm hi]
          · refine .leaving j ?_ (fun i hi => ?_) (hin.mirrors.same hself rfl) hpo
            · show (s.go j _ _).th j = _
              rw [go_self, hheld, Function.update_self]; rfl
            · show (s.go j _ _).th i = _
              rw [go_other _ hi, Function.update_of_ne hi]; exact ho i hi
          · intro t
            show Reach (key t) false (Function.update s.tbl m (s.tbl m) t)
            rw [hself]; exact h.rows t
        | acq hp => rw [hprog] at hp; cases hp
        | acqPoisoned hp => rw [hprog] at hp; cases hp
        | att hp => rw [hprog] at hp; cases hp
        | attPoisoned hp => rw [hprog] at hp; cases hp
        | attBusy hp => rw [hprog] at hp; cases hp
        | rel hp => rw [hprog] at hp; cases hp
        | get hp => rw [hprog] at hp; cases hp
        | getF hp => rw [hprog] at hp; cases hp
        | putF hp => rw [hprog] at hp; cases hp
        | forget hp => rw [hprog] at hp; cases hp
        | see hp => rw [hprog] at hp; cases hp
        | unwind hp => rw [hprog] at hp; cases hp
      · by_cases hfail : ∃ p, q = .fail p
        · obtain ⟨p, rfl⟩ := hfail
          replace hprog : (s.th j).prog = .fail p := hprog
          cases hs with
          | @unwind p' hp hne =>
            rw [hprog] at hp; injection hp with hp; subst hp
            refine ⟨order, pend, u, h.serial, h.proj, ?_, h.quiet, h.rows⟩
            refine .dead j b rest p e hrun.symm ?_ ?_ (fun i hi => Or.inl ?_)
            · show (s.go j _ _).th j = _
              rw [go_self]
            · show (s.poisoned (.tbl m) || decide ((Lk.tbl m, Mode.wr) ∈ (s.th j).held)) = true
              rw [hheld]; simp
            · show (s.go j _ _).th i = _
              rw [go_other _ hi]; exact ho i hi
          | acq hp => rw [hprog] at hp; cases hp
          | acqPoisoned hp => rw [hprog] at hp; cases hp
          | att hp => rw [hprog] at hp; cases hp
          | attPoisoned hp => rw [hprog] at hp; cases hp
          | attBusy hp => rw [hprog] at hp; cases hp
          | rel hp => rw [hprog] at hp; cases hp
          | get hp => rw [hprog] at hp; cases hp
          | put hp => rw [hprog] at hp; cases hp
          | getF hp => rw [hprog] at hp; cases hp
          | putF hp => rw [hprog] at hp; cases hp
          | forget hp => rw [hprog] at hp; cases hp
          | see hp => rw [hprog] at hp; cases hp
        · obtain ⟨g', q', v', a1, a2, a3, a4, a5, a6⟩ := inside_step hth hin h.rows (others ho) hpo (fun a ha => hret ⟨a, ha⟩) (fun p hp => hfail ⟨p, hp⟩) hs
          refine ⟨order, pend, u, h.serial, h.proj, ?_, h.quiet, a6⟩
          refine .inside j b rest g' q' v' e ?_ (fun i hi => ?_) a2 (a3.trans hrun) a4
          · rw [a1, Function.update_self, a5]
          · rw [a1, Function.update_of_ne hi]; exact ho i hi
    · exact (blocked hij (by rw [hth]; simp) (ho j hij)).elim
  | leaving i hth ho hmi hpo =>
    by_cases hij : j = i
    · subst hij
      have hprog := congrArg Thread.prog hth
      have hheld := congrArg Thread.held hth
      simp only [] at hprog hheld
      cases hs with
      | @rel l' md' k' hp =>
        rw [hprog] at hp; injection hp with e1 e2 e3; subst e1 e2 e3
        refine ⟨order, pend, u, h.serial, h.proj, ?_, h.quiet, h.rows⟩
        refine .idle (fun i => ?_) (hmi.same rfl rfl) hpo
        by_cases hi : i = j
        · subst hi; rw [go_self, hheld]; simp
        · rw [go_other _ hi]; exact ho i hi
      | acq hp => rw [hprog] at hp; cases hp
      | acqPoisoned hp => rw [hprog] at hp; cases hp
      | att hp => rw [hprog] at hp; cases hp
      | attPoisoned hp => rw [hprog] at hp; cases hp
      | attBusy hp => rw [hprog] at hp; cases hp
      | get hp => rw [hprog] at hp; cases hp
      | put hp => rw [hprog] at hp; cases hp
      | getF hp => rw [hprog] at hp; cases hp
      | putF hp => rw [hprog] at hp; cases hp
      | forget hp => rw [hprog] at hp; cases hp
      | see hp => rw [hprog] at hp; cases hp
      | unwind hp => rw [hprog] at hp; cases hp
    · exact (blocked hij (by rw [hth]; simp) (ho j hij)).elim
  | dead i b rest p e hrun hth hpo ho =>
    have stuck : ∀ {p : Panic}, s.th j = ⟨.fail p, []⟩ → False := by
      intro p hth
      have hprog := congrArg Thread.prog hth
      have hheld := congrArg Thread.held hth
      simp only [] at hprog hheld
      cases hs with
      | unwind hp hne => exact hne hheld
      | acq hp => rw [hprog] at hp; cases hp
      | acqPoisoned hp => rw [hprog] at hp; cases hp
      | att hp => rw [hprog] at hp; cases hp
      | attPoisoned hp => rw [hprog] at hp; cases hp
      | attBusy hp => rw [hprog] at hp; cases hp
      | rel hp => rw [hprog] at hp; cases hp
      | get hp => rw [hprog] at hp; cases hp
      | put hp => rw [hprog] at hp; cases hp
      | getF hp => rw [hprog] at hp; cases hp
      | putF hp => rw [hprog] at hp; cases hp
      | forget hp => rw [hprog] at hp; cases hp
      | see hp => rw [hprog] at hp; cases hp
    by_cases hij : j = i
    · subst hij; exact (stuck hth).elim
    · rcases ho j hij with hj | hj
      · obtain ⟨b', rest', _, hf, ⟨hn, _⟩ | ⟨hn, rfl⟩⟩ := outside_step (hpend j) hj hs
        · rw [hpo] at hn; cases hn
        · refine ⟨order, pend, u, h.serial, h.proj, ?_, h.quiet, h.rows⟩
          refine .dead i b rest p e hrun ?_ hpo (fun k hk => ?_)
          · rw [go_other _ (Ne.symm hij)]; exact hth
          · by_cases ek : k = j
            · subst ek; rw [go_self]; exact Or.inr rfl
            · rw [go_other _ ek]; exact ho k hk
      · exact (stuck hj).elim

theorem OneByOne.run {n : Nat} {m : T} {L : ι → List (Script S)} (hL : ∀ i, ∀ b ∈ L i, b.Work m) {u0 : Uni S} {s s' : Sys S ι}
    {waits : Sys S ι → ι → Prop} (h : ∃ order pend u, OneByOne key cfg n m L u0 s order pend u) (hr : Run waits s s') :
    ∃ order pend u, OneByOne key cfg n m L u0 s' order pend u := by
  induction hr with
  | start => exact h
  | step _ hs _ ih =>
    obtain ⟨order, pend, u, h⟩ := ih
    exact h.step hL hs

theorem start_oneByOne {n : Nat} {m : T} (L : ι → List (Script S)) (u0 : Uni S) (hu : Unlocked u0.env) (ht : ∀ t, Reach (key t) false (u0.env.tbl t)) :
    OneByOne key cfg n m L u0 (startSys key cfg n u0.env.tbl u0.fl (fun i => Script.each m (L i))) [] L u0 where
  serial := .nil
  proj i := by simp
  stage := .idle (fun _ => rfl) ⟨rfl, rfl, fun t => by rw [hu.2]; rfl, fun t => by rw [hu.1]; rfl, fun t => Nat.zero_le _⟩ (fun _ => rfl)
  quiet := hu
  rows := ht

end V11
