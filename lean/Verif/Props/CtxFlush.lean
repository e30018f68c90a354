import Verif.Spec.CtxFlush
import Verif.Model.CtxThreads
import Verif.Props.GuardsHeld
import Verif.Props.Threads

/-!
# Contexts that are worked with and flushed: C86
-/

set_option linter.unusedSectionVars false
set_option linter.unusedVariables false

namespace V11
variable {T : Type} [DecidableEq T] {S : T → Schema} [LS : ∀ t, LawfulSchema (S t)] {K : Type} [LinearOrder K]
  {key : (t : T) → Row (S t) → K} {cfg : Cfg S} {rank : T → Nat} {live : T → Bool} {ι : Type} [DecidableEq ι]
open Sys

theorem Orderly.perm (sc : Script S) {h h' : List (T × Mode)} (hp : h.Perm h') (ho : Orderly rank live h sc) : Orderly rank live h' sc := by
  induction sc generalizing h h' with
  | done => have ho : h = [] := ho; subst ho; exact hp.symm.eq_nil
  | write t k ih => exact ⟨fun x hx => ho.1 x (hp.mem_iff.2 hx), ih (hp.cons _) ho.2⟩
  | call t op k ih => exact ⟨hp.mem_iff.1 ho.1, ho.2.1, ih hp ho.2.2⟩
  | look t k ih => exact ⟨ho.1.imp fun m hm => hp.mem_iff.1 hm, fun x => ih x hp (ho.2 x)⟩
  | flush t ev k ih =>
    exact ⟨hp.mem_iff.1 ho.1, fun x hx => ho.2.1 x ((hp.erase _).mem_iff.2 hx), ih (hp.erase _) ho.2.2⟩
  | liveFlush t ev k ih =>
    exact ⟨hp.mem_iff.1 ho.1, ho.2.1, fun x hx => ho.2.2.1 x ((hp.erase _).mem_iff.2 hx), ih hp ho.2.2.2⟩
  | restore t sig own x ev k ih =>
    exact ⟨hp.mem_iff.1 ho.1, ho.2.1, ho.2.2.1, fun x hx => ho.2.2.2.1 x ((hp.erase _).mem_iff.2 hx), ih (hp.erase _) ho.2.2.2.2⟩
  | close t k ih => exact ⟨hp.mem_iff.1 ho.1, ih (hp.erase _) ho.2⟩
  | read t k ih => exact ⟨fun x hx => ho.1 x (hp.mem_iff.2 hx), ih (hp.cons _) ho.2⟩
  | unread t k ih => exact ⟨hp.mem_iff.1 ho.1, ih (hp.erase _) ho.2⟩
  | select t ev sel k ih =>
    exact ⟨hp.mem_iff.1 ho.1, fun x hx => ho.2.1 x ((hp.erase _).mem_iff.2 hx), ih (hp.erase _) ho.2.2⟩
  | tryWrite t yes no ih1 ih2 => exact ⟨ih1 (hp.cons _) ho.1, fun e => ih2 e hp (ho.2 e)⟩
  | tryRead t yes no ih1 ih2 => exact ⟨ih1 (hp.cons _) ho.1, fun e => ih2 e hp (ho.2 e)⟩

theorem orderly_closing (drops keep : List (T × Mode)) (k : Script S) (h : Orderly rank live keep k) :
    Orderly rank live (drops ++ keep) (closing drops k) := by
  induction drops with
  | nil => exact h
  | cons d drops ih =>
    obtain ⟨t, m⟩ := d
    cases m
    · refine ⟨by simp, ?_⟩
      rw [List.cons_append, List.erase_cons_head]; exact ih
    · refine ⟨by simp, ?_⟩
      rw [List.cons_append, List.erase_cons_head]; exact ih

theorem orderly_opening (fields h : List (T × Mode)) (k : Script S) (hd : Descending rank fields)
    (hb : ∀ f ∈ fields, ∀ g ∈ h, rank f.1 < rank g.1) (hk : Orderly rank live (h ++ fields) k) :
    Orderly rank live h (opening fields k) := by
  induction fields generalizing h with
  | nil => rw [List.append_nil] at hk; exact hk
  | cons f fields ih =>
    obtain ⟨t, m⟩ := f
    have hd' := List.pairwise_cons.1 hd
    have next : Orderly rank live ((t, m) :: h) (opening fields k) := by
      refine ih _ hd'.2 ?_ (Orderly.perm k ?_ hk)
      · intro f hf g hg
        rcases List.mem_cons.1 hg with rfl | hg
        · exact hd'.1 f hf
        · exact hb f (by simp [hf]) g hg
      · rw [List.cons_append]; exact List.perm_middle
    have hx : ∀ x ∈ h, rank t < rank x.1 := fun x hx => hb (t, m) (List.mem_cons_self ..) x hx
    cases m
    · exact ⟨hx, next⟩
    · exact ⟨hx, next⟩

theorem Descending.nodup {fields : List (T × Mode)} (h : Descending rank fields) : fields.Nodup :=
  h.imp (fun hlt e => by subst e; exact absurd hlt (lt_irrefl _))

/-- Considerate use of contexts is an orderly use of locks. -/
theorem Considerate.orderly (sc : CtxScript S) {h : List (T × Mode)} (hn : h.Nodup) (hc : Considerate rank live h sc) :
    Orderly rank live h (sc.script h) := by
  induction sc generalizing h with
  | done =>
    have := orderly_closing (rank := rank) (live := live) h [] (.done : Script S) rfl
    rw [List.append_nil] at this
    exact this
  | new fields k ih =>
    refine orderly_opening _ _ _ hc.1 hc.2.1 (ih ?_ hc.2.2)
    rw [List.nodup_append]
    refine ⟨hn, hc.1.nodup, ?_⟩
    rintro a ha b hb rfl
    exact absurd (hc.2.1 a hb a ha) (lt_irrefl _)
  | «from» fields k ih =>
    have hf := hc.1.nodup
    have hkeep : Orderly rank live (h.filter (· ∈ fields)) (opening (fields.filter (· ∉ h)) (k.script fields)) := by
      refine orderly_opening _ _ _ (List.Pairwise.filter _ hc.1) ?_ (Orderly.perm _ ?_ (ih hf hc.2.2))
      · intro f hf g hg
        simp only [List.mem_filter, decide_eq_true_eq] at hf hg
        exact hc.2.1 f hf.1 hf.2 g hg.2 hg.1
      · rw [List.perm_ext_iff_of_nodup hf]
        · intro a
          simp only [List.mem_append, List.mem_filter, decide_eq_true_eq]
          tauto
        · rw [List.nodup_append]
          refine ⟨hn.filter _, hf.filter _, ?_⟩
          rintro a ha b hb rfl
          simp only [List.mem_filter, decide_eq_true_eq] at ha hb
          exact hb.2 ha.1
    refine Orderly.perm _ ?_ (orderly_closing (h.filter (· ∉ fields)) _ _ hkeep)
    have := List.filter_append_perm (fun x => decide (x ∉ fields)) h
    simpa using this
  | call t op k ih => exact ⟨hc.1, hc.2.1, ih hn hc.2.2⟩
  | look t k ih => exact ⟨hc.1, fun x => ih x hn (hc.2 x)⟩
  | flush t ev k ih => exact ⟨hc.1, hc.2.1, ih (hn.erase _) hc.2.2⟩
  | liveFlush t ev k ih => exact ⟨hc.1, hc.2.1, hc.2.2.1, ih hn hc.2.2.2⟩

/-- C86: any number of threads that lock through contexts, work with the tables and flush them, considerately. In every state
that any schedule reaches, every thread is finished or some thread can go on. -/
theorem C86_no_deadlock (hac : Acyclic cfg rank) (progs : ι → CtxScript S) (ho : ∀ i, Considerate rank live [] (progs i))
    (tbl : (t : T) → Tbl (S t)) (fl : T → FlushLock) (hfl : ∀ t, (fl t).leaked = 0 ∧ (live t = true → (fl t).remapped = []))
    (waits : Sys S ι → ι → Prop) (hw : MayWait waits) (n : Nat) (s : Sys S ι)
    (hr : Run waits (startSys key cfg n tbl fl (fun i => (progs i).script [])) s) :
    (∀ i, Finished s i) ∨ ∃ i s', Step s i s' ∧ ¬ waits s i :=
  C63_no_deadlock hac _ (fun i => (ho i).orderly _ List.nodup_nil) tbl fl hfl waits hw n s hr

/-- C86: and all can be finished. -/
theorem C86_completes [Fintype ι] (hac : Acyclic cfg rank) (progs : ι → CtxScript S) (ho : ∀ i, Considerate rank live [] (progs i))
    (tbl : (t : T) → Tbl (S t)) (fl : T → FlushLock) (hfl : ∀ t, (fl t).leaked = 0 ∧ (live t = true → (fl t).remapped = []))
    (waits : Sys S ι → ι → Prop) (hw : MayWait waits) (n : Nat) (s : Sys S ι)
    (hr : Run waits (startSys key cfg n tbl fl (fun i => (progs i).script [])) s) : ∃ s', Run waits s s' ∧ ∀ i, Finished s' i :=
  C63_completes hac _ (fun i => (ho i).orderly _ List.nodup_nil) tbl fl hfl waits hw n s hr

/-- C86: `from` drops and locks here what it drops and locks in `Model/Context` (`fromActs`, which `C81_agrees` ties to
`ctxFrom`), in the same order. -/
theorem C86_from_agrees (ty : T × Mode → LockTy) (hty : ∀ a b, (ty a).name = (ty b).name → a = b) (fields h : List (T × Mode))
    (hf : fields.Nodup) (hh : h.Nodup) :
    fromActs (fields.map ty) (h.map ty) =
      (h.filter (· ∉ fields)).map (fun x => .rel (ty x)) ++ (fields.filter (· ∉ h)).map (fun x => .acq (ty x)) := by
  have main : ∀ (gs don : List (T × Mode)), (don ++ gs).Nodup →
      place (fields.map fun f => (ty f, decide (f ∈ don))) (gs.map ty) =
        (fields.map (fun f => (ty f, decide (f ∈ don ++ gs))), (gs.filter (· ∉ fields)).map ty) := by
    intro gs
    induction gs with
    | nil => intro don _; simp [place]
    | cons g gs ih =>
      intro don hnd
      rw [List.map_cons, place]
      by_cases hg : g ∈ fields
      · obtain ⟨i, hi, hgi⟩ := List.getElem_of_mem hg
        have hfind : (fields.map fun f => (ty f, decide (f ∈ don))).findIdx? (fun s => decide (s.1.name = (ty g).name)) = some i := by
          rw [List.findIdx?_eq_some_iff_getElem]
          refine ⟨by simpa using hi, by simp [hgi], ?_⟩
          intro j hj
          simp only [List.getElem_map, decide_eq_true_eq]
          intro e
          have e := hty _ _ e
          rw [← hgi] at e
          have := (List.Nodup.getElem_inj_iff hf).1 e
          omega
        rw [hfind]
        have hgd : g ∉ don := by
          intro hgd
          have := List.nodup_append.1 hnd
          exact this.2.2 g hgd g (by simp) rfl
        have hget : (fields.map fun f => (ty f, decide (f ∈ don)))[i]? = some (ty g, false) := by
          rw [List.getElem?_map, List.getElem?_eq_getElem hi, hgi]; simp [hgd]
        simp only [hget]
        have hset : (fields.map fun f => (ty f, decide (f ∈ don))).set i (ty g, true) =
            fields.map fun f => (ty f, decide (f ∈ don ++ [g])) := by
          apply List.ext_getElem
          · simp
          · intro j h1 h2
            rw [List.getElem_set]
            simp only [List.length_set, List.length_map] at h1
            split
            · rename_i hij
              subst hij
              simp [hgi]
            · rename_i hij
              have : fields[j] ≠ g := by
                intro e
                rw [← hgi] at e
                exact hij ((List.Nodup.getElem_inj_iff hf).1 e).symm
              simp [this]
        rw [hset, ih (don ++ [g]) (by simpa using hnd)]
        simp [hg]
      · have hfind : (fields.map fun f => (ty f, decide (f ∈ don))).findIdx? (fun s => decide (s.1.name = (ty g).name)) = none := by
          rw [List.findIdx?_eq_none_iff]
          intro x hx
          obtain ⟨f, hf', rfl⟩ := List.mem_map.1 hx
          simp only [decide_eq_false_iff_not]
          intro e
          exact hg (hty _ _ e ▸ hf')
        rw [hfind]
        have hmid : place (fields.map fun f => (ty f, decide (f ∈ don))) (gs.map ty) =
            (fields.map (fun f => (ty f, decide (f ∈ don ++ g :: gs))), (gs.filter (· ∉ fields)).map ty) := by
          rw [ih don (by
            rw [List.nodup_append] at hnd ⊢
            refine ⟨hnd.1, (List.nodup_cons.1 hnd.2.1).2, ?_⟩
            intro a ha b hb
            exact hnd.2.2 a ha b (by simp [hb]))]
          congr 1
          apply List.map_congr_left
          intro f hf'
          have : f ≠ g := fun e => hg (e ▸ hf')
          simp [this]
        simp only [hmid]
        simp [hg]
  unfold fromActs
  have h0 := main h [] (by simpa using hh)
  simp only [List.not_mem_nil, decide_false, List.nil_append] at h0
  have he : (fields.map ty).map (·, false) = fields.map fun f => (ty f, false) := by rw [List.map_map]; rfl
  rw [he, h0]
  simp only [List.map_map]
  congr 1
  rw [List.filter_map, List.map_map]
  congr 1
  apply List.filter_congr
  intro x _
  simp

/-- C86, the defect: a context with a table and one of its dependants. A thread that deletes rows of the table and flushes it from
such a context waits for itself for ever (or panics), if the dependant's field is for writing or the event's handler deletes;
nobody else is needed. -/
theorem C86_context_hangs {n : Nat} {p c : T} (hp : (S p).kind = .consistent) (hd : DependsOn cfg c p) (hcp : c ≠ p) (m : Mode) (ev : Event)
    (hm : m = .wr ∨ cfg.handlers[ev.id]? = some .delete) (i : Nat) (rows : List Nat) (k : CtxScript S) (u : Uni S) (r : Unit × Uni S) :
    (((CtxScript.new [(p, .wr), (c, m)] ((i :: rows).foldr (fun i k => .call p (.delete i) k) (.flush p ev k))).script []).prog
      key cfg n (fun _ => none)).run u ≠ .ok r := by
  have stuck : ∀ (w : W (S p)) (env env' : Env S), w.changes.isEmpty = false →
      (env.writer c = true ∨ cfg.handlers[ev.id]? = some .delete ∧ env.reads c ≠ 0) → flush cfg n p w ev env ≠ .ok env' := by
    intro w env env' hw hg h
    obtain ⟨a, b⟩ := C86_needs h hw hd hcp
    rcases hg with hg | ⟨h1, h2⟩
    · rw [a] at hg; cases hg
    · exact h2 (b h1)
  have main : ∀ (rows : List Nat) (h : List (T × Mode)) (w : W (S p)) (o : Open S) (u : Uni S), o p = some w →
      (∃ l, w.changes = .these l ∧ (l ++ rows ≠ [])) → (u.env.writer c = true ∨ cfg.handlers[ev.id]? = some .delete ∧ u.env.reads c ≠ 0) →
      (((rows.foldr (fun i k => CtxScript.call p (.delete i) k) (.flush p ev k)).script h).prog key cfg n o).run u ≠ .ok r := by
    intro rows
    induction rows with
    | nil =>
      intro h w o u ho hw hg he
      simp only [List.foldr_nil, CtxScript.script, Script.prog, ho] at he
      rw [Prog.run_bind, run_flushP, liftE_bind] at he
      obtain ⟨env', h1, -⟩ := bind_ok he
      obtain ⟨l, hl, hne⟩ := hw
      rw [List.append_nil] at hne
      refine stuck w u.env env' ?_ hg h1
      rw [hl]
      simp [Select.isEmpty, hne]
    | cons i rows ih =>
      intro h w o u ho hw hg he
      simp only [List.foldr_cons, CtxScript.script, Script.prog, ho] at he
      rw [Prog.run_bind, run_ofR] at he
      obtain ⟨x, hx, he⟩ := bind_ok he
      obtain ⟨w', hw', hx⟩ := bind_ok hx
      injection hx with hx; subst hx
      obtain ⟨l, hl, -⟩ := hw
      have hs : w.steps (key p) [.delete i] = .ok w' := by
        unfold W.steps
        rw [List.foldlM_cons, hw', okBind]; rfl
      have := (steps_marks hp hl [.delete i] (by simp [LOp.mark]) hs).2
      refine ih h w' _ u (Function.update_self ..) ⟨l ++ [i], ?_, by simp⟩ hg he
      rw [this]; rfl
  intro he
  simp only [CtxScript.script, opening, Script.prog] at he
  rw [Prog.run_bind, run_lockP, liftU_bind] at he
  obtain ⟨⟨w, env1⟩, h1, he⟩ := bind_ok he
  simp only [] at he
  obtain ⟨g1, g2, g3, g4⟩ := lock_guards h1
  have hw : w.changes = .these [] := by
    unfold Env.lock at h1
    split at h1
    · cases h1
    · injection h1 with h1; injection h1 with e1 e2; subst e1; rfl
  cases m with
  | wr =>
    simp only [opening, Script.prog] at he
    rw [Prog.run_bind, run_lockP, liftU_bind] at he
    obtain ⟨⟨w2, env2⟩, h2, he⟩ := bind_ok he
    simp only [] at he
    obtain ⟨q1, q2, q3, q4⟩ := lock_guards h2
    refine main (i :: rows) _ w _ _ ?_ ⟨[], hw, by simp⟩ ?_ he
    · rw [Function.update_of_ne (Ne.symm hcp), Function.update_self]
    · left
      show env2.writer c = true
      rw [q4, Function.update_self]
  | rd =>
    simp only [opening, Script.prog] at he
    rw [Prog.run_bind] at he
    obtain ⟨⟨x, u2⟩, h2, he⟩ := bind_ok he
    have hdel : cfg.handlers[ev.id]? = some .delete := by
      rcases hm with hm | hm
      · cases hm
      · exact hm
    have hu2 : u2.env.reads c ≠ 0 := by
      have h2 : (if env1.writer c = true then .error .deadlock else .ok ((), ({ u with env := { env1 with
          reads := Function.update env1.reads c (env1.reads c + 1) } } : Uni S)) : R (Unit × Uni S)) = .ok (x, u2) := h2
      split at h2
      · cases h2
      · injection h2 with h2; injection h2 with e1 e2; subst e2
        show Function.update env1.reads c (env1.reads c + 1) c ≠ 0
        rw [Function.update_self]; omega
    refine main (i :: rows) _ w _ _ ?_ ⟨[], hw, by simp⟩ (Or.inr ⟨hdel, hu2⟩) he
    rw [Function.update_self]

/-! ### The hypotheses are met -/

/-- Thread 0 opens a context on parents and children, adds a child and flushes it, keeps the parents in a second context and
deletes one; thread 1 works on the children and grandchildren in one context, dropping the children first. -/
def uniCtx : Fin 2 → CtxScript UniS
  | 0 => .new [(0, .wr), (1, .wr)] (.call 1 (.push (uniRow 1 2 5)) (.flush 1 evCreate (.from [(0, .wr)]
      (.call 0 (.delete 0) (.flush 0 evDelete .done)))))
  | 1 => .new [(1, .rd), (2, .wr)] (.look 1 fun x => if x.len = 0 then .done else
      .call 2 (.merge [uniRow 2 2 7]) (.liveFlush 2 evCreate (.from [(1, .rd), (2, .rd)] .done)))

theorem uniCtx_considerate (i : Fin 2) : Considerate uniRank (fun t => decide (t = 2)) [] (uniCtx i) := by
  match i with
  | 0 =>
    simp [uniCtx, Considerate, Descending, uniRank, LOp.Allowed]
  | 1 =>
    refine ⟨by simp [Descending, uniRank], by simp, ⟨.rd, by simp⟩, fun x => ?_⟩
    by_cases h : x.len = 0
    · simp [h, Considerate]
    · beta_reduce
      rw [if_neg h]
      refine ⟨by simp, rfl, by simp, rfl, by simp [uniRank], by simp [Descending, uniRank], by simp [uniRank], trivial⟩

example (s : Sys UniS (Fin 2)) (waits : Sys UniS (Fin 2) → Fin 2 → Prop) (hw : MayWait waits)
    (hr : Run waits (startSys uniKey uniCfg 5 uniTbl (fun _ => .new) (fun i => (uniCtx i).script [])) s) :
    ((∀ i, Finished s i) ∨ ∃ i s', Step s i s' ∧ ¬ waits s i) ∧ ∃ s', Run waits s s' ∧ ∀ i, Finished s' i :=
  ⟨C86_no_deadlock uniAcyclic uniCtx uniCtx_considerate uniTbl _ (fun _ => ⟨rfl, fun _ => rfl⟩) waits hw 5 s hr,
    C86_completes uniAcyclic uniCtx uniCtx_considerate uniTbl _ (fun _ => ⟨rfl, fun _ => rfl⟩) waits hw 5 s hr⟩

/-- The second context of thread 0 is made by dropping what is left of the first but the parents. -/
example : (CtxScript.from [(0, Mode.wr), (2, .rd)] (.done : CtxScript UniS)).script [(0, .wr), (1, .wr)] =
    .close 1 (.read 2 (.close 0 (.unread 2 .done))) := by rfl

/-- A context on parents and grandchildren (for reading): a flush of deleted parents from it never returns. -/
example (r : Unit × Uni UniS) (u : Uni UniS) :
    (((CtxScript.new [(0, .wr), (2, .rd)] (.call 0 (.delete 1) (.flush 0 evDelete .done))).script []).prog uniKey uniCfg 5
      (fun _ => none)).run u ≠ .ok r :=
  C86_context_hangs (p := 0) (c := 2) rfl (uniDepends.2 (by decide)) (by decide) .rd evDelete (Or.inr rfl) 1 [] .done u r

end V11
