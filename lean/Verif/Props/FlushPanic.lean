import Verif.Lemmas.FlushPanic
import Verif.Props.Integrity

/-!
# C82: what a tracker that panics in the middle of a flush leaves

`Calm`, `Bursts`, `Env.asSeen`, `PartlyCascaded` and `Shallow` are in `Spec/FlushPanic.lean`.
-/

set_option linter.unusedSimpArgs false
set_option linter.unusedSectionVars false
set_option linter.unusedVariables false

namespace V11
section
variable {T : Type} [DecidableEq T] {S : T → Schema}

theorem calm_or_bursts (boom : Boom S) (new : List (Call S)) : ∀ log, Calm boom log new ∨ ∃ k c p, Bursts boom log new k c p := by
  induction new with
  | nil => intro log; exact Or.inl (fun k hk => by simp at hk)
  | cons c cs ih =>
    intro log
    cases hb : boom (log ++ [c]) with
    | some p => exact Or.inr ⟨0, c, p, ⟨by simp, rfl, by simpa using hb⟩⟩
    | none =>
      rcases ih (log ++ [c]) with h | ⟨k, d, p, h⟩
      · left
        intro k hk
        cases k with
        | zero => simpa using hb
        | succ k =>
          have := h k (by simpa using hk)
          simpa using this
      · right
        refine ⟨k + 1, d, p, ⟨?_, by simpa using h.at_, by simpa using h.panic⟩⟩
        intro j hj
        cases j with
        | zero => simpa using hb
        | succ j => simpa using h.before j (by omega)

theorem take_succ_at {α : Type} {l : List α} {k : Nat} {c : α} (h : l[k]? = some c) : l.take (k + 1) = l.take k ++ [c] := by
  rw [List.take_add_one, h]; rfl

theorem outcome_calm {α : Type} {boom : Boom S} {env env' : Env S} {new : List (Call S)} (a : α) (h : Calm boom env.log new) :
    outcome boom env env' new a = (env', .ok a) := by
  unfold outcome; rw [cutCall_none new _ h]

theorem outcome_bursts {α : Type} {boom : Boom S} {env env' : Env S} {new : List (Call S)} (a : α) {k : Nat} {c : Call S} {p : Panic}
    (h : Bursts boom env.log new k c p) : outcome boom env env' new a = (env.asSeen c (env.log ++ new.take (k + 1)), .error p) := by
  unfold outcome; rw [cutCall_some new _ k c p h, take_succ_at h.at_]
  simp only [List.append_assoc]

theorem session_split {K : Type} [LinearOrder K] {cfg : Cfg S} {n : Nat} {key : (t : T) → Row (S t) → K} {t : T} {ops : List (LOp (S t))}
    {ev : Event} {env env' : Env S} (h : session cfg n key t ops ev env = .ok env') :
    ∃ w, env.writer t = false ∧ (W.lock (env.tbl t)).steps (key t) ops = .ok w ∧
      flush cfg n t w ev { env with writer := Function.update env.writer t true } = .ok env' ∧
      ∀ boom, kSession cfg boom n key t ops ev env = kFlush cfg boom n t w ev { env with writer := Function.update env.writer t true } := by
  unfold session at h
  cases el : env.lock t with
  | error p => simp only [el] at h; cases h
  | ok r =>
    obtain ⟨w0, env1⟩ := r
    obtain ⟨rfl, rfl, hw⟩ := lock_inv el
    simp only [el, okBind] at h
    cases es : (W.lock (env.tbl t)).steps (key t) ops with
    | error p => simp only [es] at h; cases h
    | ok w =>
      simp only [es, okBind] at h
      refine ⟨w, hw, rfl, h, ?_⟩
      intro boom
      unfold kSession
      simp only [el, es]

/-! ## A panic cuts the flush short -/

/-- C82: if no tracker panics nothing is different. -/
theorem C82_calm {K : Type} [LinearOrder K] {cfg : Cfg S} {n : Nat} {key : (t : T) → Row (S t) → K} {t : T} {ops : List (LOp (S t))}
    {ev : Event} {env env' : Env S} (h : session cfg n key t ops ev env = .ok env') {new : List (Call S)} (hl : env'.log = env.log ++ new)
    (boom : Boom S) (hc : Calm boom env.log new) : kSession cfg boom n key t ops ev env = (env', .ok ()) := by
  obtain ⟨w, hw, -, hf, hk⟩ := session_split h
  rw [hk]
  obtain ⟨-, -, new', a3, a4⟩ := sim_flushWith (sim_doFlush cfg boom n) t w ev hf
  have : new' = new := List.append_cancel_left (a3.symm.trans hl)
  subst this
  unfold kFlush
  rw [a4, outcome_calm]
  exact hc

/-- C82: a flush that would have returned, having made the calls `new`, of which the `k`-th is the first to panic: the panic
reaches the caller, exactly the calls up to and including that one have been made, the universe is what that call
saw, and no lock is held or poisoned by it: the thread holds what it held before. -/
theorem C82_cut {K : Type} [LinearOrder K] {cfg : Cfg S} {n : Nat} {key : (t : T) → Row (S t) → K} {t : T} {ops : List (LOp (S t))}
    {ev : Event} {env env' : Env S} (h : session cfg n key t ops ev env = .ok env') {new : List (Call S)} (hl : env'.log = env.log ++ new)
    {boom : Boom S} {k : Nat} {c : Call S} {p : Panic} (hb : Bursts boom env.log new k c p) :
    kSession cfg boom n key t ops ev env = (env.asSeen c (env.log ++ new.take (k + 1)), .error p) := by
  obtain ⟨w, hw, -, hf, hk⟩ := session_split h
  rw [hk]
  obtain ⟨-, -, new', a3, a4⟩ := sim_flushWith (sim_doFlush cfg boom n) t w ev hf
  have : new' = new := List.append_cancel_left (a3.symm.trans hl)
  subst this
  unfold kFlush
  rw [a4, unlock_writer hw, outcome_bursts (env := env.put t w.tbl) () hb]
  rfl

/-- C82: the same for a notification through a read lock (`select_rows`, `select_all`). -/
theorem C82_cut_read {cfg : Cfg S} {n : Nat} {t : T} {ev : Event} {sel : Select (List Nat)} {env env' : Env S}
    (h : readSelect cfg n t ev sel env = .ok env') {new : List (Call S)} (hl : env'.log = env.log ++ new) {boom : Boom S} :
    (Calm boom env.log new → kReadSelect cfg boom n t ev sel env = (env', .ok ())) ∧
    ∀ k c p, Bursts boom env.log new k c p →
      kReadSelect cfg boom n t ev sel env = (env.asSeen c (env.log ++ new.take (k + 1)), .error p) := by
  unfold readSelect at h
  unfold kReadSelect
  cases ep : env.peek t with
  | error p => simp only [ep] at h; cases h
  | ok x =>
    simp only [ep, okBind] at h ⊢
    cases ef : doFlush cfg n t ev false false sel env with
    | error p => simp only [ef] at h; cases h
    | ok r =>
      obtain ⟨s, env1⟩ := r
      simp only [ef, okBind] at h
      injection h with h; subst h
      obtain ⟨a1, a2, new', a3, a4⟩ := sim_doFlush cfg boom n t ev false false sel env s env1 ef
      have : new' = new := List.append_cancel_left (a3.symm.trans hl)
      subst this
      have ht := outcome_trans (g := fun _ => Xr.ret ()) a4 a3 a1 a2 (b := ()) (env2 := env1) (n2 := []) rfl
      rw [List.append_nil] at ht
      refine ⟨fun hc => ?_, fun k c p hb => ?_⟩
      · rw [ht, outcome_calm _ hc]
      · rw [ht, outcome_bursts _ hb]

/-- C82: `live_flush` keeps its lock, so its table shows the panicking call's state and the lock is left with no
changes to flush: nothing will remind the owner that the flush was not finished. -/
theorem C82_cut_live {cfg : Cfg S} {n : Nat} {t : T} {ev : Event} {w w' : W (S t)} {env env' : Env S}
    (h : liveFlush cfg n t w ev env = .ok (w', env')) {new : List (Call S)} (hl : env'.log = env.log ++ new) {boom : Boom S} :
    (Calm boom env.log new → kLiveFlush cfg boom n t w ev env = (env', w', .ok ())) ∧
    ∀ k c p, Bursts boom env.log new k c p →
      kLiveFlush cfg boom n t w ev env = (env.asSeen c (env.log ++ new.take (k + 1)), { w with changes := .these [] }, .error p) := by
  unfold liveFlush at h
  unfold kLiveFlush
  by_cases he : w.changes.isEmpty = true
  · rw [if_pos he] at h ⊢
    injection h with h; injection h with h1 h2; subst h1 h2
    have : new = [] := by simpa using hl
    subst this
    exact ⟨fun _ => rfl, fun k c p hb => by have := hb.at_; simp at this⟩
  · rw [if_neg he] at h ⊢
    cases ef : doFlush cfg n t ev w.pushed w.delete w.changes (env.put t w.tbl) with
    | error p => simp only [ef] at h; cases h
    | ok r =>
      obtain ⟨s, env1⟩ := r
      simp only [ef, okBind] at h
      obtain ⟨a1, a2, new', a3, a4⟩ := sim_doFlush cfg boom n t ev w.pushed w.delete w.changes (env.put t w.tbl) s env1 ef
      have hx : ∃ x, (if (ev.isRemoval && !s.isEmpty) = true then w.tbl.removeSel s else .ok w.tbl : R (Tbl (S t))) = .ok x ∧
          w' = W.lock x ∧ env' = env1.put t x := by
        cases hb : (ev.isRemoval && !s.isEmpty) with
        | false =>
          simp only [hb, Bool.false_eq_true, if_false] at h ⊢
          injection h with h; injection h with h1 h2
          exact ⟨_, rfl, h1.symm, h2.symm⟩
        | true =>
          simp only [hb, if_true] at h ⊢
          cases ex : w.tbl.removeSel s with
          | error p => simp only [ex] at h; cases h
          | ok x =>
            simp only [ex, okBind] at h
            injection h with h; injection h with h1 h2
            exact ⟨_, rfl, h1.symm, h2.symm⟩
      obtain ⟨x, ex, rfl, rfl⟩ := hx
      have : new' = new := List.append_cancel_left (a3.symm.trans hl)
      subst this
      refine ⟨fun hc => ?_, fun k c p hb => ?_⟩
      · rw [a4, outcome_calm (env := env.put t w.tbl) s hc]
        simp only [ex]
      · rw [a4, outcome_bursts (env := env.put t w.tbl) s hb]
        rfl

/-! ## What can be left -/

/-- Whatever happens in it, an event whose handler does nothing changes no table and no lock. -/
theorem kDoFlush_null (cfg : Cfg S) (boom : Boom S) {ev : Event} (hh : cfg.handlers[ev.id]? = some .null) (n : Nat) :
    ∀ t pushed delete sel env env' r, kDoFlush cfg boom n t ev pushed delete sel env = (env', r) →
      env'.tbl = env.tbl ∧ env'.reads = env.reads ∧ env'.writer = env.writer := by
  induction n with
  | zero =>
    intro t pushed delete sel env env' r h
    injection h with h1 h2; subst h1
    exact ⟨rfl, rfl, rfl⟩
  | succ n ih =>
    have hloop : ∀ p (ts : List (Tracker S)) st env env' r, kFlushLoop boom (kDoFlush cfg boom n) p ev .null ts st env = (env', r) →
        env'.tbl = env.tbl ∧ env'.reads = env.reads ∧ env'.writer = env.writer := by
      intro p ts
      have hhandle : ∀ tr rows env env' r, kTrackerHandle boom (kDoFlush cfg boom n) p tr ev rows .null env = (env', r) →
          env'.tbl = env.tbl ∧ env'.reads = env.reads ∧ env'.writer = env.writer := by
        intro tr rows env env' r h
        cases tr with
        | observer o =>
          unfold kTrackerHandle at h
          simp only [] at h
          split at h <;> (injection h with h1 h2; subst h1; exact ⟨rfl, rfl, rfl⟩)
        | auto fk =>
          unfold kTrackerHandle at h
          simp only [] at h
          split at h
          · injection h with h1 h2; subst h1; exact ⟨rfl, rfl, rfl⟩
          · split at h
            · injection h with h1 h2; subst h1; exact ⟨rfl, rfl, rfl⟩
            · rename_i sel _
              unfold kHandlerRun handlerNeedsSort at h
              simp only [kHandlerHandle, Xr.ret] at h
              cases ea : env.acquireRead fk.child with
              | error q => simp only [ea] at h; injection h with h1 h2; subst h1; exact ⟨rfl, rfl, rfl⟩
              | ok env1 =>
                simp only [ea] at h
                rcases ek : kDoFlush cfg boom n fk.child ev ev.isCreation ev.isRemoval (if false = true then sel.sort else sel) env1 with ⟨env2, o⟩
                obtain ⟨b1, b2, b3⟩ := ih fk.child _ _ _ env1 env2 o ek
                have he1 : env1 = { env with reads := Function.update env.reads fk.child (env.reads fk.child + 1) } := by
                  unfold Env.acquireRead at ea
                  split at ea
                  · cases ea
                  · injection ea with ea; exact ea.symm
                have hrr : (env2.releaseRead fk.child).reads = env.reads := by
                  unfold Env.releaseRead
                  simp only [b2, he1, Function.update_idem, Function.update_self, Nat.add_sub_cancel, Function.update_eq_self]
                have : env' = env2.releaseRead fk.child := by
                  cases o with
                  | error q => simp only [ek] at h; injection h with h1 h2; exact h1.symm
                  | ok x => simp only [ek] at h; injection h with h1 h2; exact h1.symm
                rw [this]
                refine ⟨?_, hrr, ?_⟩
                · show env2.tbl = env.tbl
                  rw [b1, he1]
                · show env2.writer = env.writer
                  rw [b3, he1]
      induction ts with
      | nil => intro st env env' r h; injection h with h1 h2; subst h1; exact ⟨rfl, rfl, rfl⟩
      | cons tr ts iht =>
        intro st env env' r h
        have hstep : ∀ env1 o, kFlushStep boom (kDoFlush cfg boom n) p ev .null st tr env = (env1, o) →
            env1.tbl = env.tbl ∧ env1.reads = env.reads ∧ env1.writer = env.writer := by
          intro env1 o hs
          unfold kFlushStep at hs
          by_cases hc : tr.considers ev = false
          · rw [if_pos hc] at hs
            injection hs with h1 h2; subst h1; exact ⟨rfl, rfl, rfl⟩
          · rw [if_neg hc] at hs
            generalize (if (!st.2 && tr.sort) = true then (st.1.sort, true) else st) = st' at hs
            rcases et : kTrackerHandle boom (kDoFlush cfg boom n) p tr ev st'.1 .null env with ⟨env2, q⟩
            have := hhandle tr _ env env2 q et
            unfold Xr.andThen at hs
            cases q with
            | error q => rw [et] at hs; injection hs with h1 h2; subst h1; exact this
            | ok x => rw [et] at hs; injection hs with h1 h2; subst h1; exact this
        unfold kFlushLoop Xr.andThen at h
        rcases es : kFlushStep boom (kDoFlush cfg boom n) p ev .null st tr env with ⟨env1, o⟩
        obtain ⟨c1, c2, c3⟩ := hstep env1 o es
        cases o with
        | error q => rw [es] at h; injection h with h1 h2; subst h1; exact ⟨c1, c2, c3⟩
        | ok x =>
          rw [es] at h
          obtain ⟨d1, d2, d3⟩ := iht x env1 env' r h
          exact ⟨d1.trans c1, d2.trans c2, d3.trans c3⟩
    intro t pushed delete sel env env' r h
    unfold kDoFlush at h
    have hhd : cfg.handler ev = .ok .null := by unfold Cfg.handler; rw [hh]
    rw [hhd] at h
    by_cases hb : ((pushed && delete) || (ev.isRemoval && ev.isCreation)) = true
    · rw [if_pos hb] at h
      injection h with h1 h2; subst h1; exact ⟨rfl, rfl, rfl⟩
    · rw [if_neg hb] at h
      simp only [Xr.andThen] at h
      rcases el : kFlushLoop boom (kDoFlush cfg boom n) t ev .null (cfg.trackers t) (sel, sel.isAll) env with ⟨env1, o⟩
      have := hloop t _ _ env env1 o el
      cases o with
      | error q => simp only [el] at h; injection h with h1 h2; subst h1; exact this
      | ok x => simp only [el, Xr.ret] at h; injection h with h1 h2; subst h1; exact this

/-- C82: flushing with an event that removes nothing and whose handler does nothing (creations): whatever the trackers do, also
if one of them panics, the session's changes to its table are in place, nothing else has changed, and no lock is left held. -/
theorem C82_created_rows_stay {K : Type} [LinearOrder K] {cfg : Cfg S} (boom : Boom S) {n : Nat} {key : (t : T) → Row (S t) → K} {t : T}
    {ops : List (LOp (S t))} {ev : Event} (hr : ev.isRemoval = false) (hh : cfg.handlers[ev.id]? = some .null) {env env' : Env S} {r : R Unit}
    (hu : Unlocked env) {w : W (S t)} (hs : (W.lock (env.tbl t)).steps (key t) ops = .ok w)
    (h : kSession cfg boom n key t ops ev env = (env', r)) :
    env'.tbl = Function.update env.tbl t w.tbl ∧ Unlocked env' := by
  unfold kSession at h
  have hlk : env.lock t = .ok (W.lock (env.tbl t), { env with writer := Function.update env.writer t true }) := by
    unfold Env.lock; rw [if_neg (by simp [hu.1 t, hu.2 t])]
  rw [hlk] at h
  simp only [hs] at h
  unfold kFlush kFlushWith at h
  rw [unlock_writer (hu.2 t)] at h
  by_cases he : w.changes.isEmpty = true
  · rw [if_pos he] at h
    injection h with h1 h2; subst h1
    exact ⟨rfl, hu⟩
  · rw [if_neg he] at h
    simp only [Xr.andThen] at h
    rcases ek : kDoFlush cfg boom n t ev w.pushed w.delete w.changes (env.put t w.tbl) with ⟨env1, o⟩
    obtain ⟨a1, a2, a3⟩ := kDoFlush_null cfg boom hh n _ _ _ _ _ _ _ ek
    have : env' = env1 := by
      cases o with
      | error q => simp only [ek] at h; injection h with h1 h2; exact h1.symm
      | ok x =>
        simp only [ek, hr, Bool.false_and, Bool.false_eq_true, if_false, Xr.ret] at h
        injection h with h1 h2; exact h1.symm
    rw [this]
    refine ⟨a1, ?_, ?_⟩
    · rw [a2]; exact hu.1
    · rw [a3]; exact hu.2

end

section
variable {T : Type} [DecidableEq T] {S : T → Schema} [LS : ∀ t, LawfulSchema (S t)]
variable {K : Type} [LinearOrder K] {key : (t : T) → Row (S t) → K} {cfg : Cfg S} {rank : T → Nat}

theorem SeenOk.partly {p : T} {rows : List Nat} {u v : (t : T) → Tbl (S t)} (hu : Ready key cfg u) (h : SeenOk key cfg rank p rows u v) :
    PartlyCascaded cfg u v p rows := by
  have hs := h.sound (Doomed cfg u p rows) (doomed_closed _ _ _) (fun _ i hi => Doomed.seed hi)
  refine ⟨hs.cons, ?_, hs.other, h.same p (le_refl _)⟩
  intro t hk
  have hne : (S t).kind ≠ .consistent := by rw [hk]; simp
  obtain ⟨keep, k1, k2⟩ := hs.sorted t hk
  exact ⟨keep, k1, fun L hL => (k2 L ((hu.reach t).wf_of_holds hne hL).1).holds' hne⟩

/-- C82: deleting live rows of a consistent table with trackers that may panic: either the session does all that C29 says, or it
panics and part of it is done — rows that had to go are gone, or are still there; no other row has changed; the
rows to be deleted themselves are all still there —, every table is still in a state that the other theorems apply to, and
no lock is held. -/
theorem C82_what_is_left (boom : Boom S) {ev : Event} (hst : Standard cfg) (hac : Acyclic cfg rank)
    (hr : ev.isRemoval = true) (hc : ev.isCreation = false) (hh : cfg.handlers[ev.id]? = some .delete) {n : Nat} {p : T}
    (hn : rank p < n) (hp : (S p).kind = .consistent) {env : Env S} (hu : Unlocked env) (hrd : Ready key cfg env.tbl)
    (rows : List Nat) (hl : ∀ i ∈ rows, (env.tbl p).contains i = true) (ht : Tame cfg rows) :
    ∃ env', Unlocked env' ∧ Ready key cfg env'.tbl ∧
      ((kSession cfg boom n key p (rows.map .delete) ev env = (env', .ok ()) ∧ Cascaded cfg env.tbl env'.tbl p rows) ∨
        ∃ q, kSession cfg boom n key p (rows.map .delete) ev env = (env', .error q) ∧ PartlyCascaded cfg env.tbl env'.tbl p rows) := by
  obtain ⟨w, hw⟩ := steps_delete_ok (key := key p) hp (W.lock (env.tbl p)) rows hl
  have hm : ∀ op ∈ rows.map (LOp.delete (S := S p)), op.mark.isSome = true := by simp [LOp.mark]
  have hfm : (rows.map (LOp.delete (S := S p))).filterMap LOp.mark = rows := by
    rw [List.filterMap_map]
    have : (LOp.mark ∘ (LOp.delete (S := S p))) = some := rfl
    rw [this, List.filterMap_some]
  have hlt : ∀ i ∈ rows, i < (env.tbl p).len := by
    intro i hi
    have := hl i hi
    unfold Tbl.contains at this
    rw [if_pos hp] at this
    simp only [Bool.and_eq_true, decide_eq_true_eq] at this
    exact this.1
  obtain ⟨env1, a1, a2, a3, a4, a5, a6, a7⟩ := session_marks hp hu hm hw
  rw [hfm] at a6
  have hup : Function.update env1.tbl p w.tbl = env.tbl := by rw [a2, a4, Function.update_eq_self]
  obtain ⟨env', b1, b2, b3, b4⟩ := C29_cascade_exact hst hac hr hc hh hn hp hu hrd rows hl ht
  have hseen : ∃ new, env'.log = env.log ++ new ∧ ∀ c ∈ new, SeenOk key cfg rank p rows env.tbl c.seen := by
    by_cases he : rows = []
    · have hf := flush_nothing (cfg := cfg) (n := n) (env := env1) (ev := ev) (w := w) (by rw [a6, he])
      rw [a7, hf] at b1
      injection b1 with b1
      refine ⟨[], ?_, by simp⟩
      rw [← b1, List.append_nil, ← a3]; rfl
    · obtain ⟨env2, env3, c1, -, -, -, c5, c6⟩ := flush_removal hst hac hc hr hh hn hp a1 (by rw [hup]; exact hrd) a6 he (by simp [a5]) ht
        (by rw [a4]; exact hlt)
      rw [a7, c1] at b1
      injection b1 with b1; subst b1
      obtain ⟨new, n1, n2⟩ := c5.seen
      rw [unlock_tbl, hup] at n2
      exact ⟨new, by rw [c6, n1, ← a3]; rfl, n2⟩
  obtain ⟨new, hnew, hso⟩ := hseen
  rcases calm_or_bursts boom new env.log with hcalm | ⟨k, c, q, hb⟩
  · exact ⟨env', b2, b3, Or.inl ⟨C82_calm b1 hnew boom hcalm, b4⟩⟩
  · have hcs := hso c (List.mem_of_getElem? hb.at_)
    exact ⟨env.asSeen c (env.log ++ new.take (k + 1)), hu, hcs.ready, Or.inr ⟨q, C82_cut b1 hnew hb, hcs.partly hrd⟩⟩

/-- Rows that go from tables without dependants leave no dangling reference. -/
theorem PartlyCascaded.integrity (hst : Standard cfg) {p : T} {rows : List Nat} {u v : (t : T) → Tbl (S t)} (hu : Ready key cfg u) (hv : Ready key cfg v)
    (h : PartlyCascaded cfg u v p rows) (hsh : Shallow cfg p) (hi : Integrity cfg u) : Integrity cfg v := by
  intro q fk i r hfk hvr
  have hq : (S q).kind = .consistent := hst.parent q (List.ne_nil_of_mem hfk)
  -- the referencing row was there before
  have hold : ∃ j, (u fk.child).view j = some r := by
    rcases hst.child q fk hfk with hk | hk
    · rcases h.consistent _ hk i with e | ⟨e, -⟩
      · exact ⟨i, by rw [← e]; exact hvr⟩
      · rw [hvr] at e; cases e
    · have hne : (S fk.child).kind ≠ .consistent := by rw [hk]; simp
      obtain ⟨keep, -, k2⟩ := h.sorted _ hk
      obtain ⟨L, hL⟩ := (hu.reach fk.child).wf
      obtain ⟨L', hL'⟩ := (hv.reach fk.child).wf
      have : L' = L.filter keep := (hL'.holds' hne).unique (k2 L (hL.holds' hne))
      rw [hL'.view_iff' hne, this] at hvr
      have hm := (List.mem_filter.1 (List.mem_of_getElem? hvr)).1
      obtain ⟨j, hj⟩ := List.mem_iff_getElem?.1 hm
      exact ⟨j, by rw [hL.view_iff' hne]; exact hj⟩
  obtain ⟨j, hj⟩ := hold
  have hc := hi q fk j r hfk hj
  by_cases hqp : q = p
  · subst hqp; rw [h.itself]; exact hc
  · obtain ⟨L, hL⟩ := (hu.reach q).wf
    obtain ⟨L', hL'⟩ := (hv.reach q).wf
    have hlive : (u q).view (fk.ref r) ≠ none := by
      rw [hL.view, if_neg ((hL.contains_iff _).1 hc).2, List.getElem?_eq_getElem ((hL.contains_iff _).1 hc).1]; simp
    rcases h.consistent q hq (fk.ref r) with e | ⟨-, hd⟩
    · rw [← e, hL'.view] at hlive
      rw [hL'.contains_iff]
      by_cases hm : fk.ref r ∈ (v q).free
      · simp [hm] at hlive
      · refine ⟨?_, hm⟩
        by_contra hge
        rw [if_neg hm, List.getElem?_eq_none (by omega)] at hlive
        exact hlive rfl
    · -- it was doomed, so its table depends on `p` and has no dependants
      exfalso
      have key : ∀ t i, Doomed cfg u p rows t i → t = p ∨ ∃ fk', IsFK cfg p fk' ∧ t = fk'.child := by
        intro t i hd
        induction hd with
        | seed => exact Or.inl rfl
        | @step q' t' k i fk' r' hq' hfk' hv' hr' ih =>
          obtain ⟨e, -⟩ := hr'
          rcases ih with rfl | ⟨fk2, h2, rfl⟩
          · exact Or.inr ⟨fk', hfk', e⟩
          · exact absurd hfk' (hsh fk2 h2 fk')
      rcases key q _ hd with e | ⟨fk', h', rfl⟩
      · exact hqp e
      · exact hsh fk' h' fk hfk

/-- C82: if the tables that depend on `p` have no dependants of their own then also a session that panics leaves every reference
valid. -/
theorem C82_integrity_kept (boom : Boom S) {ev : Event} (hst : Standard cfg) (hac : Acyclic cfg rank)
    (hr : ev.isRemoval = true) (hc : ev.isCreation = false) (hh : cfg.handlers[ev.id]? = some .delete) {n : Nat} {p : T}
    (hn : rank p < n) (hp : (S p).kind = .consistent) {env : Env S} (hu : Unlocked env) (hrd : Ready key cfg env.tbl)
    (rows : List Nat) (hl : ∀ i ∈ rows, (env.tbl p).contains i = true) (ht : Tame cfg rows) (hsh : Shallow cfg p)
    (hi : Integrity cfg env.tbl) {env' : Env S} {q : Panic} (h : kSession cfg boom n key p (rows.map .delete) ev env = (env', .error q)) :
    Integrity cfg env'.tbl := by
  obtain ⟨env2, -, h2, h3⟩ := C82_what_is_left boom hst hac hr hc hh hn hp hu hrd rows hl ht
  rcases h3 with ⟨h3, -⟩ | ⟨q', h3, h4⟩
  · rw [h] at h3; injection h3 with _ h3; cases h3
  · rw [h] at h3; injection h3 with h3 _; subst h3
    exact h4.integrity hst hrd h2 hsh hi

/-- The part that is left and its completion are the whole, if dependants have no dependants. -/
theorem PartlyCascaded.completed (hst : Standard cfg) (hac : Acyclic cfg rank) {p : T} {rows : List Nat} {u v x : (t : T) → Tbl (S t)}
    (hu : Ready key cfg u) (hv : Ready key cfg v) (hp : (S p).kind = .consistent)
    (h1 : PartlyCascaded cfg u v p rows) (h2 : Cascaded cfg v x p rows) (hsh : Shallow cfg p) : Cascaded cfg u x p rows := by
  have hback : ∀ t i r, (v t).view i = some r → ∃ j, (u t).view j = some r ∧ ((S t).kind = .consistent → j = i) := by
    intro t i r hvr
    by_cases hk : (S t).kind = .consistent
    · rcases h1.consistent _ hk i with e | ⟨e, -⟩
      · exact ⟨i, by rw [← e]; exact hvr, fun _ => rfl⟩
      · rw [hvr] at e; cases e
    · by_cases hs : (S t).kind = .sorted
      · obtain ⟨keep, -, k2⟩ := h1.sorted _ hs
        obtain ⟨L, hL⟩ := (hu.reach t).wf
        obtain ⟨L', hL'⟩ := (hv.reach t).wf
        have : L' = L.filter keep := (hL'.holds' hk).unique (k2 L (hL.holds' hk))
        rw [hL'.view_iff' hk, this] at hvr
        have hm := (List.mem_filter.1 (List.mem_of_getElem? hvr)).1
        obtain ⟨j, hj⟩ := List.mem_iff_getElem?.1 hm
        exact ⟨j, by rw [hL.view_iff' hk]; exact hj, fun e => absurd e hk⟩
      · exact ⟨i, by rw [← h1.other t hk hs]; exact hvr, fun _ => rfl⟩
  have hone : ∀ t k, Doomed cfg u p rows t k → ∀ fk, IsFK cfg t fk → t = p ∧ k ∈ rows := by
    intro t k hd fk hfk
    cases hd with
    | seed hi => exact ⟨rfl, hi⟩
    | @step q t' k' i fk' r' hq hfk' hv' hr' =>
      exfalso
      obtain ⟨e, -⟩ := hr'
      have : q = p := by
        cases hq with
        | seed => rfl
        | @step q2 _ k2 _ fk2 r2 hq2 hfk2 hv2 hr2 =>
          -- by induction on the first: a table that depends on `p` at a distance cannot exist
          exfalso
          have key : ∀ t i, Doomed cfg u p rows t i → t = p ∨ ∃ f1, IsFK cfg p f1 ∧ t = f1.child := by
            intro t i hd
            induction hd with
            | seed => exact Or.inl rfl
            | @step a b c d f3 r3 ha hf3 hv3 hr3 ih =>
              obtain ⟨e3, -⟩ := hr3
              rcases ih with rfl | ⟨f4, h4, rfl⟩
              · exact Or.inr ⟨f3, hf3, e3⟩
              · exact absurd hf3 (hsh f4 h4 f3)
          obtain ⟨e2, -⟩ := hr2
          rcases key _ _ hq2 with rfl | ⟨f1, hf1, rfl⟩
          · subst e2; exact hsh fk2 hfk2 fk' hfk'
          · exact hsh f1 hf1 fk2 hfk2
      subst this
      subst e
      exact hsh fk' hfk' fk hfk
  have hdown : ∀ t i, Doomed cfg v p rows t i → Doomed cfg u p rows t i ∨ (S t).kind ≠ .consistent := by
    intro t i hd
    induction hd with
    | seed hi => exact Or.inl (Doomed.seed hi)
    | @step q t k i fk r hq hfk hvr hr ih =>
      by_cases hk : (S t).kind = .consistent
      · obtain ⟨j, hj, hji⟩ := hback t i r hvr
        rw [hji hk] at hj
        rcases ih with ih | ih
        · exact Or.inl (Doomed.step ih hfk hj hr)
        · exact absurd (hst.parent q (List.ne_nil_of_mem hfk)) ih
      · exact Or.inr hk
  refine ⟨?_, ?_, ?_, ?_⟩
  · intro t hk i hd
    by_cases hx : Doomed cfg v p rows t i
    · exact h2.gone t hk i hx
    · rw [h2.kept t hk i hx]
      rcases h1.consistent t hk i with e | ⟨e, -⟩
      · cases hd with
        | seed hi => exact absurd (Doomed.seed hi) hx
        | @step q _ k _ fk r hq hfk hur hr =>
          obtain ⟨rfl, hin⟩ := hone q k hq fk hfk
          exact absurd (Doomed.step (Doomed.seed hin) hfk (by rw [e]; exact hur) hr) hx
      · exact e
  · intro t hk i hnd
    rw [h2.kept t hk i (fun hd => (hdown t i hd).elim hnd (fun h => h hk))]
    rcases h1.consistent t hk i with e | ⟨-, hd⟩
    · exact e
    · exact absurd hd hnd
  · intro t hk
    obtain ⟨k1, a1, b1⟩ := h1.sorted t hk
    obtain ⟨k2, a2, b2⟩ := h2.sorted t hk
    refine ⟨fun r => k1 r && k2 r, ?_, ?_⟩
    · intro r
      constructor
      · intro hf
        cases e1 : k1 r with
        | false => exact a1 r e1
        | true =>
          obtain ⟨q, fk, k, hfk, hr, hd⟩ := (a2 r).1 (by simpa [e1] using hf)
          rcases hdown q k hd with hd | hd
          · exact ⟨q, fk, k, hfk, hr, hd⟩
          · exact absurd (hst.parent q (List.ne_nil_of_mem hfk)) hd
      · rintro ⟨q, fk, k, hfk, hr, hd⟩
        obtain ⟨rfl, hin⟩ := hone q k hd fk hfk
        have := (a2 r).2 ⟨q, fk, k, hfk, hr, Doomed.seed hin⟩
        simp [this]
    · intro L hL
      have := b2 _ (b1 L hL)
      rw [List.filter_filter] at this
      convert this using 2
      funext r
      exact Bool.and_comm _ _
  · intro t h h'
    rw [h2.other t h h', h1.other t h h']

/-- C82: after a panic the same session can be run again: if no tracker panics this time it returns, the rows are gone, and so is
everything that references them directly or through rows that were still there. If the tables that depend on `p` have no
dependants of their own, the two attempts together have the effect of one. -/
theorem C82_retry (boom : Boom S) {ev : Event} (hst : Standard cfg) (hac : Acyclic cfg rank)
    (hr : ev.isRemoval = true) (hc : ev.isCreation = false) (hh : cfg.handlers[ev.id]? = some .delete) {n : Nat} {p : T}
    (hn : rank p < n) (hp : (S p).kind = .consistent) {env : Env S} (hu : Unlocked env) (hrd : Ready key cfg env.tbl)
    (rows : List Nat) (hl : ∀ i ∈ rows, (env.tbl p).contains i = true) (ht : Tame cfg rows) {env1 : Env S} {q : Panic}
    (h : kSession cfg boom n key p (rows.map .delete) ev env = (env1, .error q)) :
    ∃ env2, session cfg n key p (rows.map .delete) ev env1 = .ok env2 ∧ Unlocked env2 ∧ Ready key cfg env2.tbl ∧
      Cascaded cfg env1.tbl env2.tbl p rows ∧ (Shallow cfg p → Cascaded cfg env.tbl env2.tbl p rows) := by
  obtain ⟨env', h1, h2, h3⟩ := C82_what_is_left boom hst hac hr hc hh hn hp hu hrd rows hl ht
  rcases h3 with ⟨h3, -⟩ | ⟨q', h3, h4⟩
  · rw [h] at h3; injection h3 with _ h3; cases h3
  · rw [h] at h3; injection h3 with h3 _; subst h3
    obtain ⟨env2, b1, b2, b3, b4⟩ := C29_cascade_exact hst hac hr hc hh hn hp h1 h2 rows
      (by intro i hi; rw [h4.itself]; exact hl i hi) ht
    exact ⟨env2, b1, b2, b3, b4, fun hsh => h4.completed hst hac hrd h2 hp b4 hsh⟩

end

/-! ## A concrete universe -/

/-- The demo universe, with the observer of table 1 registered before the tracker of its dependants. -/
def rashCfg : Cfg UniS where
  trackers
    | 0 => [.observer uniObs, .auto uniFK01]
    | 1 => [.observer uniObs, .auto uniFK12]
    | 2 => []
  handlers := [.panicking, .null, .delete]

/-- The `k`-th call panics. -/
def boomAt (k : Nat) : Boom UniS := fun log => if log.length = k then some .userPanic else none

theorem rashIsFK {p : Fin 3} {fk : FK UniS} : IsFK rashCfg p fk ↔ (p = 0 ∧ fk = uniFK01) ∨ (p = 1 ∧ fk = uniFK12) := by
  unfold IsFK rashCfg
  match p with
  | 0 => simp
  | 1 => simp
  | 2 => simp

theorem rash_uni {p : Fin 3} {fk : FK UniS} : IsFK rashCfg p fk ↔ IsFK uniCfg p fk := rashIsFK.trans uniIsFK.symm

theorem rashStandard : Standard rashCfg where
  parent p h := by
    match p with
    | 0 => rfl
    | 1 => rfl
    | 2 => exact absurd rfl h
  child p fk h := uniStandard.child p fk (rash_uni.1 h)
  sorted p fk h := uniStandard.sorted p fk (rash_uni.1 h)
  indexed p fk h := uniStandard.indexed p fk (rash_uni.1 h)

theorem rashAcyclic : Acyclic rashCfg uniRank := fun p fk h => uniAcyclic p fk (rash_uni.1 h)

theorem rashReady : Ready uniKey rashCfg uniTbl where
  reach := uniReady.reach
  room := uniReady.room
  inOrder p fk h := uniReady.inOrder p fk (rash_uni.1 h)

/-- A small table's rows, one by one. -/
theorem uniView_all {t : Fin 3} {x : Tbl (UniS t)} {n : Nat} (hl : x.len ≤ n) {P : Nat × Nat → Prop}
    (h : ∀ o ∈ uniView x n, ∀ v, o = some v → P v) {i : Nat} {r : Row (UniS t)} (hr : x.view i = some r) : P (uniVals r) := by
  have hi : i < n := by
    by_contra hge
    have : x.contains i = false := by
      unfold Tbl.contains
      split <;> simp <;> omega
    unfold Tbl.view at hr
    rw [this] at hr
    cases hr
  refine h (some (uniVals r)) ?_ _ rfl
  unfold uniView
  rw [List.mem_map]
  exact ⟨i, by simpa using hi, by rw [hr]; rfl⟩

theorem rashIntegrity : Integrity rashCfg uniTbl := by
  intro p fk i r h hv
  rcases rashIsFK.1 h with ⟨rfl, rfl⟩ | ⟨rfl, rfl⟩
  · have := uniView_all (t := 1) (x := uniTbl 1) (n := 4) (by decide) (P := fun v => (uniTbl 0).contains v.1 = true) (by decide) hv
    exact this
  · have := uniView_all (t := 2) (x := uniTbl 2) (n := 5) (by decide) (P := fun v => (uniTbl 1).contains v.1 = true) (by decide) hv
    exact this

/-- What was left. -/
def rashLeft : Env UniS := (kSession rashCfg (boomAt 2) 3 uniKey 0 [.delete 0] evDelete uniEnv).1
/-- …and after trying again. -/
def rashAgain : R (Env UniS) := session rashCfg 3 uniKey 0 [.delete 0] evDelete rashLeft

/-- C82, the defect: the observer of table 1 is told that children 0 and 1 are gone, before the grandchildren go, and panics:
grandchildren 0, 1, 2 are left with references to children that do not exist, and deleting the parent again — which
then succeeds — does not find them either. References were all valid before. -/
theorem C82_dangling : Integrity rashCfg uniEnv.tbl ∧
    (kSession rashCfg (boomAt 2) 3 uniKey 0 [.delete 0] evDelete uniEnv).2 = .error .userPanic ∧
    uniDump (.ok rashLeft) = some [[some (10, 0), some (11, 0), some (12, 0), none], [none, none, some (2, 22), none],
      [some (0, 30), some (1, 31), some (1, 32), some (2, 33), none]] ∧ ¬ Integrity rashCfg rashLeft.tbl ∧
    uniDump rashAgain = some [[none, some (11, 0), some (12, 0), none], [none, none, some (2, 22), none],
      [some (0, 30), some (1, 31), some (1, 32), some (2, 33), none]] ∧ ∀ env', rashAgain = .ok env' → ¬ Integrity rashCfg env'.tbl := by
  have bad : ∀ u : (t : Fin 3) → Tbl (UniS t), ((u 2).view 0).map uniVals = some (0, 30) → (u 1).contains 0 = false →
      ¬ Integrity rashCfg u := by
    intro u h1 h2 hi
    cases hx : (u 2).view 0 with
    | none => rw [hx] at h1; cases h1
    | some r =>
      have := hi 1 uniFK12 0 r (rashIsFK.2 (Or.inr ⟨rfl, rfl⟩)) hx
      have h3 : uniFK12.ref r = 0 := by
        rw [hx] at h1
        have : uniVals r = (0, 30) := by simpa using h1
        exact congrArg Prod.fst this
      rw [h3, h2] at this
      cases this
  refine ⟨rashIntegrity, by decide, by decide, bad _ (by decide) (by decide), by decide, ?_⟩
  intro env' h
  have h1 : uniDump rashAgain = some [[none, some (11, 0), some (12, 0), none], [none, none, some (2, 22), none],
      [some (0, 30), some (1, 31), some (1, 32), some (2, 33), none]] := by decide
  rw [h] at h1
  have h2 : (match rashAgain with | .ok e => (e.tbl 1).contains 0 | .error _ => true) = false := by decide
  rw [h] at h2
  refine bad _ ?_ h2
  injection h1 with h1
  injection h1 with _ h1; injection h1 with _ h1; injection h1 with h1 _
  injection h1 with h1 _

/-- C82 applies to the demo universe: deleting parent 0 makes two calls; each may panic. -/
example : Standard uniCfg ∧ Acyclic uniCfg uniRank ∧ Unlocked uniEnv ∧ Ready uniKey uniCfg uniEnv.tbl ∧
    (∀ i ∈ [0], (uniEnv.tbl 0).contains i = true) ∧ Tame uniCfg [0] ∧
    ((session uniCfg 3 uniKey 0 [.delete 0] evDelete uniEnv).map (fun e => e.log.length)) = .ok 2 ∧
    (kSession uniCfg (boomAt 1) 3 uniKey 0 [.delete 0] evDelete uniEnv).2 = .error .userPanic ∧
    (kSession uniCfg (boomAt 2) 3 uniKey 0 [.delete 0] evDelete uniEnv).2 = .error .userPanic ∧
    (kSession uniCfg (boomAt 3) 3 uniKey 0 [.delete 0] evDelete uniEnv).2 = .ok () ∧
    uniDump (.ok (kSession uniCfg (boomAt 2) 3 uniKey 0 [.delete 0] evDelete uniEnv).1) =
      some [[some (10, 0), some (11, 0), some (12, 0), none], [none, none, some (2, 22), none], [some (2, 33), none, none, none, none]] :=
  ⟨uniStandard, uniAcyclic, uniUnlocked, uniReady, by decide, fun _ => by decide, by decide +kernel, by decide +kernel, by decide +kernel, by decide +kernel, by decide +kernel⟩

/-- Table 1 is shallow: its dependants have none. A panic while its rows go leaves all references valid. -/
example : Shallow rashCfg 1 ∧ ¬ Shallow rashCfg 0 ∧
    (kSession rashCfg (boomAt 1) 3 uniKey 1 [.delete 0] evDelete uniEnv).2 = .error .userPanic := by
  refine ⟨?_, ?_, by decide⟩
  · intro fk h fk' h'
    rcases rashIsFK.1 h with ⟨e, -⟩ | ⟨-, rfl⟩
    · cases e
    · rcases rashIsFK.1 h' with ⟨e, -⟩ | ⟨e, -⟩ <;> cases e
  · intro h
    exact h uniFK01 (rashIsFK.2 (Or.inl ⟨rfl, rfl⟩)) uniFK12 (rashIsFK.2 (Or.inr ⟨rfl, rfl⟩))

/-- A creation whose observer panics: the row is there. -/
example : uniDump (.ok (kSession uniCfg (boomAt 1) 3 uniKey 0 [.push (uniRow 0 13 0)] evCreate uniEnv).1) =
      some [[some (10, 0), some (11, 0), some (12, 0), some (13, 0)], uniView (uniTbl 1) 4, uniView (uniTbl 2) 5] ∧
    (kSession uniCfg (boomAt 1) 3 uniKey 0 [.push (uniRow 0 13 0)] evCreate uniEnv).2 = .error .userPanic := by decide

end V11
