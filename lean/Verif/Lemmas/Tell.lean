import Verif.Spec.Chains
import Verif.Lemmas.CascadeAll

/-!
# Counting the calls of observers
-/

set_option linter.unusedSimpArgs false
set_option linter.unusedSectionVars false
set_option linter.unusedVariables false

namespace V11
variable {T : Type} [DecidableEq T] {S : T → Schema} {cfg : Cfg S}

theorem sumTo_succ (n : Nat) (f : Nat → Nat) : sumTo (n + 1) f = f 0 + sumTo n (fun d => f (d + 1)) := by
  unfold sumTo
  rw [List.range_succ_eq_map, List.map_cons, List.sum_cons, List.map_map]
  rfl

theorem sumTo_zero (f : Nat → Nat) : sumTo 0 f = 0 := rfl

theorem sumTo_congr {n : Nat} {f g : Nat → Nat} (h : ∀ d, f d = g d) : sumTo n f = sumTo n g := by
  have : f = g := funext h
  rw [this]

theorem sumTo_add (n : Nat) (f g : Nat → Nat) : sumTo n (fun d => f d + g d) = sumTo n f + sumTo n g := by
  induction n generalizing f g with
  | zero => rfl
  | succ n ih => rw [sumTo_succ, sumTo_succ, sumTo_succ, ih]; omega

theorem sumTo_mul (n k : Nat) (f : Nat → Nat) : sumTo n (fun d => k * f d) = k * sumTo n f := by
  induction n generalizing f with
  | zero => rfl
  | succ n ih => rw [sumTo_succ, sumTo_succ, ih, Nat.mul_add]

/-- The weighted number of chains. -/
def weight (cfg : Cfg S) (k n : Nat) (p t : T) : Nat := sumTo n (fun d => k ^ d * chains cfg d p t)

theorem sumTo_sum (n : Nat) {α : Type} (l : List α) (f : Nat → α → Nat) :
    sumTo n (fun d => (l.map (f d)).sum) = (l.map (fun a => sumTo n (fun d => f d a))).sum := by
  induction l with
  | nil => simp [sumTo]
  | cons a l ih =>
    simp only [List.map_cons, List.sum_cons]
    rw [sumTo_add, ih]

theorem sum_mul (k : Nat) {α : Type} (l : List α) (f : α → Nat) : k * (l.map f).sum = (l.map (fun a => k * f a)).sum := by
  induction l with
  | nil => simp
  | cons a l ih => simp only [List.map_cons, List.sum_cons, Nat.mul_add, ih]

theorem weight_succ (k n : Nat) (p t : T) :
    weight cfg k (n + 1) p t = (if p = t then 1 else 0) + ((dependants cfg p).map (fun c => k * weight cfg k n c t)).sum := by
  unfold weight
  rw [sumTo_succ]
  congr 1
  · simp [chains]
  · have h1 : ∀ d, k ^ (d + 1) * chains cfg (d + 1) p t = ((dependants cfg p).map (fun c => k * (k ^ d * chains cfg d c t))).sum := by
      intro d
      rw [show chains cfg (d + 1) p t = ((dependants cfg p).map fun c => chains cfg d c t).sum from rfl, sum_mul]
      congr 1
      refine List.map_congr_left fun c _ => ?_
      rw [Nat.pow_succ, Nat.mul_comm (k ^ d) k, Nat.mul_assoc]
    rw [sumTo_congr h1, sumTo_sum n (dependants cfg p) (fun d c => k * (k ^ d * chains cfg d c t))]
    congr 1
    refine List.map_congr_left fun c _ => ?_
    rw [sumTo_mul]

theorem weight_untracked {k n : Nat} {p : T} (h : cfg.trackers p = []) (ev : Event) (t : T) (nm : Nat) :
    weight cfg k n p t * listening cfg ev t nm = 0 := by
  cases n with
  | zero => simp [weight, sumTo]
  | succ n =>
    rw [weight_succ]
    have : dependants cfg p = [] := by unfold dependants; rw [h]; rfl
    rw [this]
    by_cases e : p = t
    · subst e
      have : listening cfg ev p nm = 0 := by unfold listening; rw [h]; rfl
      rw [this, Nat.mul_zero]
    · simp [e]

/-! ## What leaves the log alone -/

theorem lock_log {env env' : Env S} {t : T} {w : W (S t)} (h : env.lock t = .ok (w, env')) : env'.log = env.log ∧ w = W.lock (env.tbl t) := by
  unfold Env.lock at h
  split at h
  · cases h
  · injection h with h; injection h with h1 h2; subst h1; subst h2; exact ⟨rfl, rfl⟩

theorem bind_ok {α β : Type} {x : R α} {f : α → R β} {b : β} (h : x >>= f = .ok b) : ∃ a, x = .ok a ∧ f a = .ok b := by
  cases x with
  | error p => cases h
  | ok a => exact ⟨a, rfl, h⟩

theorem toldAt_append (t : T) (nm : Nat) (a b : List (Call S)) : toldAt t nm (a ++ b) = toldAt t nm a + toldAt t nm b := by
  unfold toldAt; rw [List.countP_append]

theorem toldAt_nil (t : T) (nm : Nat) : toldAt t nm ([] : List (Call S)) = 0 := rfl

/-- `new` was logged between `env` and `env'`, and the calls counted in it are `A`. -/
def Tells (env env' : Env S) (A : T → Nat → Nat) : Prop :=
  ∃ new, env'.log = env.log ++ new ∧ ∀ t nm, toldAt t nm new = A t nm

theorem Tells.same {env env' : Env S} (h : env'.log = env.log) : Tells env env' (fun _ _ => 0) :=
  ⟨[], by rw [h, List.append_nil], fun _ _ => rfl⟩

theorem Tells.trans {e1 e2 e3 : Env S} {A B : T → Nat → Nat} (h1 : Tells e1 e2 A) (h2 : Tells e2 e3 B) :
    Tells e1 e3 (fun t nm => A t nm + B t nm) := by
  obtain ⟨n1, a1, b1⟩ := h1
  obtain ⟨n2, a2, b2⟩ := h2
  exact ⟨n1 ++ n2, by rw [a2, a1, List.append_assoc], fun t nm => by rw [toldAt_append, b1, b2]⟩

theorem Tells.congr {e1 e2 : Env S} {A B : T → Nat → Nat} (h : Tells e1 e2 A) (hab : ∀ t nm, A t nm = B t nm) : Tells e1 e2 B := by
  have : A = B := by funext t nm; exact hab t nm
  rw [← this]; exact h

theorem Tells.logs {e1 e1' e2 e2' : Env S} {A : T → Nat → Nat} (h : Tells e1 e2 A) (h1 : e1.log = e1'.log) (h2 : e2.log = e2'.log) :
    Tells e1' e2' A := by
  obtain ⟨n1, a1, b1⟩ := h
  exact ⟨n1, by rw [← h2, a1, h1], b1⟩

theorem flushWith_tells {f : FlushFn S} {c : T} {ev : Event} {A : T → Nat → Nat} {w : W (S c)} {env env' : Env S}
    (hf : ∀ e sel' e', f c ev w.pushed w.delete w.changes e = .ok (sel', e') → Tells e e' A)
    (h : flushWith f c w ev env = .ok env') : Tells env env' (fun t nm => if w.changes.isEmpty = true then 0 else A t nm) := by
  unfold flushWith at h
  by_cases he : w.changes.isEmpty = true
  · rw [if_pos he] at h
    injection h with h; subst h
    exact (Tells.same rfl).congr (fun t nm => by simp [he])
  · rw [if_neg he] at h
    simp only [] at h
    obtain ⟨⟨ch, e1⟩, a1, a2⟩ := bind_ok h
    have h1 : Tells env e1 A := (hf _ _ _ a1).logs rfl rfl
    refine Tells.congr (A := A) ?_ (fun t nm => by simp [he])
    simp only [] at a2
    split at a2
    · obtain ⟨⟨w2, e2⟩, b1, b2⟩ := bind_ok a2
      obtain ⟨x, c1, c2⟩ := bind_ok b2
      injection c2 with c2; subst c2
      exact h1.logs rfl (by rw [← (lock_log b1).1]; rfl)
    · injection a2 with a2; subst a2; exact h1

theorem tableRemove_tells {f : FlushFn S} {c : T} {ev : Event} {A : T → Nat → Nat}
    (hf : ∀ e sel' e', f c ev false true .all e = .ok (sel', e') → Tells e e' A) {sel : Select (List Nat)} {env env' : Env S}
    (h : tableRemoveRows f c ev sel env = .ok env') :
    Tells env env' (fun t nm => if sel.isAll = true ∧ (S c).kind = .consistent then A t nm else 0) ∧
      ((S c).kind = .consistent ∨ (S c).kind = .sorted) := by
  unfold tableRemoveRows at h
  cases hk : (S c).kind with
  | consistent =>
    rw [hk] at h
    simp only [] at h
    obtain ⟨⟨w, e1⟩, a1, a2⟩ := bind_ok h
    obtain ⟨l1, l2⟩ := lock_log a1
    subst l2
    refine ⟨?_, Or.inl rfl⟩
    cases sel with
    | these rows =>
      obtain ⟨x, b1, b2⟩ := bind_ok a2
      have hlog : env'.log = env.log := by
        unfold flushWith at b2
        simp only [W.lock, Select.isEmpty, List.isEmpty_nil, if_true] at b2
        injection b2 with b2; subst b2; exact l1
      exact (Tells.same hlog).congr (fun t nm => by simp [Select.isAll])
    | all =>
      obtain ⟨x, b1, b2⟩ := bind_ok a2
      obtain ⟨w', c1, c2⟩ := bind_ok b2
      unfold W.clear at c1
      rw [hk] at c1
      simp only [] at c1
      injection c1 with c1
      subst c1
      have := flushWith_tells (A := A) hf c2
      exact (this.logs l1 rfl).congr (fun t nm => by simp [Select.isAll, Select.isEmpty])
  | sorted =>
    rw [hk] at h
    simp only [] at h
    obtain ⟨⟨w, e1⟩, a1, a2⟩ := bind_ok h
    obtain ⟨l1, l2⟩ := lock_log a1
    subst l2
    refine ⟨?_, Or.inr rfl⟩
    have hnone : ∀ (x : Tbl (S c)), flushWith f c { W.lock (env.tbl c) with tbl := x } ev e1 = .ok env' → env'.log = env.log := by
      intro x hx
      unfold flushWith at hx
      simp only [W.lock, Select.isEmpty, List.isEmpty_nil, if_true] at hx
      injection hx with hx; subst hx; exact l1
    cases sel with
    | these rows =>
      obtain ⟨x, b1, b2⟩ := bind_ok a2
      exact (Tells.same (hnone x b2)).congr (fun t nm => by simp)
    | all =>
      obtain ⟨x, b1, b2⟩ := bind_ok a2
      obtain ⟨w', c1, c2⟩ := bind_ok b2
      unfold W.clear at c1
      rw [hk] at c1
      simp only [] at c1
      injection c1 with c1
      subst c1
      exact (Tells.same (hnone x c2)).congr (fun t nm => by simp)
  | bag => rw [hk] at h; cases h
  | append => rw [hk] at h; cases h
  | list => rw [hk] at h; cases h

/-- How many times a dependant's trackers are told for one telling of the parent's. -/
def factor (h : Handler) (sel : Select (List Nat)) : Nat := if h = .delete ∧ sel.isAll = true then 2 else 1

theorem isAll_sort (sel : Select (List Nat)) : sel.sort.isAll = sel.isAll := by cases sel <;> rfl

theorem isAll_select {fk : FK S} {x : Tbl (S fk.child)} {sel out : Select (List Nat)} (h : fk.select x sel = .ok out) : out.isAll = sel.isAll := by
  unfold FK.select at h
  cases sel with
  | all => injection h with h; subst h; rfl
  | these rows =>
    simp only [] at h
    split at h
    · obtain ⟨o, a, b⟩ := bind_ok h
      injection b with b; subst b; rfl
    · obtain ⟨o, a, b⟩ := bind_ok h
      injection b with b; subst b; rfl

/-- `do_flush`, if it returns, tells each table's trackers once for each chain (twice per link when clearing). -/
theorem doFlush_tells (hpar : ∀ p, cfg.trackers p ≠ [] → (S p).kind = .consistent) {ev : Event} {h : Handler} (hh : cfg.handler ev = .ok h)
    (n : Nat) (p : T) (pushed delete : Bool) (sel sel' : Select (List Nat)) (env env' : Env S)
    (hok : doFlush cfg n p ev pushed delete sel env = .ok (sel', env')) :
    Tells env env' (fun t nm => weight cfg (factor h sel) n p t * listening cfg ev t nm) := by
  induction n generalizing p pushed delete sel sel' env env' with
  | zero => cases hok
  | succ n ih =>
    unfold doFlush at hok
    split at hok
    · cases hok
    · rw [hh, okBind] at hok
      obtain ⟨st, a1, a2⟩ := bind_ok hok
      injection a2 with a2
      injection a2 with a2 a3
      subst a3
      -- one foreign_auto tracker
      have handle : ∀ (fk : FK S) (s : Select (List Nat)) (e e' : Env S), s.isAll = sel.isAll →
          trackerHandle (doFlush cfg n) p (.auto fk) ev s h e = .ok e' →
          Tells e e' (fun t nm => factor h sel * weight cfg (factor h sel) n fk.child t * listening cfg ev t nm) := by
        intro fk s e e' hs he
        unfold trackerHandle at he
        simp only [] at he
        obtain ⟨x, b1, b2⟩ := bind_ok he
        obtain ⟨out, c1, c2⟩ := bind_ok b2
        have ho := isAll_select c1
        unfold handlerRun at c2
        obtain ⟨sb, d1, d2⟩ := bind_ok c2
        simp only [] at d2
        generalize hr : (if sb = true then out.sort else out) = rows at d2
        have hrall : rows.isAll = sel.isAll := by
          rw [← hr]; split
          · rw [isAll_sort, ho, hs]
          · rw [ho, hs]
        have hfac : factor h rows = factor h sel := by unfold factor; rw [hrall]
        obtain ⟨e1, f1, f2⟩ := bind_ok d2
        obtain ⟨e2, g1, g2⟩ := bind_ok f2
        obtain ⟨⟨_, e3⟩, k1, k2⟩ := bind_ok g2
        injection k2 with k2
        subst k2
        have hacq : e2.log = e1.log := by
          unfold Env.acquireRead at g1
          split at g1
          · cases g1
          · injection g1 with g1; subst g1; rfl
        have h2 : Tells e1 (e3.releaseRead fk.child) (fun t nm => weight cfg (factor h sel) n fk.child t * listening cfg ev t nm) := by
          have := ih _ _ _ _ _ _ _ k1
          rw [hfac] at this
          exact this.logs hacq rfl
        cases h with
        | null =>
          injection f1 with f1; subst f1
          exact h2.congr (fun t nm => by simp [factor])
        | panicking => cases f1
        | delete =>
          unfold handlerHandle at f1
          simp only [] at f1
          obtain ⟨_, m1, m2⟩ := bind_ok f1
          obtain ⟨h1, hkind⟩ := tableRemove_tells (A := fun t nm => weight cfg 2 n fk.child t * listening cfg ev t nm)
            (fun e s e' he => by
              have := ih _ _ _ _ _ _ _ he
              exact this) m2
          refine (h1.trans h2).congr (fun t nm => ?_)
          by_cases ha : sel.isAll = true
          · have hf2 : factor .delete sel = 2 := by simp [factor, ha]
            rw [hf2]
            rcases hkind with hk | hk
            · rw [if_pos ⟨by rw [hrall]; exact ha, hk⟩, Nat.mul_assoc]; omega
            · have htr : cfg.trackers fk.child = [] := by
                by_contra hne
                rw [hpar _ hne] at hk; cases hk
              rw [if_neg (by rw [hk]; simp), Nat.mul_assoc, weight_untracked htr]
          · have hf1 : factor .delete sel = 1 := by simp [factor, ha]
            rw [hf1, if_neg (by rw [hrall]; simp [ha]), Nat.one_mul, Nat.zero_add]
      -- the loop
      have loop : ∀ (ts : List (Tracker S)) (st st' : FlushSt S), st.sel.isAll = sel.isAll →
          ts.foldlM (flushStep (doFlush cfg n) p ev h) st = .ok st' →
          Tells st.env st'.env (fun t nm =>
            (if p = t then (observers ev ts).countP (fun o => o.name = nm) else 0) +
            ((ts.filterMap fun tr => match tr with
                | .auto fk => some fk.child
                | .observer _ => none).map (fun c => factor h sel * weight cfg (factor h sel) n c t)).sum * listening cfg ev t nm) := by
        intro ts
        induction ts with
        | nil =>
          intro st st' _ hst
          injection hst with hst; subst hst
          exact (Tells.same rfl).congr (fun t nm => by simp [observers])
        | cons tr ts iht =>
          intro st st' hs hst
          rw [List.foldlM_cons] at hst
          obtain ⟨s1, b1, b2⟩ := bind_ok hst
          unfold flushStep at b1
          by_cases hc : tr.considers ev = false
          · rw [if_pos hc] at b1
            injection b1 with b1; subst b1
            cases tr with
            | auto fk => simp [Tracker.considers] at hc
            | observer o =>
              refine (iht _ _ hs b2).congr (fun t nm => ?_)
              simp only [Tracker.considers] at hc
              simp [observers, hc]
          · rw [if_neg hc] at b1
            simp only [] at b1
            generalize hq : (if (!st.sorted && tr.sort) = true then ({ st with sel := st.sel.sort, sorted := true } : FlushSt S) else st) = q at b1
            have hqs : q.sel.isAll = sel.isAll := by
              rw [← hq]; split
              · show st.sel.sort.isAll = _; rw [isAll_sort, hs]
              · exact hs
            have hqe : q.env = st.env := by rw [← hq]; split <;> rfl
            obtain ⟨e1, c1, c2⟩ := bind_ok b1
            injection c2 with c2; subst c2
            have hrest := iht _ _ (by exact hqs) b2
            cases tr with
            | auto fk =>
              have h1 := handle fk _ _ _ hqs c1
              rw [hqe] at h1
              refine (h1.trans hrest).congr (fun t nm => ?_)
              simp only [observers, List.filterMap_cons, List.map_cons, List.sum_cons, Nat.add_mul]
              omega
            | observer o =>
              unfold trackerHandle at c1
              injection c1 with c1
              have hco : o.considers ev = true := by simpa [Tracker.considers] using hc
              have h1 : Tells st.env e1 (fun t nm => if p = t ∧ o.name = nm then 1 else 0) := by
                refine ⟨[⟨p, o.name, ev, q.sel, q.env.tbl⟩], by rw [← c1, ← hqe], fun t nm => ?_⟩
                simp [toldAt, List.countP_cons]
              refine (h1.trans hrest).congr (fun t nm => ?_)
              simp only [observers, List.filterMap_cons, hco, if_true, List.countP_cons]
              by_cases e : p = t
              · by_cases e' : o.name = nm
                · simp [e, e']; omega
                · simp [e, e']
              · simp [e]
      have := loop (cfg.trackers p) ⟨sel, sel.isAll, env⟩ st rfl a1
      refine this.congr (fun t nm => ?_)
      rw [weight_succ, Nat.add_mul]
      congr 1
      by_cases e : p = t
      · subst e; simp [listening]
      · simp [e]

end V11
