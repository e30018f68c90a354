import Verif.Lemmas.System

/-!
# Critical sections take effect one after another
-/

set_option linter.unusedSectionVars false
set_option linter.unusedVariables false

namespace V11
variable {T : Type} [DecidableEq T] {S : T → Schema} {K : Type} [LinearOrder K]
  {key : (t : T) → Row (S t) → K} {cfg : Cfg S} {ι : Type} [DecidableEq ι]
open Sys

/-- Where a thread is in its list of sessions. -/
inductive Ph (S : T → Schema) where
  | idle (L : List (Sess S))
  | locked (s : Sess S) (L : List (Sess S))
  | seen (s : Sess S) (x : Tbl (S s.t)) (L : List (Sess S))
  | stored (s : Sess S) (L : List (Sess S))

/-- The sessions that have not taken effect. -/
def Ph.pending : Ph S → List (Sess S)
  | .idle L => L
  | .locked s L => s :: L
  | .seen s _ L => s :: L
  | .stored _ L => L

/-- The table it has the write guard of. -/
def Ph.tbl : Ph S → Option T
  | .idle _ => none
  | .locked s _ => some s.t
  | .seen s _ _ => some s.t
  | .stored s _ => some s.t

/-- The program follows the list of sessions. -/
def Lin (key : (t : T) → Row (S t) → K) {α : Type} : Ph S → Prog S α → (Ph S → α → Prop) → Prop
  | φ, .ret a, Q => Q φ a
  | _, .fail _, _ => True
  | φ, .acq l m k, Q =>
    match φ, m with
    | .idle L, .rd => Lin key (.idle L) k Q
    | .idle L, .wr => ∃ s L', L = s :: L' ∧ l = .tbl s.t ∧ Lin key (.locked s L') k Q
    | _, _ => False
  | _, .att _ _ _ _, _ => False
  | φ, .rel l m k, Q =>
    match φ with
    | .idle L => m = .rd ∧ Lin key (.idle L) k Q
    | .stored s L => l = .tbl s.t ∧ m = .wr ∧ Lin key (.idle L) k Q
    | _ => False
  | φ, .get t k, Q =>
    match φ with
    | .idle L => ∀ x, Lin key (.idle L) (k x) Q
    | .locked s L => ∃ e : s.t = t, ∀ x : Tbl (S s.t), Lin key (.seen s x L) (k (e ▸ x)) Q
    | _ => False
  | φ, .put t y k, Q =>
    match φ with
    | .seen s x L => ∃ e : s.t = t, ∃ w, (W.lock x).steps (key s.t) (s.ops x) = .ok w ∧ y = e ▸ w.tbl ∧ Lin key (.stored s L) k Q
    | _ => False
  | φ, .getF t k, Q =>
    match φ with
    | .idle L => ∀ f, Lin key (.idle L) (k f) Q
    | _ => False
  | _, .putF _ _ _, _ => False
  | _, .forget _ _, _ => False
  | φ, .see _ _ _ _ k, Q =>
    match φ with
    | .idle L => Lin key (.idle L) k Q
    | _ => False

theorem Lin.bind {α β : Type} {p : Prog S α} {f : α → Prog S β} {Q : Ph S → β → Prop} {φ : Ph S} {P : Ph S → α → Prop}
    (h : Lin key φ p P) (hf : ∀ φ a, P φ a → Lin key φ (f a) Q) : Lin key φ (p.bind f) Q := by
  induction p generalizing φ with
  | ret a => exact hf _ _ h
  | fail p => trivial
  | acq l m k ih =>
    cases φ <;> cases m <;> first | exact h.elim | skip
    · exact ih h
    · obtain ⟨s, L', h1, h2, h3⟩ := h
      exact ⟨s, L', h1, h2, ih h3⟩
  | att t m yes no ih1 ih2 => exact h.elim
  | rel l m k ih =>
    cases φ <;> first | exact h.elim | skip
    · exact ⟨h.1, ih h.2⟩
    · exact ⟨h.1, h.2.1, ih h.2.2⟩
  | get t k ih =>
    cases φ <;> first | exact h.elim | skip
    · exact fun x => ih x (h x)
    · obtain ⟨e, h⟩ := h
      exact ⟨e, fun x => ih _ (h x)⟩
  | put t y k ih =>
    cases φ <;> first | exact h.elim | skip
    obtain ⟨e, w, h1, h2, h3⟩ := h
    exact ⟨e, w, h1, h2, ih h3⟩
  | getF t k ih =>
    cases φ <;> first | exact h.elim | skip
    exact fun x => ih x (h x)
  | putF t f k ih => exact h.elim
  | forget t k ih => exact h.elim
  | see p o ev rows k ih =>
    cases φ <;> first | exact h.elim | skip
    exact ih h

theorem Lin.mono {α : Type} {p : Prog S α} {φ : Ph S} {P Q : Ph S → α → Prop} (h : Lin key φ p P) (hf : ∀ φ a, P φ a → Q φ a) :
    Lin key φ p Q := by
  have := Lin.bind (f := Prog.ret) h hf
  rwa [show p.bind Prog.ret = p from ?_] at this
  clear this h
  induction p with
  | ret a => rfl
  | fail p => rfl
  | acq l m k ih => exact congrArg _ ih
  | att t m yes no ih1 ih2 => exact congrArg₂ _ ih1 (funext ih2)
  | rel l m k ih => exact congrArg _ ih
  | get t k ih => exact congrArg _ (funext ih)
  | put t y k ih => exact congrArg _ ih
  | getF t k ih => exact congrArg _ (funext ih)
  | putF t f k ih => exact congrArg _ ih
  | forget t k ih => exact congrArg _ ih
  | see p o ev rows k ih => exact congrArg _ ih

/-- A program that only reads. -/
abbrev Quiet (key : (t : T) → Row (S t) → K) (L : List (Sess S)) {α : Type} (p : Prog S α) : Prop := Lin key (.idle L) p (fun φ _ => φ = .idle L)

theorem quiet_ofR {L : List (Sess S)} {α : Type} (r : R α) : Quiet key L (Prog.ofR r : Prog S α) := by
  cases r with
  | ok a => exact rfl
  | error p => trivial

theorem Quiet.bind {L : List (Sess S)} {α β : Type} {p : Prog S α} {f : α → Prog S β} (h : Quiet key L p) (hf : ∀ a, Quiet key L (f a)) :
    Quiet key L (p.bind f) := Lin.bind h (fun φ a e => by subst e; exact hf a)

theorem quiet_handlerRun {f : FlushProg S} {ev : Event} (hf : ∀ L t a b sel, Quiet key L (f t ev a b sel)) {L : List (Sess S)} {h : Handler}
    (hh : h ≠ .delete) (t : T) (rows : Select (List Nat)) : Quiet key L (handlerRunP f h t ev rows) := by
  have tail : Quiet key L (do
      Prog.lock (.tbl t) .rd
      Prog.lock (.fl t) .rd
      let _ ← f t ev ev.isCreation ev.isRemoval rows
      Prog.unlock (.fl t) .rd
      Prog.unlock (.tbl t) .rd : Prog S Unit) := by
    refine Quiet.bind (p := Prog.lock (.tbl t) .rd) rfl (fun _ => ?_)
    refine Quiet.bind (p := Prog.lock (.fl t) .rd) rfl (fun _ => ?_)
    exact Quiet.bind (hf L t _ _ _) (fun a => ⟨rfl, rfl, rfl⟩)
  cases h with
  | null => exact tail
  | delete => exact absurd rfl hh
  | panicking => trivial

theorem quiet_flushStep {f : FlushProg S} {ev : Event} (hf : ∀ L t a b sel, Quiet key L (f t ev a b sel)) {L : List (Sess S)} {h : Handler}
    (hh : h ≠ .delete) (p : T) (st : Select (List Nat) × Bool) (tr : Tracker S) : Quiet key L (flushStepP f p ev h st tr) := by
  unfold flushStepP
  by_cases hc : tr.considers ev = false
  · rw [if_pos hc]; exact rfl
  · rw [if_neg hc]
    refine Quiet.bind ?_ (fun a => rfl)
    cases tr with
    | observer o => exact rfl
    | auto fk =>
      refine Quiet.bind (p := peekP fk.child) (fun x => ⟨rfl, rfl⟩) (fun x => ?_)
      exact Quiet.bind (quiet_ofR _) (fun sel => quiet_handlerRun hf hh ..)

theorem quiet_foldlM {σ β : Type} {L : List (Sess S)} (f : σ → β → Prog S σ) (hf : ∀ a b, Quiet key L (f a b)) (l : List β) (a : σ) :
    Quiet key L (l.foldlM f a) := by
  induction l generalizing a with
  | nil => exact rfl
  | cons b l ih =>
    rw [List.foldlM_cons]
    exact Quiet.bind (hf a b) (fun a => ih a)

theorem quiet_doFlush (n : Nat) (ev : Event) (hev : cfg.handler ev ≠ .ok .delete) (L : List (Sess S)) (t : T) (a b : Bool)
    (sel : Select (List Nat)) : Quiet key L (doFlushP cfg n t ev a b sel) := by
  induction n generalizing L t a b sel with
  | zero => trivial
  | succ n ih =>
    unfold doFlushP
    split
    · trivial
    · cases e : cfg.handler ev with
      | error p => trivial
      | ok h =>
        have hh : h ≠ .delete := by rintro rfl; exact hev e
        show Quiet key L ((List.foldlM (flushStepP (doFlushP cfg n) t ev h) (sel, sel.isAll) (cfg.trackers t)).bind (fun st => Prog.ret st.1))
        exact Quiet.bind (quiet_foldlM (key := key) (flushStepP (doFlushP cfg n) t ev h) (fun st tr => quiet_flushStep ih hh ..) _ _) (fun _ => rfl)

/-- `flush` of what was done to the rows that were seen. -/
theorem lin_flush (n : Nat) (s : Sess S) (hr : s.ev.isRemoval = false) (hev : cfg.handler s.ev ≠ .ok .delete) (L : List (Sess S))
    (x : Tbl (S s.t)) (w : W (S s.t)) (hw : (W.lock x).steps (key s.t) (s.ops x) = .ok w) :
    Lin key (.seen s x L) (flushP cfg n s.t w s.ev) (fun φ _ => φ = .idle L) := by
  unfold flushP flushWithP
  have un : Lin key (.seen s x L) (unlockP s.t w.tbl) (fun φ _ => φ = .idle L) := ⟨rfl, w, hw, rfl, rfl, rfl, rfl⟩
  split
  · exact un
  · refine Lin.bind un (fun φ a e => ?_)
    subst e
    refine Quiet.bind (p := Prog.lock (.fl s.t) .rd) rfl (fun _ => ?_)
    refine Quiet.bind (quiet_doFlush n s.ev hev L _ _ _ _) (fun changes => ?_)
    refine Quiet.bind (p := Prog.unlock (.fl s.t) .rd) ⟨rfl, rfl⟩ (fun _ => ?_)
    simp [hr]
    exact rfl

/-- The rest of a session. -/
theorem lin_session (n : Nat) (s : Sess S) (hr : s.ev.isRemoval = false) (hev : cfg.handler s.ev ≠ .ok .delete) (L : List (Sess S))
    (x : Tbl (S s.t)) (k : Script S) (hk : ∀ o, Lin key (.idle L) (k.prog key cfg n o) (fun φ _ => φ = .idle []))
    (ops : List (LOp (S s.t))) (w : W (S s.t)) (o : Open S) (ho : o s.t = some w)
    (hw : (W.lock x).steps (key s.t) (s.ops x) = w.steps (key s.t) ops) :
    Lin key (.seen s x L) ((Script.session s.t s.ev k ops).prog key cfg n o) (fun φ _ => φ = .idle []) := by
  induction ops generalizing w o with
  | nil =>
    simp only [Script.session, Script.prog, ho]
    exact Lin.bind (lin_flush n s hr hev L x w (by rw [hw]; rfl)) (fun φ a e => by subst e; exact hk _)
  | cons op ops ih =>
    simp only [Script.session, Script.prog, ho]
    cases e : w.step (key s.t) op with
    | error p => trivial
    | ok w' =>
      refine ih w' _ (Function.update_self ..) ?_
      rw [hw]
      unfold W.steps
      rw [List.foldlM_cons, e]
      rfl

theorem lin_sessions (n : Nat) (L : List (Sess S)) (hL : ∀ s ∈ L, s.ev.isRemoval = false ∧ cfg.handler s.ev ≠ .ok .delete) (o : Open S) :
    Lin key (.idle L) ((Script.sessions L).prog key cfg n o) (fun φ _ => φ = .idle []) := by
  induction L generalizing o with
  | nil => exact rfl
  | cons s L ih =>
    refine ⟨s, L, rfl, rfl, rfl, fun x => ?_⟩
    have hs := hL s List.mem_cons_self
    show Lin key (.seen s x L) ((Script.look s.t fun x => Script.session s.t s.ev (Script.sessions L) (s.ops x)).prog key cfg n
      (Function.update o s.t (some (W.lock x)))) _
    simp only [Script.prog, Function.update_self]
    exact lin_session n s hs.1 hs.2 L x _ (fun o => ih (fun s h => hL s (List.mem_cons_of_mem _ h)) o) _ _ _ (Function.update_self ..) rfl

/-! ## Steps -/

/-- What holds in every state of every schedule. -/
structure Ser (key : (t : T) → Row (S t) → K) (L : ι → List (Sess S)) (a : (t : T) → Tbl (S t)) (s : Sys S ι) (ph : ι → Ph S)
    (order : List (ι × Sess S)) : Prop where
  lin : ∀ i, Lin key (ph i) (s.th i).prog (fun φ _ => φ = .idle [])
  hold : ∀ i t, (ph i).tbl = some t → (.tbl t, .wr) ∈ (s.th i).held
  seen : ∀ i q x M, ph i = .seen q x M → x = s.tbl q.t
  excl : ∀ i j l m, i ≠ j → (l, .wr) ∈ (s.th i).held → (l, m) ∉ (s.th j).held
  proj : ∀ i, (order.filter (fun x => decide (x.1 = i))).map (·.2) ++ (ph i).pending = L i
  eff : Effects key a (order.map (·.2)) s.tbl

variable {L : ι → List (Sess S)} {a : (t : T) → Tbl (S t)} {s s' : Sys S ι} {ph : ι → Ph S} {order : List (ι × Sess S)} {i : ι}

/-- A step that changes no table. -/
theorem Ser.move (hs : Ser key L a s ph order) {p : Prog S Unit} {h : List (Lk T × Mode)} {φ : Ph S}
    (hth : s'.th = (s.go i p h).th) (htb : s'.tbl = s.tbl)
    (hex : ∀ l m j, j ≠ i → (l, m) ∈ h → ((l, m) ∈ (s.th i).held ∨ (l, .wr) ∉ (s.th j).held ∧ (m = .wr → ∀ m', (l, m') ∉ (s.th j).held)))
    (hlin : Lin key φ p (fun φ _ => φ = .idle []))
    (hh : ∀ t, φ.tbl = some t → (.tbl t, .wr) ∈ h) (hsn : ∀ q x M, φ = .seen q x M → x = s.tbl q.t) (hp : φ.pending = (ph i).pending) :
    Ser key L a s' (Function.update ph i φ) order where
  lin j := by
    rw [hth]
    by_cases e : j = i
    · subst e; rw [go_self, Function.update_self]; exact hlin
    · rw [go_other _ e, Function.update_of_ne e]; exact hs.lin j
  hold j t := by
    rw [hth]
    by_cases e : j = i
    · subst e; rw [go_self, Function.update_self]; exact hh t
    · rw [go_other _ e, Function.update_of_ne e]; exact hs.hold j t
  seen j q x M := by
    rw [htb]
    by_cases e : j = i
    · subst e; rw [Function.update_self]; exact hsn q x M
    · rw [Function.update_of_ne e]; exact hs.seen j q x M
  excl b c l m hbc := by
    rw [hth]
    by_cases eb : b = i
    · subst eb
      rw [go_self, go_other _ hbc.symm]
      intro hb hc
      rcases hex l .wr c hbc.symm hb with h1 | ⟨_, h2⟩
      · exact hs.excl b c l m hbc h1 hc
      · exact h2 rfl m hc
    · rw [go_other _ eb]
      by_cases ec : c = i
      · subst ec
        rw [go_self]
        intro hb hc
        rcases hex l m b hbc hc with h1 | ⟨h1, _⟩
        · exact hs.excl b c l m hbc hb h1
        · exact h1 hb
      · rw [go_other _ ec]; exact hs.excl b c l m hbc
  proj j := by
    by_cases e : j = i
    · subst e; rw [Function.update_self, hp]; exact hs.proj j
    · rw [Function.update_of_ne e]; exact hs.proj j
  eff := by rw [htb]; exact hs.eff

/-- A step that stores the rows. -/
theorem Ser.store (hs : Ser key L a s ph order) {p : Prog S Unit} {q : Sess S} {M : List (Sess S)} {w : W (S q.t)}
    (hph : ph i = .seen q (s.tbl q.t) M)
    (hth : s'.th = (s.go i p (s.th i).held).th) (hw : (W.lock (s.tbl q.t)).steps (key q.t) (q.ops (s.tbl q.t)) = .ok w)
    (htb : s'.tbl = Function.update s.tbl q.t w.tbl) (hlin : Lin key (.stored q M) p (fun φ _ => φ = .idle [])) :
    Ser key L a s' (Function.update ph i (.stored q M)) (order ++ [(i, q)]) := by
  have hold := hs.hold i q.t (by rw [hph]; rfl)
  constructor
  · intro j
    rw [hth]
    by_cases e : j = i
    · subst e; rw [go_self, Function.update_self]; exact hlin
    · rw [go_other _ e, Function.update_of_ne e]; exact hs.lin j
  · intro j t
    rw [hth]
    by_cases e : j = i
    · subst e; rw [go_self, Function.update_self]; intro ht; injection ht with ht; subst ht; exact hold
    · rw [go_other _ e, Function.update_of_ne e]; exact hs.hold j t
  · intro j q' x N
    by_cases e : j = i
    · subst e; rw [Function.update_self]; intro h; cases h
    · rw [Function.update_of_ne e]
      intro h
      have hj := hs.hold j q'.t (by rw [h]; rfl)
      have hne : q'.t ≠ q.t := fun hq => hs.excl i j _ _ (Ne.symm e) hold (hq ▸ hj)
      rw [htb, Function.update_of_ne hne]
      exact hs.seen j q' x N h
  · intro b c l m hbc
    have : ∀ j, (s'.th j).held = (s.th j).held := by
      intro j
      rw [hth]
      by_cases e : j = i
      · subst e; rw [go_self]
      · rw [go_other _ e]
    rw [this, this]
    exact hs.excl b c l m hbc
  · intro j
    by_cases e : j = i
    · subst e
      rw [Function.update_self]
      have := hs.proj j
      rw [hph] at this
      rw [← this]
      simp [Ph.pending]
    · rw [Function.update_of_ne e]
      have h1 := hs.proj j
      rw [← h1]
      simp [Ne.symm e]
  · rw [List.map_append]
    exact Effects.snoc hs.eff ⟨w, hw, htb⟩

theorem Ser.step (hs : Ser key L a s ph order) (h : Step s i s') : ∃ ph' order', Ser key L a s' ph' order' := by
  have hl := hs.lin i
  have same : ∀ l m j, j ≠ i → (l, m) ∈ (s.th i).held → ((l, m) ∈ (s.th i).held ∨ (l, Mode.wr) ∉ (s.th j).held ∧ (m = .wr → ∀ m', (l, m') ∉ (s.th j).held)) :=
    fun l m j _ hm => Or.inl hm
  have less : ∀ y l m j, j ≠ i → (l, m) ∈ (s.th i).held.erase y → ((l, m) ∈ (s.th i).held ∨ (l, Mode.wr) ∉ (s.th j).held ∧ (m = .wr → ∀ m', (l, m') ∉ (s.th j).held)) :=
    fun y l m j _ hm => Or.inl (List.mem_of_mem_erase hm)
  have hhold := hs.hold i
  have hseen := hs.seen i
  cases h with
  | @acq l m k hp hf hn =>
    rw [hp] at hl
    have fr := free_excl hf
    have more : ∀ l' m' j, j ≠ i → (l', m') ∈ (l, m) :: (s.th i).held →
        ((l', m') ∈ (s.th i).held ∨ (l', Mode.wr) ∉ (s.th j).held ∧ (m' = .wr → ∀ m', (l', m') ∉ (s.th j).held)) := by
      intro l' m' j _ hm
      rcases List.mem_cons.1 hm with e | e
      · injection e with e1 e2; subst e1 e2
        exact Or.inr ⟨fr.1 j, fun h m'' => fr.2 h j m''⟩
      · exact Or.inl e
    cases e : ph i with
    | idle M =>
      rw [e] at hl
      cases m with
      | rd => exact ⟨_, _, hs.move rfl rfl more hl (fun t h => by cases h) (fun _ _ _ h => by cases h) (by rw [e])⟩
      | wr =>
        obtain ⟨q, M', h1, h2, h3⟩ := hl
        subst h1 h2
        refine ⟨_, _, hs.move rfl rfl more h3 (fun t h => ?_) (fun _ _ _ h => by cases h) (by rw [e]; rfl)⟩
        injection h with h; subst h
        exact List.mem_cons_self
    | locked q M => rw [e] at hl; cases m <;> exact hl.elim
    | seen q x M => rw [e] at hl; cases m <;> exact hl.elim
    | stored q M => rw [e] at hl; cases m <;> exact hl.elim
  | acqPoisoned hp hf hn =>
    exact ⟨_, _, hs.move (φ := ph i) rfl rfl same trivial hhold hseen rfl⟩
  | att hp _ _ => rw [hp] at hl; exact hl.elim
  | attPoisoned hp _ _ => rw [hp] at hl; exact hl.elim
  | attBusy hp _ => rw [hp] at hl; exact hl.elim
  | @rel l m k hp =>
    rw [hp] at hl
    cases e : ph i with
    | idle M =>
      rw [e] at hl
      exact ⟨_, _, hs.move rfl rfl (less _) hl.2 (fun t h => by cases h) (fun _ _ _ h => by cases h) (by rw [e])⟩
    | stored q M =>
      rw [e] at hl
      exact ⟨_, _, hs.move rfl rfl (less _) hl.2.2 (fun t h => by cases h) (fun _ _ _ h => by cases h) (by rw [e]; rfl)⟩
    | locked q M => rw [e] at hl; exact hl.elim
    | seen q x M => rw [e] at hl; exact hl.elim
  | @get t k hp =>
    rw [hp] at hl
    cases e : ph i with
    | idle M =>
      rw [e] at hl
      exact ⟨_, _, hs.move rfl rfl same (hl _) (fun t h => by cases h) (fun _ _ _ h => by cases h) (by rw [e])⟩
    | locked q M =>
      rw [e] at hl
      obtain ⟨et, hl⟩ := hl
      subst et
      refine ⟨_, _, hs.move rfl rfl same (hl (s.tbl q.t)) (fun t h => hhold t (by rw [e]; exact h)) (fun q' x N h => ?_) (by rw [e]; rfl)⟩
      injection h with h1 h2 h3
      subst h1
      exact (eq_of_heq h2).symm
    | seen q x M => rw [e] at hl; exact hl.elim
    | stored q M => rw [e] at hl; exact hl.elim
  | @put t y k hp =>
    rw [hp] at hl
    cases e : ph i with
    | seen q x M =>
      rw [e] at hl
      obtain ⟨et, w, h1, h2, h3⟩ := hl
      subst et
      have hx := hseen q x M e
      subst hx
      simp only at h2
      subst h2
      exact ⟨_, _, hs.store e rfl h1 rfl h3⟩
    | idle M => rw [e] at hl; exact hl.elim
    | locked q M => rw [e] at hl; exact hl.elim
    | stored q M => rw [e] at hl; exact hl.elim
  | @getF t k hp =>
    rw [hp] at hl
    cases e : ph i with
    | idle M =>
      rw [e] at hl
      exact ⟨_, _, hs.move rfl rfl same (hl _) (fun t h => by cases h) (fun _ _ _ h => by cases h) (by rw [e])⟩
    | locked q M => rw [e] at hl; exact hl.elim
    | seen q x M => rw [e] at hl; exact hl.elim
    | stored q M => rw [e] at hl; exact hl.elim
  | putF hp => rw [hp] at hl; exact hl.elim
  | forget hp => rw [hp] at hl; exact hl.elim
  | see hp =>
    rw [hp] at hl
    cases e : ph i with
    | idle M =>
      rw [e] at hl
      exact ⟨_, _, hs.move rfl rfl same hl (fun t h => by cases h) (fun _ _ _ h => by cases h) (by rw [e])⟩
    | locked q M => rw [e] at hl; exact hl.elim
    | seen q x M => rw [e] at hl; exact hl.elim
    | stored q M => rw [e] at hl; exact hl.elim
  | @unwind p hp hh =>
    refine ⟨_, _, hs.move (φ := .idle (ph i).pending) (p := .fail p) (h := []) rfl rfl (fun _ _ _ _ h => by cases h) trivial
      (fun t h => by cases h) (fun _ _ _ h => by cases h) rfl⟩

theorem Ser.run {waits : Sys S ι → ι → Prop} (hs : Ser key L a s ph order) (h : Run waits s s') : ∃ ph' order', Ser key L a s' ph' order' := by
  induction h with
  | start => exact ⟨_, _, hs⟩
  | step _ h _ ih =>
    obtain ⟨_, _, ih⟩ := ih
    exact ih.step h

end V11
