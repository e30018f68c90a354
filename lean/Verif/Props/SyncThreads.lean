import Verif.Lemmas.SyncThreads
import Mathlib.Data.List.Induction

/-!
# C97: `sync_globals` and threads
-/

set_option linter.unusedSimpArgs false
set_option linter.unusedVariables false
set_option linter.unusedSectionVars false

namespace V11
open SyncT
variable {Ty : Type} {V : Ty → Type} {P : Type} {ι : Type} [DecidableEq ι] {waits : Bool} {s s' : SySys ι P V}

/-- C97: at every moment a library has the registry of its last `sync_globals` that returned, every registry is what the sections made on it
have left, one after another, and a library is shut out exactly if a `sync_globals` of it panicked with the global locked. -/
theorem C97_state (hr : SyRun waits SySys.start s) :
    (∀ lib, (s.host.libs lib).reg = regOf lib s.log) ∧ (∀ r, s.host.regs r = shelfOf r s.log) ∧
    ∀ lib, (s.host.libs lib).dead = true ↔ ShutOut lib s.log :=
  have h := (sy_inv hr).1
  ⟨h.reg, h.shelf, h.dead⟩

/-- C97: a section is made on a registry that is not poisoned, and on the one that the call's library had when `clone_globals` returned. -/
theorem C97_section (hr : SyRun waits SySys.start s) {pre post : List (SyEv ι V)} {i : ι} {lib r : Nat} {w : Bool} {f : LockedWork V}
    (he : s.log = pre ++ .made i lib r w f :: post) : ClonedAt pre i lib w f r ∧ (shelfOf r pre).poisoned = false := (sy_inv hr).2 _ _ _ he

/-- C97: `sync_globals` returns only if neither registry is poisoned and they are the same, or nothing is registered in the caller's. -/
theorem C97_synced (hr : SyRun waits SySys.start s) {pre post : List (SyEv ι V)} {i : ι} {lib h : Nat}
    (he : s.log = pre ++ .synced i lib h :: post) :
    BeganAt pre i (.sync lib h) ∧ ¬ ShutOut lib pre ∧ (shelfOf (regOf lib pre) pre).poisoned = false ∧ (shelfOf h pre).poisoned = false ∧
    (regOf lib pre = h ∨ (shelfOf (regOf lib pre) pre).g.isEmpty = true) := (sy_inv hr).2 _ _ _ he

/-- C97: and panics with the global locked only if one is poisoned, or they differ and something is registered in the caller's. -/
theorem C97_refused (hr : SyRun waits SySys.start s) {pre post : List (SyEv ι V)} {i : ι} {lib h : Nat}
    (he : s.log = pre ++ .refused i lib h :: post) :
    BeganAt pre i (.sync lib h) ∧ ¬ ShutOut lib pre ∧ ((shelfOf (regOf lib pre) pre).poisoned = true ∨ (shelfOf h pre).poisoned = true ∨
      (regOf lib pre ≠ h ∧ (shelfOf (regOf lib pre) pre).g.isEmpty = false)) := (sy_inv hr).2 _ _ _ he

/-- C97: any other panic is that of a library that is shut out, or of a poisoned registry. -/
theorem C97_failed (hr : SyRun waits SySys.start s) {pre post : List (SyEv ι V)} {i : ι} {op : SyOp V}
    (he : s.log = pre ++ .failed i op :: post) :
    (∃ lib h, op = .sync lib h ∧ BeganAt pre i op ∧ ShutOut lib pre) ∨ (∃ lib w f, op = .use lib w f ∧ BeganAt pre i op ∧ ShutOut lib pre) ∨
    ∃ lib w f r, op = .use lib w f ∧ ClonedAt pre i lib w f r ∧ (shelfOf r pre).poisoned = true := by
  have h := (sy_inv hr).2 _ _ _ he
  cases op with
  | sync lib h' => exact .inl ⟨lib, h', rfl, h⟩
  | use lib w f =>
    rcases h with h | ⟨r, h⟩
    · exact .inr (.inl ⟨lib, w, f, rfl, h⟩)
    · exact .inr (.inr ⟨lib, w, f, r, rfl, h⟩)

/-- C97: a library that is shut out stays so, and none of its calls gets a handle any more. -/
theorem C97_shut_out (hr : SyRun waits SySys.start s) {pre post : List (SyEv ι V)} {lib : Nat} (he : s.log = pre ++ post) (hs : ShutOut lib pre) :
    ShutOut lib s.log ∧ (∀ i r, .cloned i lib r ∉ post) ∧ (∀ i h, .synced i lib h ∉ post) ∧ regOf lib s.log = regOf lib pre := by
  have mono : ∀ a : List (SyEv ι V), ShutOut lib (pre ++ a) := fun a => by
    obtain ⟨i, h, hm⟩ := hs; exact ⟨i, h, List.mem_append_left _ hm⟩
  have no : ∀ i h, (.synced i lib h : SyEv ι V) ∉ post := by
    intro i h hm
    obtain ⟨a, b, rfl⟩ := List.append_of_mem hm
    exact (C97_synced hr (pre := pre ++ a) (post := b) (i := i) (lib := lib) (h := h) (by rw [he]; simp)).2.1 (mono a)
  refine ⟨he ▸ mono post, ?_, no, ?_⟩
  · intro i r hm
    obtain ⟨a, b, rfl⟩ := List.append_of_mem hm
    have := (sy_inv hr).2 (pre ++ a) (.cloned i lib r) b (by rw [he]; simp)
    exact this.2.1 (mono a)
  · rw [he]
    have : ∀ b, (∀ e ∈ b, e ∈ post) → regOf lib (pre ++ b) = regOf lib pre := by
      intro b
      induction b using List.reverseRecOn with
      | nil => intro _; simp
      | append_singleton b e ih =>
        intro hb
        rw [← List.append_assoc, regOf_snoc, ih (fun x hx => hb x (List.mem_append_left _ hx))]
        cases e with
        | synced j l h =>
          simp only []
          rw [if_neg]
          rintro rfl
          exact no j h (hb _ (by simp))
        | _ => rfl
    exact this post (fun _ h => h)

/-- C97: if no `sync_globals` of the library returns between `clone_globals` and the section, the section is made on the registry that the
library still has. -/
theorem C97_kept (hr : SyRun waits SySys.start s) {pre mid post : List (SyEv ι V)} {i : ι} {lib r r' : Nat} {w : Bool} {f : LockedWork V}
    (he : s.log = pre ++ .cloned i lib r' :: (mid ++ .made i lib r w f :: post)) (hm : ∀ e ∈ mid, e.who ≠ i)
    (hn : ∀ j h, .synced j lib h ∉ mid) : r = regOf lib (pre ++ .cloned i lib r' :: mid) := by
  have h1 := (C97_section hr (pre := pre ++ .cloned i lib r' :: mid) (post := post) (i := i) (lib := lib) (r := r) (w := w) (f := f) (by rw [he]; simp)).1
  obtain ⟨a, b, hab, hb, _, hreg⟩ := h1
  -- the last event of thread `i` is the same in both
  have key : ∀ (b mid a pre : List (SyEv ι V)) (r r' : Nat), pre ++ .cloned i lib r' :: mid = a ++ .cloned i lib r :: b → (∀ e ∈ b, e.who ≠ i) →
      (∀ e ∈ mid, e.who ≠ i) → pre = a ∧ r' = r := by
    intro b
    induction b using List.reverseRecOn with
    | nil =>
      intro mid a pre r r' h hb hm
      rcases List.eq_nil_or_concat mid with hp | ⟨mid', x, hp⟩
      · subst hp
        obtain ⟨h1, h2⟩ := List.append_inj' h rfl
        injection h2 with h2 _; injection h2 with _ _ h2
        exact ⟨h1, h2⟩
      · subst hp
        rw [List.concat_eq_append] at h hm
        have h' : (pre ++ .cloned i lib r' :: mid') ++ [x] = a ++ [.cloned i lib r] := by simpa using h
        obtain ⟨_, h2⟩ := List.append_inj' h' rfl
        injection h2 with h2 _
        exact absurd (by rw [h2]; rfl) (hm x (by simp))
    | append_singleton b y ih =>
      intro mid a pre r r' h hb hm
      rcases List.eq_nil_or_concat mid with hp | ⟨mid', x, hp⟩
      · subst hp
        have h' : pre ++ [.cloned i lib r'] = (a ++ .cloned i lib r :: b) ++ [y] := by simpa using h
        obtain ⟨_, h2⟩ := List.append_inj' h' rfl
        injection h2 with h2 _
        exact absurd (by rw [← h2]; rfl) (hb y (by simp))
      · subst hp
        rw [List.concat_eq_append] at h hm
        have h' : (pre ++ .cloned i lib r' :: mid') ++ [x] = (a ++ .cloned i lib r :: b) ++ [y] := by simpa using h
        obtain ⟨h1, h2⟩ := List.append_inj' h' rfl
        exact ih mid' a pre r r' h1 (fun e he => hb e (List.mem_append_left _ he)) (fun e he => hm e (List.mem_append_left _ he))
  obtain ⟨h1, h2⟩ := key b mid a pre r r' hab hb hm
  have : ∀ b, (∀ e ∈ b, e ∈ mid) → regOf lib (pre ++ .cloned i lib r' :: b) = regOf lib pre := by
    intro b
    induction b using List.reverseRecOn with
    | nil => intro _; rw [regOf_snoc]
    | append_singleton b e ih =>
      intro hb
      have : pre ++ SyEv.cloned i lib r' :: (b ++ [e]) = (pre ++ SyEv.cloned i lib r' :: b) ++ [e] := by simp
      rw [this, regOf_snoc, ih (fun x hx => hb x (List.mem_append_left _ hx))]
      cases e with
      | synced j l h =>
        simp only []
        rw [if_neg]
        rintro rfl
        exact hn j h (hb _ (by simp))
      | _ => rfl
  rw [this mid (fun _ h => h), hreg, h1]

/-- C97: if `sync_globals` is used as documented, there is one registry: everything is done on `main`'s, whichever library does it. -/
theorem C97_as_one (hr : SyRun waits SySys.start s) (h1 : SyncedOnce s.log) (h2 : SyncedFirst s.log) {i : ι} {lib r : Nat} {w : Bool}
    {f : LockedWork V} (he : .made i lib r w f ∈ s.log) : r = 0 := by
  obtain ⟨pre, post, he⟩ := List.append_of_mem he
  obtain ⟨⟨a, b, hab, _, ⟨c, d, hcd, _⟩, hreg⟩, _⟩ := C97_section hr he
  have zero : ∀ j l h, (.synced j l h : SyEv ι V) ∈ s.log → h = 0 := by
    intro j l h hm
    obtain ⟨x, y, hxy⟩ := List.append_of_mem hm
    obtain ⟨⟨u, v, huv, _⟩, _⟩ := C97_synced hr hxy
    exact (h1 u (v ++ .synced j l h :: y) j l h (by rw [hxy, huv]; simp)).1
  have all : ∀ es : List (SyEv ι V), (∀ e ∈ es, e ∈ s.log) → (lib = 0 ∨ ∃ j, .synced j lib 0 ∈ es) → regOf lib es = 0 := by
    intro es
    induction es using List.reverseRecOn with
    | nil => intro _ h; rcases h with h | ⟨j, h⟩
             · exact h
             · cases h
    | append_singleton es e ih =>
      intro hs h
      rw [regOf_snoc]
      have hs' : ∀ x ∈ es, x ∈ s.log := fun x hx => hs x (List.mem_append_left _ hx)
      have rest : (∀ j, e ≠ .synced j lib 0) → regOf lib es = 0 := by
        intro hne
        apply ih hs'
        rcases h with h | ⟨j, h⟩
        · exact .inl h
        · rcases List.mem_append.1 h with h | h
          · exact .inr ⟨j, h⟩
          · exact absurd (List.mem_singleton.1 h).symm (hne j)
      cases e with
      | synced j l h' =>
        have hz : h' = 0 := zero j l h' (hs _ (by simp))
        simp only []
        by_cases hl : l = lib
        · rw [if_pos hl]; exact hz
        · rw [if_neg hl]; exact rest (fun j he => by injection he with _ he _; exact hl he)
      | _ => exact rest (fun j => nofun)
  rw [hreg]
  have hlog : s.log = c ++ .began i (.use lib w f) :: (d ++ .cloned i lib r :: (b ++ .made i lib r w f :: post)) := by
    rw [he, hab, hcd]; simp
  apply all a
  · intro e hm; rw [he, hab]; simp [hm]
  · rcases h2 _ _ _ _ _ _ hlog with h | ⟨j, h⟩
    · exact .inl h
    · exact .inr ⟨j, by rw [hcd]; exact List.mem_append_left _ h⟩

/-- C97: where nobody who is in a call can go on, readers wait for writers that wait; and everybody who waits to write a registry waits for a
`sync_globals` that reads it and waits to read another, or the same, which somebody else waits to write. -/
theorem C97_stuck (h : s.Stuck waits) :
    waits = true ∧ (∃ j lib f r, s.th j = .queued lib true f r) ∧
    ∀ j lib f r, s.th j = .queued lib true f r →
      ∃ k lib' h', s.th k = .comparing lib' h' r ∧ ∃ j' lib'' f', s.th j' = .queued lib'' true f' h' := by
  obtain ⟨⟨i, hi⟩, hn⟩ := h
  have noin : ∀ j lib w f r, s.th j ≠ .inside lib w f r := fun j lib w f r hj => hn j (by rw [hj]; nofun) _ (.leave hj)
  have sec : ∀ k lib h r, s.th k = .comparing lib h r → ¬ s.readable waits h := by
    intro k lib h r hk hrd
    cases hs : s.host.sync lib h with
    | mk o host =>
      cases o with
      | ok _ => exact hn k (by rw [hk]; nofun) _ (.second hk hrd hs)
      | error e => exact hn k (by rw [hk]; nofun) _ (.secondFails hk hrd hs)
  have fst : ∀ k lib h, s.th k = .syncing lib h → ¬ s.readable waits (s.host.libs lib).reg := by
    intro k lib h hk hrd
    cases hp : (s.host.regs (s.host.libs lib).reg).poisoned with
    | false => exact hn k (by rw [hk]; nofun) _ (.first hk hrd hp)
    | true => exact hn k (by rw [hk]; nofun) _ (.firstFails hk hrd hp)
  have ent : ∀ k lib w f r, s.th k = .queued lib w f r → ¬ s.grantable waits r w := by
    intro k lib w f r hk hrd
    cases hp : (s.host.regs r).poisoned with
    | false => exact hn k (by rw [hk]; nofun) _ (.enter hk hrd hp)
    | true => exact hn k (by rw [hk]; nofun) _ (.enterFails hk hrd hp)
  have why : ∀ r, ¬ s.readable waits r → waits = true ∧ ∃ j lib f, s.th j = .queued lib true f r := by
    intro r hr
    by_contra hc
    apply hr
    refine ⟨fun j lib f => noin j lib true f r, fun hw j lib f hj => hc ⟨hw, j, lib, f, hj⟩⟩
  have locks : ∀ lib, s.locked lib → waits = true ∧ ∃ j l f r, s.th j = .queued l true f r := by
    rintro lib ⟨j, h, hj | ⟨r, hj⟩⟩
    · obtain ⟨a, b⟩ := why _ (fst _ _ _ hj); obtain ⟨j, l, f, b⟩ := b; exact ⟨a, j, l, f, _, b⟩
    · obtain ⟨a, b⟩ := why _ (sec _ _ _ _ hj); obtain ⟨j, l, f, b⟩ := b; exact ⟨a, j, l, f, _, b⟩
  have last : ∀ j lib f r, s.th j = .queued lib true f r →
      waits = true ∧ ∃ k lib' h', s.th k = .comparing lib' h' r ∧ ∃ j' lib'' f', s.th j' = .queued lib'' true f' h' := by
    intro j lib f r hj
    have : ¬ s.writable r := ent j lib true f r hj
    have : ∃ k lib' h', s.th k = .comparing lib' h' r := by
      by_contra hc
      exact this ⟨fun k l w f => noin k l w f r, fun k l h hk => hc ⟨k, l, h, hk⟩⟩
    obtain ⟨k, lib', h', hk⟩ := this
    obtain ⟨a, b⟩ := why _ (sec _ _ _ _ hk)
    exact ⟨a, k, lib', h', hk, b⟩
  have start : waits = true ∧ ∃ j l f r, s.th j = .queued l true f r := by
    cases hp : s.th i with
    | idle => exact absurd hp hi
    | begun op =>
      cases op with
      | use lib w f =>
        by_cases hl : s.locked lib
        · exact locks lib hl
        · cases hc : s.host.cloneGlobals lib with
          | ok r => exact absurd (.clone hp hl hc) (hn i hi _)
          | error e => exact absurd (.cloneFails hp hl hc) (hn i hi _)
      | sync lib h =>
        by_cases hl : s.locked lib
        · exact locks lib hl
        · cases hd : (s.host.libs lib).dead with
          | false => exact absurd (.lock hp hl hd) (hn i hi _)
          | true => exact absurd (.lockFails hp hl hd) (hn i hi _)
    | cloned lib w f r => exact absurd (.ask hp) (hn i hi _)
    | queued lib w f r =>
      cases w with
      | true => exact ⟨(last _ _ _ _ hp).1, _, _, _, _, hp⟩
      | false =>
        obtain ⟨a, j, l, f, b⟩ := why r (ent _ _ _ _ _ hp)
        exact ⟨a, j, l, f, _, b⟩
    | inside lib w f r => exact absurd hp (noin _ _ _ _ _)
    | syncing lib h => exact locks lib ⟨i, h, .inl hp⟩
    | comparing lib h r => exact locks lib ⟨i, h, .inr ⟨r, hp⟩⟩
  exact ⟨start.1, start.2, fun j lib f r hj => (last j lib f r hj).2⟩

/-- C97: so if readers do not wait for writers that wait, there is no deadlock. -/
theorem C97_no_deadlock : ¬ s.Stuck false := fun h => by cases (C97_stuck h).1

/-- C97: nor is there if `sync_globals` is called with `main`'s handle only, not in `main`, and once in each library. -/
theorem C97_no_deadlock_once (hr : SyRun waits SySys.start s) (h1 : SyncedOnce s.log) : ¬ s.Stuck waits := by
  intro hst
  obtain ⟨_, ⟨j, lib, f, r, hj⟩, hall⟩ := C97_stuck hst
  have ne : ∀ k lib h r, s.th k = .comparing lib h r → h = 0 ∧ r ≠ 0 := by
    intro k lib h r hk
    have hp := (sy_inv hr).1.ph k
    rw [hk] at hp
    obtain ⟨⟨a, b, hab, hb⟩, _, hreg, _⟩ := hp
    obtain ⟨hh, hl, hno⟩ := h1 a b k lib h hab
    refine ⟨hh, ?_⟩
    have never : ∀ j h', (.synced j lib h' : SyEv ι V) ∉ s.log := by
      intro j h' hm
      obtain ⟨x, y, hxy⟩ := List.append_of_mem hm
      obtain ⟨⟨u, v, huv, hv⟩, _⟩ := C97_synced hr hxy
      have hu : s.log = u ++ .began j (.sync lib h') :: (v ++ .synced j lib h' :: y) := by rw [hxy, huv]; simp
      -- one of the two beginnings is the earlier one
      rw [hab] at hu
      rcases List.append_eq_append_iff.1 hu with ⟨c, hc1, hc2⟩ | ⟨c, hc1, hc2⟩
      · cases c with
        | nil =>
          simp only [List.nil_append, List.append_nil] at hc1 hc2
          injection hc2 with hc2 hc3
          injection hc2 with hkj _
          subst hkj
          exact hb (.synced k lib h') (by rw [hc3]; simp) rfl
        | cons e c =>
          simp only [List.cons_append] at hc2
          injection hc2 with hc2 hc3
          have hmem : (.began k (.sync lib h) : SyEv ι V) ∈ u := by rw [hc1, hc2]; simp
          exact (h1 u _ j lib h' (by rw [hab]; exact hu)).2.2 k h hmem
      · cases c with
        | nil =>
          simp only [List.nil_append, List.append_nil] at hc1 hc2
          injection hc2 with hc2 hc3
          injection hc2 with hkj _
          subst hkj
          exact hb (.synced j lib h') (by rw [← hc3]; simp) rfl
        | cons e c =>
          simp only [List.cons_append] at hc2
          injection hc2 with hc2 hc3
          exact hno j h' (by rw [hc1, hc2]; simp)
    have : ∀ es : List (SyEv ι V), (∀ e ∈ es, e ∈ s.log) → regOf lib es = lib := by
      intro es
      induction es using List.reverseRecOn with
      | nil => intro _; rfl
      | append_singleton es e ih =>
        intro hs
        rw [regOf_snoc]
        have hi := ih (fun x hx => hs x (List.mem_append_left _ hx))
        cases e with
        | synced j l h' =>
          simp only []
          rw [if_neg]
          · exact hi
          · rintro rfl; exact never j h' (hs _ (by simp))
        | _ => exact hi
    rw [hreg, this s.log (fun _ h => h)]
    exact hl
  obtain ⟨k, l, h, hk, j', l', f', hj'⟩ := hall j lib f r hj
  have h0 := (ne _ _ _ _ hk).1
  subst h0
  obtain ⟨k2, l2, h2, hk2, _⟩ := hall j' l' f' 0 hj'
  exact (ne _ _ _ _ hk2).2 rfl

/-- Neither of the two can go on. -/
theorem sy_blocked {t t' : SySys ι P V} {i j k : ι} {lib lib' r : Nat} {f : LockedWork V} (ih1 : t.th i = .comparing lib r r)
    (ih2 : t.th j = .queued lib' true f r) (hs : SyStep true t k t') : k ≠ i ∧ k ≠ j := by
  have nr : ¬ t.readable true r := fun h => h.2 rfl _ _ _ ih2
  have nw : ¬ t.writable r := fun h => h.2 _ _ _ ih1
  have hki : k ≠ i := by
    rintro rfl
    cases hs with
    | second h hrd _ => rw [ih1] at h; injection h with _ h _; subst h; exact nr hrd
    | secondFails h hrd _ => rw [ih1] at h; injection h with _ h _; subst h; exact nr hrd
    | begin _ h => rw [ih1] at h; cases h
    | _ h => rw [ih1] at h; cases h
  have hkj : k ≠ j := by
    rintro rfl
    cases hs with
    | enter h hg _ => rw [ih2] at h; injection h with _ h _ h'; subst h; subst h'; exact nw hg
    | enterFails h hg _ => rw [ih2] at h; injection h with _ h _ h'; subst h; subst h'; exact nw hg
    | begin _ h => rw [ih2] at h; cases h
    | _ h => rw [ih2] at h; cases h
  exact ⟨hki, hkj⟩

/-- If there are no others. -/
theorem sy_stuck {t : SySys Bool P V} {lib lib' r : Nat} {f : LockedWork V} (h1 : t.th true = .comparing lib r r)
    (h2 : t.th false = .queued lib' true f r) : t.Stuck true := by
  refine ⟨⟨true, by rw [h1]; nofun⟩, ?_⟩
  intro k _ s' hs
  obtain ⟨a, b⟩ := sy_blocked h1 h2 hs
  cases k with
  | true => exact a rfl
  | false => exact b rfl

/-- C97: otherwise there is: a `sync_globals` that is called with the registry the library has already, and has it locked, waits for a writer
that waits for it. Neither ever goes on. -/
theorem C97_deadlock {i j : ι} {lib lib' r : Nat} {f : LockedWork V} (hi : s.th i = .comparing lib r r) (hj : s.th j = .queued lib' true f r)
    (hr : SyRun true s s') : s'.th i = .comparing lib r r ∧ s'.th j = .queued lib' true f r := by
  induction hr with
  | refl => exact ⟨hi, hj⟩
  | @step t t' k h hs ih =>
    obtain ⟨ih1, ih2⟩ := ih
    obtain ⟨hki, hkj⟩ := sy_blocked ih1 ih2 hs
    have same : ∀ x, x ≠ k → t'.th x = t.th x := by
      intro x hx
      cases hs <;> simp [SySys.goOn, Function.update_of_ne hx]
    exact ⟨by rw [same i (fun h => hki h.symm)]; exact ih1, by rw [same j (fun h => hkj h.symm)]; exact ih2⟩

/-- C97: two threads get there: library 1 has synced with `main`, does so again, and meanwhile `main` registers something. -/
theorem C97_deadlock_happens (f : LockedWork V) :
    ∃ s : SySys Bool P V, SyRun true SySys.start s ∧ s.Stuck true ∧ s.th true = .comparing 1 0 0 ∧ s.th false = .queued 0 true f 0 ∧
      SyncedFirst s.log ∧ ∀ i lib h, .began i (.sync lib h) ∈ s.log → lib = 1 ∧ h = 0 := by
  have r0 : SyRun true (SySys.start : SySys Bool P V) SySys.start := .refl
  have r1 := r0.step true (.begin (.sync 1 0) rfl)
  have r2 := r1.step true (.lock (lib := 1) (h := 0) (by simp [SySys.goOn]) (by simp [SySys.locked, SySys.goOn, SySys.start, Bool.exists_bool]) rfl)
  have r3 := r2.step true (.first (lib := 1) (h := 0) (by simp [SySys.goOn]) (by simp [SySys.readable, SySys.goOn, SySys.start]) rfl)
  have r4 := r3.step true (.second (lib := 1) (h := 0) (r := 1) (host := { Host.start with libs := Function.update Host.start.libs 1 { reg := 0, dead := false } })
    (by simp [SySys.goOn]; rfl) (by simp [SySys.readable, SySys.goOn, SySys.start]) rfl)
  have r5 := r4.step true (.begin (.sync 1 0) (by simp [SySys.goOn]))
  have r6 := r5.step true (.lock (lib := 1) (h := 0) (by simp [SySys.goOn]) (by simp [SySys.locked, SySys.goOn, SySys.start, Bool.exists_bool]) rfl)
  have r7 := r6.step true (.first (lib := 1) (h := 0) (by simp [SySys.goOn]) (by simp [SySys.readable, SySys.goOn, SySys.start]) rfl)
  have r8 := r7.step false (.begin (.use 0 true f) (by simp [SySys.goOn, SySys.start]))
  have r9 := r8.step false (.clone (lib := 0) (w := true) (f := f) (r := 0) (by simp [SySys.goOn])
    (by simp [SySys.locked, SySys.goOn, SySys.start, Bool.exists_bool]) rfl)
  have r10 := r9.step false (.ask (lib := 0) (w := true) (f := f) (r := 0) (by simp [SySys.goOn]))
  refine ⟨_, r10, sy_stuck (r := 0) (lib := 1) (lib' := 0) (f := f) (by simp [SySys.goOn]) (by simp [SySys.goOn]), by simp [SySys.goOn],
    by simp [SySys.goOn], ?_, ?_⟩
  · intro pre post i lib w g he
    have hm : (.began i (.use lib w g) : SyEv Bool V) ∈ pre ++ .began i (.use lib w g) :: post := by simp
    rw [← he] at hm
    simp [SySys.goOn, SySys.start] at hm
    exact .inl hm.2.1
  · intro i lib h hm
    simp [SySys.goOn, SySys.start] at hm
    exact hm.2

/-- C97: what is registered by a call that has the handle already when another thread's `sync_globals` returns is lost: library 1 gets `main`'s
registry, the section is made on the one it had before, and no library has that one any more. -/
theorem C97_lost (f : LockedWork V) :
    ∃ s : SySys Bool P V, SyRun waits SySys.start s ∧ (∀ i, s.th i = .idle) ∧ .made false 1 1 true f ∈ s.log ∧
      s.host.regs 1 = { g := (f Shelf.empty.g).1, poisoned := (f Shelf.empty.g).2 } ∧
      (s.host.libs 1).reg = 0 ∧ s.host.regs 0 = Shelf.empty ∧ ∀ lib, (s.host.libs lib).reg ≠ 1 := by
  have r0 : SyRun waits (SySys.start : SySys Bool P V) SySys.start := .refl
  have r1 := r0.step false (.begin (.use 1 true f) rfl)
  have r2 := r1.step false (.clone (lib := 1) (w := true) (f := f) (r := 1) (by simp [SySys.goOn])
    (by simp [SySys.locked, SySys.goOn, SySys.start, Bool.exists_bool]) rfl)
  have r3 := r2.step true (.begin (.sync 1 0) (by simp [SySys.goOn, SySys.start]))
  have r4 := r3.step true (.lock (lib := 1) (h := 0) (by simp [SySys.goOn]) (by simp [SySys.locked, SySys.goOn, SySys.start, Bool.exists_bool]) rfl)
  have r5 := r4.step true (.first (lib := 1) (h := 0) (by simp [SySys.goOn]) (by simp [SySys.readable, SySys.goOn, SySys.start]) rfl)
  have r6 := r5.step true (.second (lib := 1) (h := 0) (r := 1) (host := { Host.start with libs := Function.update Host.start.libs 1 { reg := 0, dead := false } })
    (by simp [SySys.goOn]; rfl) (by simp [SySys.readable, SySys.goOn, SySys.start]) rfl)
  have r7 := r6.step false (.ask (lib := 1) (w := true) (f := f) (r := 1) (by simp [SySys.goOn]))
  have r8 := r7.step false (.enter (lib := 1) (w := true) (f := f) (r := 1) (by simp [SySys.goOn])
    (by simp [SySys.grantable, SySys.writable, SySys.goOn, SySys.start]) rfl)
  have r9 := r8.step false (.leave (lib := 1) (w := true) (f := f) (r := 1) (by simp [SySys.goOn]))
  refine ⟨_, r9, ?_, by simp [SySys.goOn], ?_, ?_, ?_, ?_⟩
  · intro i; cases i <;> simp [SySys.goOn]
  · simp [SySys.goOn, Host.made, Shelf.after, Host.start, Shelf.empty]; exact ⟨rfl, rfl⟩
  · simp [SySys.goOn, Host.made]
  · simp [SySys.goOn, Host.made, Host.start, Shelf.empty]; rfl
  · intro lib
    by_cases h : lib = 1
    · subst h; simp [SySys.goOn, Host.made]
    · simp [SySys.goOn, Host.made, Function.update_of_ne h, Host.start, h]

/-- The documented use: library 1 syncs with `main`, and then does something, which ends up in `main`'s registry. -/
example (f : LockedWork V) : ∃ s : SySys Bool P V, SyRun waits SySys.start s ∧ SyncedOnce s.log ∧ SyncedFirst s.log ∧
    .made false 1 0 true f ∈ s.log ∧ s.host.regs 0 = { g := (f Shelf.empty.g).1, poisoned := (f Shelf.empty.g).2 } := by
  have r0 : SyRun waits (SySys.start : SySys Bool P V) SySys.start := .refl
  have r1 := r0.step true (.begin (.sync 1 0) rfl)
  have r2 := r1.step true (.lock (lib := 1) (h := 0) (by simp [SySys.goOn]) (by simp [SySys.locked, SySys.goOn, SySys.start, Bool.exists_bool]) rfl)
  have r3 := r2.step true (.first (lib := 1) (h := 0) (by simp [SySys.goOn]) (by simp [SySys.readable, SySys.goOn, SySys.start]) rfl)
  have r4 := r3.step true (.second (lib := 1) (h := 0) (r := 1) (host := { Host.start with libs := Function.update Host.start.libs 1 { reg := 0, dead := false } })
    (by simp [SySys.goOn]; rfl) (by simp [SySys.readable, SySys.goOn, SySys.start]) rfl)
  have r5 := r4.step false (.begin (.use 1 true f) (by simp [SySys.goOn, SySys.start]))
  have r6 := r5.step false (.clone (lib := 1) (w := true) (f := f) (r := 0) (by simp [SySys.goOn])
    (by simp [SySys.locked, SySys.goOn, SySys.start, Bool.exists_bool]) rfl)
  have r7 := r6.step false (.ask (lib := 1) (w := true) (f := f) (r := 0) (by simp [SySys.goOn]))
  have r8 := r7.step false (.enter (lib := 1) (w := true) (f := f) (r := 0) (by simp [SySys.goOn])
    (by simp [SySys.grantable, SySys.writable, SySys.goOn, SySys.start]) rfl)
  have r9 := r8.step false (.leave (lib := 1) (w := true) (f := f) (r := 0) (by simp [SySys.goOn]))
  refine ⟨_, r9, ?_, ?_, by simp [SySys.goOn], ?_⟩
  · intro pre post i lib h he
    simp [SySys.goOn, SySys.start] at he
    rcases pre with _ | ⟨a, _ | ⟨b, _ | ⟨c, _ | ⟨d, _ | ⟨e, _ | ⟨g, pre⟩⟩⟩⟩⟩⟩ <;> simp at he
    obtain ⟨⟨rfl, rfl, rfl⟩, _⟩ := he
    exact ⟨rfl, by decide, by simp⟩
  · intro pre post i lib w g he
    simp [SySys.goOn, SySys.start] at he
    rcases pre with _ | ⟨a, _ | ⟨b, _ | ⟨c, _ | ⟨d, _ | ⟨e, _ | ⟨x, pre⟩⟩⟩⟩⟩⟩ <;> simp at he
    obtain ⟨rfl, rfl, ⟨rfl, rfl, _⟩, _⟩ := he
    exact .inr ⟨true, by simp⟩
  · simp [SySys.goOn, Host.made, Shelf.after, Host.start, Shelf.empty]; exact ⟨rfl, rfl⟩

end V11
