import Verif.Spec.Poison
import Verif.Props.Flush
import Verif.Props.Demo
import Mathlib.Data.List.Induction

/-!
# Poisoned locks: C49
-/

set_option linter.unusedSectionVars false
set_option linter.unusedVariables false

namespace V11
variable {S : Schema} [LS : LawfulSchema S] {K : Type} [LinearOrder K] {key : Row S → K}

theorem Proc.run_snoc {p : Proc S} (h : List (LkAct S)) (a : LkAct S) {q : Proc S} :
    p.run key (h ++ [a]) = some q ↔ ∃ l, p.run key h = some (.alive l) ∧ l.act key a = some q := by
  induction h generalizing p with
  | nil =>
    cases p with
    | aborted => simp [Proc.run]
    | alive l =>
      simp only [List.nil_append, Proc.run]
      cases e : l.act key a with
      | none => simp [e]
      | some r => simp [e]
  | cons b h ih =>
    cases p with
    | aborted => simp [Proc.run]
    | alive l =>
      simp only [List.cons_append, Proc.run]
      cases e : l.act key b with
      | none => simp
      | some r => simpa using ih

theorem wasPoisoned_snoc (h : List (LkAct S)) (a : LkAct S) : WasPoisoned (h ++ [a]) ↔ WasPoisoned h ∨ EndsBadly h a := by
  constructor
  · rintro ⟨h1, b, h2, e, hb⟩
    rcases List.eq_nil_or_concat h2 with rfl | ⟨h3, c, rfl⟩
    · have := List.append_inj' e rfl
      obtain ⟨rfl, e2⟩ := this
      injection e2 with e2
      subst e2
      exact Or.inr hb
    · have e' : h ++ [a] = (h1 ++ b :: h3) ++ [c] := by rw [e]; simp
      obtain ⟨rfl, -⟩ := List.append_inj' e' rfl
      exact Or.inl ⟨h1, b, h3, rfl, hb⟩
  · rintro (⟨h1, b, h2, rfl, hb⟩ | hb)
    · exact ⟨h1, b, h2 ++ [a], by simp, hb⟩
    · exact ⟨h, a, [], by simp, hb⟩

theorem drop_iff {t : Tbl S} {calls : List (LOp S)} {w : W S} (hw : (W.lock t).steps key calls = .ok w) :
    (Unflushed S calls ∧ ∃ e, w.drop = .error e) ∨ (¬ Unflushed S calls ∧ w.drop = .ok w.tbl) := by
  by_cases hk : S.kind = .consistent
  · obtain ⟨h1, h2⟩ := C08_drop_panics_iff hk t calls w hw
    by_cases hu : ∃ op ∈ calls, op.touches = true
    · exact Or.inl ⟨⟨hk, hu⟩, _, h1.2 hu⟩
    · refine Or.inr ⟨fun h => hu h.2, h2.2 ?_⟩
      intro op ho
      by_contra hc
      exact hu ⟨op, ho, by simpa using hc⟩
  · exact Or.inr ⟨fun h => hk h.1, C08_drop_other_kinds hk w⟩

/-- What a history leaves. -/
theorem history_inv (h : List (LkAct S)) {p : Proc S} (hr : (Proc.alive RwLk.new).run key h = some p) :
    (p = .aborted ↔ ∃ h1 calls, h = h1 ++ [.panic] ∧ openCalls h1 = some calls ∧ Unflushed S calls) ∧
    ∀ l, p = .alive l → (l.poisoned = true ↔ WasPoisoned h) ∧ l.readers = openReads h ∧
      (match openCalls h with
       | none => l.writer = none
       | some calls => ∃ w, l.writer = some w ∧ (W.lock l.tbl).steps key calls = .ok w) := by
  induction h using List.reverseRecOn generalizing p with
  | nil =>
    injection hr with hr
    subst hr
    refine ⟨⟨fun h => (by cases h), ?_⟩, ?_⟩
    · rintro ⟨h1, c, e, -⟩
      simp at e
    · rintro l ⟨⟩
      refine ⟨⟨fun h => (by cases h), ?_⟩, rfl, rfl⟩
      rintro ⟨h1, a, h2, e, -⟩
      simp at e
  | append_singleton h a ih =>
    obtain ⟨l, e1, e2⟩ := (Proc.run_snoc h a).1 hr
    obtain ⟨-, ih⟩ := ih e1
    obtain ⟨i1, i2, i3⟩ := ih l rfl
    have hoc : ∀ b : LkAct S, openCalls (h ++ [b]) = (match b with
        | .write => some []
        | .call op => (openCalls h).map (· ++ [op])
        | .flush _ | .drop | .panic => none
        | .read | .dropRead => openCalls h) := by
      intro b; unfold openCalls; rw [List.foldl_append]; rfl
    have hor : ∀ b : LkAct S, openReads (h ++ [b]) = (match b with | .read => openReads h + 1 | .dropRead => openReads h - 1 | _ => openReads h) := by
      intro b; unfold openReads; rw [List.foldl_append]; rfl
    have hnot : ∀ b : LkAct S, b ≠ .panic → b ≠ .drop → ¬ EndsBadly h b := by
      rintro b h1 h2 ⟨c, -, h3 | h3⟩
      · exact h1 h3
      · exact h2 h3.1
    have hab : a ≠ .panic → ¬ ∃ h1 calls, h ++ [a] = h1 ++ [.panic] ∧ openCalls h1 = some calls ∧ Unflushed S calls := by
      rintro hne ⟨h1, calls, e, -⟩
      obtain ⟨-, e⟩ := List.append_inj' e rfl
      injection e with e
      exact hne e
    cases a with
    | read =>
      simp only [RwLk.act] at e2
      by_cases hw : l.writer.isSome = true
      · rw [if_pos hw] at e2; cases e2
      · rw [if_neg hw] at e2
        injection e2 with e2; subst e2
        refine ⟨⟨fun h => (by cases h), fun h => absurd h (hab (by simp))⟩, ?_⟩
        rintro l' ⟨⟩
        rw [wasPoisoned_snoc, hor, hoc]
        refine ⟨by simp [i1, hnot _ (show LkAct.read ≠ .panic by simp) (by simp)], by simp [i2], i3⟩
    | dropRead =>
      simp only [RwLk.act] at e2
      by_cases hw : l.readers = 0
      · rw [if_pos hw] at e2; cases e2
      · rw [if_neg hw] at e2
        injection e2 with e2; subst e2
        refine ⟨⟨fun h => (by cases h), fun h => absurd h (hab (by simp))⟩, ?_⟩
        rintro l' ⟨⟩
        rw [wasPoisoned_snoc, hor, hoc]
        refine ⟨by simp [i1, hnot _ (show LkAct.dropRead ≠ .panic by simp) (by simp)], by simp [i2], i3⟩
    | write =>
      simp only [RwLk.act] at e2
      by_cases hw : l.writer.isSome = true ∨ l.readers ≠ 0
      · rw [if_pos hw] at e2; cases e2
      · rw [if_neg hw] at e2
        injection e2 with e2; subst e2
        refine ⟨⟨fun h => (by cases h), fun h => absurd h (hab (by simp))⟩, ?_⟩
        rintro l' ⟨⟩
        rw [wasPoisoned_snoc, hor, hoc]
        exact ⟨by simp [i1, hnot _ (show LkAct.write ≠ .panic by simp) (by simp)], i2, _, rfl, rfl⟩
    | call op =>
      simp only [RwLk.act] at e2
      cases hw : l.writer with
      | none => simp only [hw] at e2; cases e2
      | some w =>
        simp only [hw] at e2
        cases hst : w.step key op with
        | error q => simp only [hst] at e2; cases e2
        | ok w' =>
          simp only [hst] at e2
          injection e2 with e2; subst e2
          refine ⟨⟨fun h => (by cases h), fun h => absurd h (hab (by simp))⟩, ?_⟩
          rintro l' ⟨⟩
          rw [wasPoisoned_snoc, hor, hoc]
          refine ⟨by simp [i1, hnot _ (show LkAct.call op ≠ .panic by simp) (by simp)], i2, ?_⟩
          cases ho : openCalls h with
          | none => rw [ho] at i3; rw [hw] at i3; cases i3
          | some calls =>
            rw [ho] at i3
            obtain ⟨w0, j1, j2⟩ := i3
            rw [hw] at j1
            injection j1 with j1
            subst j1
            refine ⟨w', rfl, ?_⟩
            unfold W.steps at j2 ⊢
            rw [List.foldlM_append, j2, okBind, List.foldlM_cons, hst, okBind]
            rfl
    | flush x =>
      simp only [RwLk.act] at e2
      cases hw : l.writer with
      | none => simp only [hw] at e2; cases e2
      | some w =>
        simp only [hw] at e2
        injection e2 with e2; subst e2
        refine ⟨⟨fun h => (by cases h), fun h => absurd h (hab (by simp))⟩, ?_⟩
        rintro l' ⟨⟩
        rw [wasPoisoned_snoc, hor, hoc]
        exact ⟨by simp [i1, hnot _ (show LkAct.flush x ≠ .panic by simp) (by simp)], i2, rfl⟩
    | drop =>
      simp only [RwLk.act] at e2
      cases ho : openCalls h with
      | none => rw [ho] at i3; simp only [i3] at e2; cases e2
      | some calls =>
        rw [ho] at i3
        obtain ⟨w, hw, j2⟩ := i3
        simp only [hw] at e2
        rcases drop_iff j2 with ⟨hu, q, hd⟩ | ⟨hu, hd⟩ <;> simp only [hd] at e2 <;> injection e2 with e2 <;> subst e2
        · refine ⟨⟨fun h => (by cases h), fun h => absurd h (hab (by simp))⟩, ?_⟩
          rintro l' ⟨⟩
          rw [wasPoisoned_snoc, hor, hoc]
          exact ⟨⟨fun _ => Or.inr ⟨calls, ho, Or.inr ⟨rfl, hu⟩⟩, fun _ => rfl⟩, i2, rfl⟩
        · refine ⟨⟨fun h => (by cases h), fun h => absurd h (hab (by simp))⟩, ?_⟩
          rintro l' ⟨⟩
          rw [wasPoisoned_snoc, hor, hoc]
          refine ⟨?_, i2, rfl⟩
          rw [i1]
          refine ⟨Or.inl, ?_⟩
          rintro (h1 | ⟨c, h1, h2 | ⟨-, h2⟩⟩)
          · exact h1
          · cases h2
          · rw [ho] at h1; injection h1 with h1; subst h1; exact absurd h2 hu
    | panic =>
      simp only [RwLk.act] at e2
      cases ho : openCalls h with
      | none => rw [ho] at i3; simp only [i3] at e2; cases e2
      | some calls =>
        rw [ho] at i3
        obtain ⟨w, hw, j2⟩ := i3
        simp only [hw] at e2
        rcases drop_iff j2 with ⟨hu, q, hd⟩ | ⟨hu, hd⟩ <;> simp only [hd] at e2 <;> injection e2 with e2 <;> subst e2
        · exact ⟨⟨fun _ => ⟨h, calls, rfl, ho, hu⟩, fun _ => rfl⟩, by rintro l' ⟨⟩⟩
        · refine ⟨⟨fun h => (by cases h), ?_⟩, ?_⟩
          · rintro ⟨h1, c, e, f1, f2⟩
            obtain ⟨rfl, -⟩ := List.append_inj' e rfl
            rw [ho] at f1; injection f1 with f1; subst f1; exact absurd f2 hu
          · rintro l' ⟨⟩
            rw [wasPoisoned_snoc, hor, hoc]
            exact ⟨⟨fun _ => Or.inr ⟨calls, ho, Or.inl rfl⟩, fun _ => rfl⟩, i2, rfl⟩

/-- C49: what the locking functions answer after any history of the lock. Everything waits exactly while a write guard
(for writing: any guard) is out, where `try_` says `WouldBlock`; otherwise all give access to the table as it was last left,
marked as poisoned exactly if at some time a write guard ended badly; then `read` and `write` panic. -/
theorem C49_results (h : List (LkAct S)) (l : RwLk S) (hr : (Proc.alive RwLk.new).run key h = some (.alive l)) :
    ((openCalls h ≠ none → l.readResult = none ∧ l.tryRead = .wouldBlock) ∧
      (openCalls h = none → ¬ WasPoisoned h → l.readResult = some (.ok l.tbl) ∧ l.tryRead = .ok l.tbl ∧ l.read = some (.ok l.tbl)) ∧
      (openCalls h = none → WasPoisoned h → l.readResult = some (.poisoned l.tbl) ∧ l.tryRead = .poisoned l.tbl ∧
        l.read = some (.error .poisoned))) ∧
    ((openCalls h ≠ none ∨ openReads h ≠ 0 → l.writeResult = none ∧ l.tryWrite = .wouldBlock) ∧
      (openCalls h = none → openReads h = 0 → ¬ WasPoisoned h → l.writeResult = some (.ok (W.lock l.tbl)) ∧
        l.tryWrite = .ok (W.lock l.tbl) ∧ l.write = some (.ok (W.lock l.tbl))) ∧
      (openCalls h = none → openReads h = 0 → WasPoisoned h → l.writeResult = some (.poisoned (W.lock l.tbl)) ∧
        l.tryWrite = .poisoned (W.lock l.tbl) ∧ l.write = some (.error .poisoned))) := by
  obtain ⟨-, hi⟩ := history_inv h hr
  obtain ⟨i1, i2, i3⟩ := hi l rfl
  have hw : l.writer.isSome = (openCalls h).isSome := by
    cases ho : openCalls h with
    | none => rw [ho] at i3; rw [i3]; rfl
    | some c => rw [ho] at i3; obtain ⟨w, e, -⟩ := i3; rw [e]; rfl
  have hrr : ∀ o, l.stdRead = o → l.readResult = o.map (fun r => mapResult r id) := fun o e => by rw [← e]; rfl
  refine ⟨⟨?_, ?_, ?_⟩, ?_, ?_, ?_⟩
  · intro ho
    have : l.stdRead = none := by
      unfold RwLk.stdRead; rw [hw, if_pos (Option.isSome_iff_ne_none.2 ho)]
    simp [RwLk.readResult, RwLk.tryRead, RwLk.stdTryRead, this, mapTryResult]
  · intro ho hp
    have : l.stdRead = some (.ok l.tbl) := by
      unfold RwLk.stdRead; rw [hw, ho]; simp [show l.poisoned = false by rw [← i1] at hp; simpa using hp]
    simp [RwLk.readResult, RwLk.tryRead, RwLk.stdTryRead, RwLk.read, this, mapTryResult, mapResult, LockResult.unwrap]
  · intro ho hp
    have : l.stdRead = some (.poisoned l.tbl) := by
      unfold RwLk.stdRead; rw [hw, ho]; simp [i1.2 hp]
    simp [RwLk.readResult, RwLk.tryRead, RwLk.stdTryRead, RwLk.read, this, mapTryResult, mapResult, LockResult.unwrap]
  · intro ho
    have : l.stdWrite = none := by
      unfold RwLk.stdWrite
      rw [hw, i2, if_pos]
      rcases ho with ho | ho
      · exact Or.inl (Option.isSome_iff_ne_none.2 ho)
      · exact Or.inr ho
    simp [RwLk.writeResult, RwLk.tryWrite, RwLk.stdTryWrite, this, mapTryResult]
  · intro ho hn hp
    have : l.stdWrite = some (.ok l.tbl) := by
      unfold RwLk.stdWrite; rw [hw, ho, i2, hn]; simp [show l.poisoned = false by rw [← i1] at hp; simpa using hp]
    simp [RwLk.writeResult, RwLk.tryWrite, RwLk.stdTryWrite, RwLk.write, this, mapTryResult, mapResult, LockResult.unwrap]
  · intro ho hn hp
    have : l.stdWrite = some (.poisoned l.tbl) := by
      unfold RwLk.stdWrite; rw [hw, ho, i2, hn]; simp [i1.2 hp]
    simp [RwLk.writeResult, RwLk.tryWrite, RwLk.stdTryWrite, RwLk.write, this, mapTryResult, mapResult, LockResult.unwrap]

/-- C49: the process aborts exactly when a thread panics while it holds the write guard of a consistent table with
unflushed changes: the guard's destructor panics during the unwinding. -/
theorem C49_abort (h : List (LkAct S)) (p : Proc S) (hr : (Proc.alive RwLk.new).run key h = some p) :
    p = .aborted ↔ ∃ h1 calls, h = h1 ++ [.panic] ∧ openCalls h1 = some calls ∧ Unflushed S calls :=
  (history_inv h hr).1

/-- C49: how a write guard leaves the table: as `flush` did, else as the calls made on it did, even if it was dropped
unflushed or its thread panicked. -/
theorem C49_left (h : List (LkAct S)) (l l' : RwLk S) (a : LkAct S) (calls : List (LOp S)) (ho : openCalls h = some calls)
    (hr : (Proc.alive RwLk.new).run key h = some (.alive l)) (ha : l.act key a = some (.alive l')) :
    (∀ x, a = .flush x → l'.tbl = x) ∧
    (a = .drop ∨ a = .panic → ∃ w, (W.lock l.tbl).steps key calls = .ok w ∧ l'.tbl = w.tbl) ∧
    ((∀ x, a ≠ .flush x) → a ≠ .drop → a ≠ .panic → l'.tbl = l.tbl) := by
  obtain ⟨-, hi⟩ := history_inv h hr
  obtain ⟨-, -, i3⟩ := hi l rfl
  rw [ho] at i3
  obtain ⟨w, hw, hs⟩ := i3
  refine ⟨?_, ?_, ?_⟩
  · rintro x rfl
    simp only [RwLk.act, hw] at ha
    injection ha with ha; injection ha with ha; subst ha; rfl
  · rintro (rfl | rfl)
    · simp only [RwLk.act, hw] at ha
      refine ⟨w, hs, ?_⟩
      rcases drop_iff hs with ⟨-, q, hd⟩ | ⟨-, hd⟩ <;> simp only [hd] at ha <;> injection ha with ha <;> injection ha with ha <;> subst ha <;> rfl
    · simp only [RwLk.act, hw] at ha
      refine ⟨w, hs, ?_⟩
      rcases drop_iff hs with ⟨-, q, hd⟩ | ⟨-, hd⟩
      · simp only [hd] at ha; injection ha with ha; cases ha
      · simp only [hd] at ha; injection ha with ha; injection ha with ha; subst ha; rfl
  · intro h1 h2 h3
    cases a with
    | read => simp [RwLk.act, hw] at ha
    | dropRead =>
      simp only [RwLk.act] at ha
      split at ha
      · cases ha
      · injection ha with ha; injection ha with ha; subst ha; rfl
    | write => simp [RwLk.act, hw] at ha
    | call op =>
      simp only [RwLk.act, hw] at ha
      cases e : w.step key op with
      | error q => simp only [e] at ha; cases ha
      | ok w' => simp only [e] at ha; injection ha with ha; injection ha with ha; subst ha; rfl
    | flush x => exact absurd rfl (h1 x)
    | drop => exact absurd rfl h2
    | panic => exact absurd rfl h3

/-! ## Three ways to end -/

/-- What is left: the table and whether it is poisoned; `none` after an abort. -/
def procLeft (h : List (LkAct (Demo .consistent))) : Option (Option (Bool × List (Option (Nat × Bool × Nat)))) :=
  ((Proc.alive RwLk.new).run demoKey h).map fun
    | .aborted => none
    | .alive l => some (l.poisoned, demoView l.tbl 2)

/-- Dropped unflushed: the row is there, the lock poisoned; a panic without changes: poisoned; a panic with unflushed
changes: abort. -/
example : procLeft [.write, .call (.push (demoRow 5 true 1)), .drop] = some (some (true, [some (5, true, 1), none])) ∧
    procLeft [.read, .dropRead, .write, .panic] = some (some (true, [none, none])) ∧
    procLeft [.write, .call (.push (demoRow 5 true 1)), .panic] = some none ∧
    procLeft [.write, .drop, .read, .read] = some (some (false, [none, none])) :=
  ⟨by rfl, by rfl, by rfl, by rfl⟩

end V11
