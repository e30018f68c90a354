import Verif.Model.Handlers
import Verif.Props.Events

/-!
# Fallback handlers: C46
-/

set_option linter.unusedSectionVars false
set_option linter.unusedVariables false

namespace V11

/-- C46: ids of the built-in events are their positions, below the limit; none both creates and removes. -/
theorem C46_builtin_events : EVENT_LIST.map Event.id = List.range 18 ∧
    ∀ e ∈ EVENT_LIST, e.id < MAX_EVENT_TYPES ∧ ¬ (e.isRemoval = true ∧ e.isCreation = true) := by decide

/-- C46: which built-in events remove and which create, by name. -/
theorem C46_builtin_kinds : ∀ e ∈ EVENT_LIST,
    (e.isRemoval = true ↔ e.debug ∈ ["DELETE", "UNLOAD", "UNSYNCED", "MOVE_OUT"]) ∧
    (e.isCreation = true ↔ e.debug ∈ ["CREATE", "DESERIALIZE", "SYNCED", "MOVE_IN"]) := by decide

/-- C46: the `Debug` text of an event: the constant's name for the ids of the built-ins, `CUSTOM_` and the number for every
other id. Events are printed alike only if they have the same id. -/
theorem C46_debug (e e' : Event) :
    (e.id < 18 → EVENT_NAMES[e.id]? = some e.debug) ∧ (18 ≤ e.id → e.debug = "CUSTOM_" ++ toString e.id) ∧
      (e.debug = e'.debug ↔ e.id = e'.id) := by
  have hb : ∀ e : Event, e.id < 18 → EVENT_NAMES[e.id]? = some e.debug := by
    intro e h
    unfold Event.debug
    rw [List.getElem?_eq_getElem (show e.id < EVENT_NAMES.length from h)]
    rfl
  have hc : ∀ e : Event, 18 ≤ e.id → e.debug = "CUSTOM_" ++ toString e.id := by
    intro e h
    unfold Event.debug
    rw [List.getElem?_eq_none (show EVENT_NAMES.length ≤ e.id from h)]
    rfl
  have hpre : ∀ n ∈ EVENT_NAMES, ¬ ("CUSTOM_".toList <+: n.toList) := by decide
  have hnd : EVENT_NAMES.Nodup := by decide
  have hmix : ∀ e e' : Event, e.id < 18 → 18 ≤ e'.id → e.debug ≠ e'.debug := by
    intro e e' h h' he
    have := hpre e.debug (List.mem_of_getElem? (hb e h))
    rw [he, hc e' h', String.toList_append] at this
    exact this (List.prefix_append _ _)
  refine ⟨hb e, hc e, ?_, fun h => by unfold Event.debug; rw [h]⟩
  intro he
  by_cases h : e.id < 18 <;> by_cases h' : e'.id < 18
  · have h1 := hb e h
    have h2 := hb e' h'
    rw [← he, ← h1] at h2
    exact ((List.getElem?_inj (show e'.id < EVENT_NAMES.length from h') hnd).1 h2).symm
  · exact absurd he (hmix e e' h (by omega))
  · exact absurd he.symm (hmix e' e h' (by omega))
  · rw [hc e (by omega), hc e' (by omega), String.append_right_inj] at he
    have h3 : Nat.toDigits 10 e.id = Nat.toDigits 10 e'.id := by
      have := congrArg String.toList he
      simpa [Nat.toString_eq_ofList_toDigits] using this
    have := congrArg (fun l => Nat.ofDigitChars 10 l 0) h3
    simpa [Nat.ofDigitChars_toDigits] using this

example : (mkEvent 7 0).debug = "SYNCED" ∧ (mkEvent 20 3).debug = "CUSTOM_20" := by decide

variable {H : Type}

/-- C46: by default an event with a built-in's id gets the handler of that built-in's kind: removals delete,
creations do nothing, the others panic. -/
theorem C46_default_builtin (std : Handler → H) (ev : Event) (e : Event) (he : e ∈ EVENT_LIST) (hid : ev.id = e.id) :
    (EventHandlers.default std).get ev = .ok (std (if e.isRemoval then .delete else if e.isCreation then .null else .panicking)) := by
  have h : ∀ e ∈ EVENT_LIST, e.id < MAX_EVENT_TYPES ∧
      defaultHandler e.id = (if e.isRemoval then .delete else if e.isCreation then .null else .panicking) := by decide
  obtain ⟨h1, h2⟩ := h e he
  unfold EventHandlers.get EventHandlers.default
  rw [hid]
  simp [List.getElem?_range h1, h2]

/-- C46: by default every other id below the limit panics, whatever the event says it is; ids from the limit on
cannot be looked up. -/
theorem C46_default_custom (std : Handler → H) (ev : Event) (he : ∀ e ∈ EVENT_LIST, ev.id ≠ e.id) :
    (EventHandlers.default std).get ev = if ev.id < 32 then .ok (std .panicking) else .error .vecOob := by
  unfold EventHandlers.get EventHandlers.default
  by_cases h : ev.id < 32
  · rw [if_pos h]
    have h18 : ¬ ev.id < 18 := by
      intro hl
      have : ev.id ∈ EVENT_LIST.map Event.id := by rw [C46_builtin_events.1]; exact List.mem_range.2 hl
      obtain ⟨e, h1, h2⟩ := List.mem_map.1 this
      exact he e h1 h2.symm
    have hd : defaultHandler ev.id = .panicking := by
      unfold defaultHandler
      rw [List.getElem?_eq_none (by show 18 ≤ ev.id; omega)]
      rfl
    simp [MAX_EVENT_TYPES, List.getElem?_range h, hd]
  · rw [if_neg h, List.getElem?_eq_none (by simp [MAX_EVENT_TYPES]; omega)]

/-- What `add` accepts, said without the table. -/
def addable (ev : Event) : Bool := decide (ev ≠ INVALID_EVENT) && decide (ev.id < 32)

/-- The handler most recently installed for an id. -/
def lastAdded (adds : List (Event × H)) (id : Nat) : Option H :=
  ((adds.filter (fun a => addable a.1 && decide (a.1.id = id))).getLast?).map (·.2)

theorem addAll_get (t : EventHandlers H) (hl : t.fallbacks.length = 32) (adds : List (Event × H)) (ev : Event) :
    (t.addAll adds).fallbacks.length = 32 ∧
    (t.addAll adds).get ev = match lastAdded adds ev.id with | some h => .ok h | none => t.get ev := by
  induction adds generalizing t with
  | nil => exact ⟨hl, rfl⟩
  | cons a adds ih =>
    obtain ⟨e, h⟩ := a
    unfold EventHandlers.addAll
    by_cases hq : addable e = true
    · have hq' := hq
      simp only [addable, Bool.and_eq_true, decide_eq_true_eq] at hq'
      have hg : t.add e h = .ok (t.fallbacks[e.id]'(by omega), { fallbacks := t.fallbacks.set e.id h }) := by
        unfold EventHandlers.add
        rw [if_neg hq'.1, List.getElem?_eq_getElem (by omega)]
      rw [hg]
      simp only []
      obtain ⟨i1, i2⟩ := ih { fallbacks := t.fallbacks.set e.id h } (by simpa using hl)
      refine ⟨i1, ?_⟩
      rw [i2]
      unfold lastAdded
      by_cases hid : e.id = ev.id
      · rw [List.filter_cons_of_pos (by simp [hq, hid])]
        cases hf : (adds.filter (fun a => addable a.1 && decide (a.1.id = ev.id))) with
        | nil =>
          simp only [List.getLast?_nil, Option.map_none, List.getLast?_singleton, Option.map_some]
          unfold EventHandlers.get
          simp only []
          rw [List.getElem?_set, if_pos hid, if_pos (by omega)]
        | cons b bs =>
          rw [List.getLast?_cons_cons, List.getLast?_eq_some_getLast (by simp : b :: bs ≠ [])]
          rfl
      · rw [List.filter_cons_of_neg (by simp [hid])]
        split
        · rfl
        · unfold EventHandlers.get
          simp only []
          rw [List.getElem?_set_ne hid]
    · have hg : ∃ x, t.add e h = .error x := by
        unfold EventHandlers.add
        split
        · exact ⟨_, rfl⟩
        · rename_i hne
          rw [List.getElem?_eq_none (by
            rw [hl]
            simp only [addable, Bool.and_eq_true, decide_eq_true_eq, not_and] at hq
            exact Nat.le_of_not_lt (hq hne))]
          exact ⟨_, rfl⟩
      obtain ⟨x, hx⟩ := hg
      rw [hx]
      simp only []
      obtain ⟨i1, i2⟩ := ih t hl
      refine ⟨i1, ?_⟩
      rw [i2]
      unfold lastAdded
      rw [List.filter_cons_of_neg (by simp [hq])]

/-- C46: after any calls of `add`, an event is handled by the handler last installed under its id, or else by the
default one; other ids are unaffected. -/
theorem C46_history (std : Handler → H) (adds : List (Event × H)) (ev : Event) :
    ((EventHandlers.default std).addAll adds).get ev =
      match lastAdded adds ev.id with | some h => .ok h | none => (EventHandlers.default std).get ev :=
  (addAll_get _ (by simp [EventHandlers.default, MAX_EVENT_TYPES]) adds ev).2

/-- C46: `add` panics exactly for `INVALID_EVENT` and for ids from 32 on; otherwise it returns the handler that was
in place. -/
theorem C46_add (std : Handler → H) (adds : List (Event × H)) (ev : Event) (h : H) :
    (addable ev = true → ∃ t, ((EventHandlers.default std).addAll adds).add ev h =
      (((EventHandlers.default std).addAll adds).get ev).map (fun old => (old, t)) ∧
      ∃ old, ((EventHandlers.default std).addAll adds).get ev = .ok old) ∧
    (addable ev = false → ∃ e, ((EventHandlers.default std).addAll adds).add ev h = .error e) := by
  have hl := (addAll_get (EventHandlers.default std) (by simp [EventHandlers.default, MAX_EVENT_TYPES]) adds ev).1
  generalize (EventHandlers.default std).addAll adds = t at hl
  constructor
  · intro ha
    simp only [addable, Bool.and_eq_true, decide_eq_true_eq] at ha
    refine ⟨{ fallbacks := t.fallbacks.set ev.id h }, ?_, t.fallbacks[ev.id]'(by omega), ?_⟩
    · unfold EventHandlers.add EventHandlers.get
      rw [if_neg ha.1, List.getElem?_eq_getElem (by omega)]
      rfl
    · unfold EventHandlers.get
      rw [List.getElem?_eq_getElem (by omega)]
  · intro ha
    unfold EventHandlers.add
    split
    · exact ⟨_, rfl⟩
    · rename_i hne
      rw [List.getElem?_eq_none (by
        rw [hl]
        simp only [addable, Bool.and_eq_false_iff, decide_eq_false_iff_not] at ha
        rcases ha with ha | ha
        · exact absurd hne ha
        · exact Nat.le_of_not_lt ha)]
      exact ⟨_, rfl⟩

/-- C46: `INVALID_EVENT`'s handler is not protected: an event with id 0 that is called a removal replaces it. -/
theorem C46_invalid_replaceable (std : Handler → H) (h : H) :
    ((EventHandlers.default std).addAll [(⟨0, true, false⟩, h)]).get INVALID_EVENT = .ok h := rfl

section
variable {T : Type} [DecidableEq T] {S : T → Schema} [LS : ∀ t, LawfulSchema (S t)] {cfg : Cfg S}

/-- C46 and C61: with the default handlers, flushing with a custom removal event (any id that is not built in)
never returns once something is marked and the table has a foreign_auto dependant. -/
theorem C46_custom_removal_unusable {p : T} {fk : FK S} (hfk : IsFK cfg p fk) (hdef : cfg.handlers = (EventHandlers.default id).fallbacks)
    (ev : Event) (he : ∀ e ∈ EVENT_LIST, ev.id ≠ e.id) (n : Nat) (w : W (S p)) (env : Env S) (hw : w.changes.isEmpty = false) :
    ∀ env', flush cfg n p w ev env ≠ .ok env' := by
  by_cases h : ev.id < 32
  · refine C61_unhandled_event hfk ?_ n w env hw
    have := C46_default_custom (H := Handler) id ev he
    rw [if_pos h] at this
    unfold EventHandlers.get at this
    rw [hdef]
    cases e : (EventHandlers.default (H := Handler) id).fallbacks[ev.id]? with
    | none => rw [e] at this; cases this
    | some x => rw [e] at this; injection this with this; rw [this]; rfl
  · intro env' hf
    obtain ⟨e, r, h1⟩ := flush_ran hw hf
    obtain ⟨hd, sel, m, e1, e2, h2, h3⟩ := doFlush_ran h1 hfk
    have := C46_default_custom (H := Handler) id ev he
    rw [if_neg h] at this
    unfold EventHandlers.get at this
    unfold Cfg.handler at h2
    rw [hdef] at h2
    cases e : (EventHandlers.default (H := Handler) id).fallbacks[ev.id]? with
    | none => rw [e] at h2; cases h2
    | some x => rw [e] at this; cases this

end

/-- The defaults, as used in the demos: CREATE does nothing, DELETE deletes, UPDATE panics. -/
example : (EventHandlers.default (H := Handler) id).fallbacks.take 12 =
    [.panicking, .null, .delete, .panicking, .null, .panicking, .delete, .null, .delete, .null, .delete, .panicking] := by decide

/-- Two replacements of one id and a refused one. -/
example : ((EventHandlers.default (H := Handler) id).addAll [(mkEvent 11 0, .null), (INVALID_EVENT, .delete), (mkEvent 11 2, .delete)]).get (mkEvent 11 0) =
    .ok .delete := by decide

/-- A custom removal event. -/
example : ∀ e ∈ EVENT_LIST, (⟨20, true, false⟩ : Event).id ≠ e.id := by decide

end V11
