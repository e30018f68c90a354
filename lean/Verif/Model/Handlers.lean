import Verif.Model.Universe

/-!
# The list of events and the table of fallback handlers
-/

namespace V11

/-- `events!` (src/event.rs:43-69): the constants, with the masks `Z`, `C`, `D` of lines 16-18 and the
bit tests of lines 25-26. -/
def mkEvent (id mode : Nat) : Event := { id := id, isRemoval := mode &&& 2 > 0, isCreation := mode &&& 1 > 0 }

/-- `INVALID_EVENT` (src/event.rs:44). -/
def INVALID_EVENT : Event := mkEvent 0 0

/-- `EVENT_LIST` (src/event.rs:40, 43-69): INVALID_EVENT, CREATE, DELETE, SERIALIZE, DESERIALIZE, SAVE,
UNLOAD, SYNCED, UNSYNCED, MOVE_IN, MOVE_OUT, UPDATE, MODIFY, DIRTY, RESET, VIEW, DEBUG, CLONE. -/
def EVENT_LIST : List Event :=
  [mkEvent 0 0, mkEvent 1 1, mkEvent 2 2, mkEvent 3 0, mkEvent 4 1, mkEvent 5 0, mkEvent 6 2, mkEvent 7 1, mkEvent 8 2,
   mkEvent 9 1, mkEvent 10 2, mkEvent 11 0, mkEvent 12 0, mkEvent 13 0, mkEvent 14 0, mkEvent 15 0, mkEvent 16 0, mkEvent 17 0]

/-- The names of the constants, in the same order. -/
def EVENT_NAMES : List String :=
  ["INVALID_EVENT", "CREATE", "DELETE", "SERIALIZE", "DESERIALIZE", "SAVE", "UNLOAD", "SYNCED", "UNSYNCED", "MOVE_IN", "MOVE_OUT",
   "UPDATE", "MODIFY", "DIRTY", "RESET", "VIEW", "DEBUG", "CLONE"]

/-- `Debug for Event` (src/event.rs:30-38): the name of the built-in with this id. -/
def Event.debug (e : Event) : String := (EVENT_NAMES[e.id]?).getD s!"CUSTOM_{e.id}"

/-- `MAX_EVENT_TYPES` (src/event.rs:156). -/
def MAX_EVENT_TYPES : Nat := 32

/-- The choice in `EventHandlers::default` (src/event.rs:166-173). -/
def defaultHandler (i : Nat) : Handler :=
  let e := (EVENT_LIST[i]?).getD INVALID_EVENT
  if e.isRemoval then .delete else if e.isCreation then .null else .panicking

/-- `EventHandlers` (src/event.rs:157-159) over any type of handlers. -/
structure EventHandlers (H : Type) where
  fallbacks : List H

namespace EventHandlers
variable {H : Type}

/-- `EventHandlers::default` (src/event.rs:160-178); `std` boxes a provided handler. -/
def default (std : Handler → H) : EventHandlers H := { fallbacks := (List.range MAX_EVENT_TYPES).map (fun i => std (defaultHandler i)) }

/-- `EventHandlers::add` (src/event.rs:180-189): returns the handler it replaces. The index is checked before
the swap. -/
def add (t : EventHandlers H) (ev : Event) (h : H) : R (H × EventHandlers H) :=
  if ev = INVALID_EVENT then .error .setInvalidEvent
  else match t.fallbacks[ev.id]? with
    | none => .error .vecOob
    | some old => .ok (old, { fallbacks := t.fallbacks.set ev.id h })

/-- `EventHandlers::get` (src/event.rs:192-194). -/
def get (t : EventHandlers H) (ev : Event) : R H :=
  match t.fallbacks[ev.id]? with
  | some h => .ok h
  | none => .error .vecOob

/-- Calls of `add` one after another; a panic is caught and leaves the table as it was. -/
def addAll (t : EventHandlers H) : List (Event × H) → EventHandlers H
  | [] => t
  | (ev, h) :: rest =>
    match t.add ev h with
    | .ok (_, t) => t.addAll rest
    | .error _ => t.addAll rest

end EventHandlers
end V11
