import Verif.Props.RegistryUse

/-!
# The registry at work

Concrete histories that meet the hypotheses of C39–C45 and C62, and the defects those theorems describe.
-/

set_option linter.unusedVariables false

namespace V11.RegDemo

/-- Two types of property values. -/
def Val : Bool → Type
  | false => Nat
  | true => Bool

/-- The values are comparable. -/
instance : (t : Bool) → DecidableEq (Val t)
  | false => inferInstanceAs (DecidableEq Nat)
  | true => inferInstanceAs (DecidableEq Bool)

/-- `0` and `1` are twins with different initial values, `2` is another property of the same domain, `3` has
their name but another type, `4` is in another domain and `5` has a malformed name. -/
def decl : Fin 6 → PropDecl Val
  | 0 => { domain := "game", name := "game/score", ty := false, init := (7 : Nat) }
  | 1 => { domain := "game", name := "game/score", ty := false, init := (8 : Nat) }
  | 2 => { domain := "game", name := "game/lives", ty := false, init := (3 : Nat) }
  | 3 => { domain := "game", name := "game/score", ty := true, init := true }
  | 4 => { domain := "ui", name := "ui/dark", ty := true, init := false }
  | 5 => { domain := "game", name := "gameover", ty := false, init := (0 : Nat) }

/-- A parent table. -/
def ships : GTable :=
  { domain := "game", name := "ships", columns := [⟨"name", "String", 0⟩], colTys := [10], kind := .consistent,
    ty := 0, init := [] }

/-- A child of it, which declares one tracker on it. -/
def crew : GTable :=
  { domain := "game", name := "crew", columns := [⟨"ship", "ships::RowId", 0⟩, ⟨"age", "u8", 0⟩], colTys := [11, 12], kind := .consistent,
    ty := 1, init := [⟨"game", "ships", true, 0, 1⟩] }

/-- A table of another domain that tracks `ships`. -/
def labels : GTable :=
  { domain := "ui", name := "labels", columns := [⟨"ship", "ships::RowId", 0⟩], colTys := [11], kind := .sorted, ty := 2,
    init := [⟨"game", "ships", true, 0, 2⟩] }

/-- Registration as a program does it at start. -/
def start : List (ROp decl) :=
  [.registerDomain "game", .registerDomain "ui", .registerDomain "game", .registerProp 0, .registerProp 1, .registerProp 2,
   .registerProp 3, .registerProp 4, .registerTable ships, .registerTable crew, .registerTable labels]

/-- C39: three registrations of two names. -/
example : domainsOf (World.history decl start) = ["game", "ui"] ∧ (World.after decl start).getId "ui" = .ok 1 ∧
    (World.after decl start).poisoned = false := by decide

/-- C40, C41: the twins share the value of the first registrant; the third property has its own. -/
example : ((World.after decl (start ++ [.newUniverse ["game"]])).get decl 0 1).1.toOption = some (7 : Nat) ∧
    ((World.after decl (start ++ [.newUniverse ["game"], .set 0 0 (42 : Nat)])).get decl 0 1).1.toOption = some (42 : Nat) ∧
    ((World.after decl (start ++ [.newUniverse ["game"], .set 0 0 (42 : Nat)])).get decl 0 2).1.toOption = some (3 : Nat) := ⟨rfl, rfl, rfl⟩

/-- C41: another universe is another register. -/
example : ((World.after decl (start ++ [.newUniverse ["game"], .newUniverse ["ui", "game"], .set 0 0 (42 : Nat)])).get decl 1 1).1.toOption =
    some (7 : Nat) := rfl

/-- C41: the twin of another type panics. -/
example : ((World.after decl (start ++ [.newUniverse ["game"]])).get decl 0 3).1.isOk = false := by decide

/-- C41_readable, C40_set: the hypotheses are met. -/
example : (World.after decl (start ++ [.newUniverse ["game"]])).hasDomain 0 (decl 1).domain ∧
    IsPropName (decl 1).domain.toList (decl 1).name.toList ∧
    firstInit (World.history decl (start ++ [.newUniverse ["game"]])) (decl 1).name = some ⟨false, (7 : Nat)⟩ := by
  refine ⟨⟨_, _, rfl, List.mem_cons_self, rfl⟩, (C43_property _ _).1 (by decide), by decide⟩

/-- C42: registering on a domain in use panics and kills the registry (C62). -/
example : ((World.after decl (start ++ [.newUniverse ["game"], .registerProp 5])).poisoned = true) ∧
    ((World.after decl (start ++ [.newUniverse ["game"]])).idx 5 = none) ∧
    ((World.after decl (start ++ [.newUniverse ["game"], .registerTable ships])).poisoned = true) := by decide

/-- C42: a universe lacking the domain. -/
example : ((World.after decl (start ++ [.newUniverse ["game"]])).get decl 0 4).1.isOk = false ∧
    ((World.after decl (start ++ [.newUniverse ["game"]])).get decl 0 4).2.poisoned = false := by decide

/-- C42, C62: accessing a property nobody registered kills the registry. -/
example : ((World.after decl [.registerDomain "game", .newUniverse ["game"]]).get decl 0 0).2.poisoned = true := by decide

/-- C43 -/
example : checkName "a_1".toList = .ok () ∧ checkName "_a".toList = .error .badName ∧ checkName "".toList = .error .badName ∧
    checkName "1a".toList = .error .badName ∧ checkName "a-b".toList = .error .badName := by decide

/-- C43: a property's name may have one slash only. -/
example : checkPropName "d".toList "d/x".toList = .ok () ∧ (checkPropName "d".toList "d/x/y".toList).isOk = false ∧
    (checkPropName "d".toList "e/x".toList).isOk = false ∧ (checkPropName "d".toList "dx".toList).isOk = false := by decide

/-- C44: the same columns with another kind and without the tracker pass as the same table, and the first stays;
other columns panic. -/
example : ((World.after decl start).registerTable { crew with kind := .sorted, ty := 9, init := [] }).1 = .ok () ∧
    tablesOf (World.history decl (start ++ [.registerTable { crew with kind := .sorted, ty := 9, init := [] }])) "game" = [ships, crew] ∧
    ((World.after decl start).registerTable { crew with columns := [⟨"ship", "ships::RowId", 1⟩, ⟨"age", "u8", 0⟩] }).1 = .error .tableMismatch ∧
    ((World.after decl start).registerTable { ships with name := "x", columns := [⟨"a", "u8", 0⟩, ⟨"a", "u8", 0⟩] }).1 = .error .dupColumn := by decide

/-- C44_register: nothing in the history asks for a universe. -/
example : ∀ op ∈ start, ¬ Mentions "game" op := by
  intro op h
  simp only [start, List.mem_cons, List.not_mem_nil, or_false] at h
  rcases h with h | h | h | h | h | h | h | h | h | h | h <;> subst h <;> exact id

/-- The trackers of a table of a universe. -/
def trackersOf (w : World (Fin 6) Val) (k did : Nat) (t : String) : Option (List Nat) :=
  match w.unis[k]? with
  | some u => (findTable u did t).toOption.map (·.trackers)
  | none => none

/-- C45: one tracker from `game`, one more from `ui`; listing a domain twice doubles its own. -/
example : trackersOf (World.after decl (start ++ [.newUniverse ["game"]])) 0 0 "ships" = some [1] ∧
    trackersOf (World.after decl (start ++ [.newUniverse ["ui", "game"]])) 0 0 "ships" = some [2, 1] ∧
    trackersOf (World.after decl (start ++ [.newUniverse ["game"], .addDomain 0 "ui", .addDomain 0 "ui"])) 0 0 "ships" = some [1, 2] ∧
    trackersOf (World.after decl (start ++ [.newUniverse ["game", "game"]])) 0 0 "ships" = some [1, 1] := by decide

/-- C45: adding `ui` to a universe without `game` panics; doing it again returns; and adding `game` afterwards
does not bring the missing tracker. -/
example : ((World.after decl (start ++ [.newUniverse []])).addDomain 0 "ui").1.isOk = false ∧
    ((World.after decl (start ++ [.newUniverse [], .addDomain 0 "ui"])).addDomain 0 "ui").1 = .ok () ∧
    trackersOf (World.after decl (start ++ [.newUniverse [], .addDomain 0 "ui", .addDomain 0 "game"])) 0 0 "ships" = some [1] := by decide

/-- C62: one malformed property and the registry is dead: no universe can be made any more. But properties that
were registered, in universes that exist, still work. -/
example : (World.after decl (start ++ [.registerProp 5])).poisoned = true ∧
    ((World.after decl (start ++ [.registerProp 5])).newUniverse ["game"]).1.isOk = false ∧
    ((World.after decl (start ++ [.newUniverse ["game"], .registerProp 5, .set 0 2 (1 : Nat)])).get decl 0 2).1.toOption = some (1 : Nat) := ⟨rfl, rfl, rfl⟩

end V11.RegDemo
