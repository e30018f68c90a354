import Verif.Lemmas.Libs
import Verif.Lemmas.RegistryMore
import Verif.Props.RegistryDemo

/-!
# C69: several dynamic libraries and `sync_globals`
-/

set_option linter.unusedSimpArgs false
set_option linter.unusedSectionVars false
set_option linter.unusedVariables false

namespace V11
variable {Ty : Type} [DecidableEq Ty] {V : Ty → Type} {P : Type} [DecidableEq P] {decl : P → PropDecl V}

/-- If every library first syncs with `main`'s globals, then every call, of whichever library, comes to exactly what it
comes to in a process of one library. -/
theorem C69_as_one (ops : List (DlOp decl)) (hp : Polite [] ops) :
    (Host.start : Host P V).outcomes decl ops = (World.empty : World P V).outcomes decl (callsOf ops) :=
  (AsOne.start.run ops hp).1

/-- And after it, whatever library `i` that has joined then reads or does, and all the universes, are what they would be
with one library. So everything said of one library (C39–C45, C62, C66–C68) holds. -/
theorem C69_values (ops : List (DlOp decl)) (hp : Polite [] ops) (i : Nat) (hi : i = 0 ∨ i ∈ joinedOf ops) :
    (∀ k q, (((Host.start : Host P V).run decl ops).view i |>.get decl k q).1 = ((World.after decl (callsOf ops)).get decl k q).1) ∧
      (∀ op, (((Host.start : Host P V).run decl ops).call decl i op).1 = ((World.after decl (callsOf ops)).step decl op).1) ∧
      ((Host.start : Host P V).run decl ops).unis = (World.after decl (callsOf ops)).unis := by
  have h := (AsOne.start.run ops hp).2
  have hi' : i = 0 ∨ i ∈ (joinedOf ops).reverse ++ [] := by simpa using hi
  refine ⟨?_, fun op => (h.call hi' op).1, h.unis⟩
  intro k q
  rcases h.view_eq hi' with hv | ⟨hw, hd, hv⟩
  · rw [hv]
  · rw [hv]
    generalize (Host.view (Host.run decl Host.start ops) i).g = g'
    change (World.get decl ({ World.after decl (callsOf ops) with g := g' } : World P V) k q).1 = _
    have hw' : (World.after decl (callsOf ops) : World P V).poisoned = true := hw
    generalize (World.after decl (callsOf ops) : World P V) = w at hw'
    have hal : w.syncAlias decl q = (.error .poisoned, w) := by simp [World.syncAlias, hw']
    have hal' : World.syncAlias decl ({ w with g := g' } : World P V) q = (.error .poisoned, { w with g := g' }) := by
      simp [World.syncAlias, hw']
    unfold World.get World.resolve
    simp only [hal, hal']
    cases w.unis[k]? with
    | none => rfl
    | some u =>
      simp only []
      cases w.idx q with
      | none => rfl
      | some j =>
        simp only []
        cases cellOf u j <;> rfl

/-- In such a process `sync_globals` returns, whenever and however often it is called, unless the shared registry is
poisoned. -/
theorem C69_joins (ops : List (DlOp decl)) (hp : Polite [] ops) (i : Nat) :
    (((Host.start : Host P V).run decl ops).sync i 0).1 = .ok () ↔ (World.after decl (callsOf ops) : World P V).poisoned = false :=
  ((AsOne.start.run ops hp).2.sync i).1

/-- Exactly when `sync_globals` returns, after any history: the library's globals and the ones handed to it are not poisoned,
and either they are the same or the library has no domain registered in the ones it gives up. -/
theorem C69_sync_iff (ops : List (DlOp decl)) (i h : Nat) :
    let p := (Host.start : Host P V).run decl ops
    (p.sync i h).1 = .ok () ↔ (p.view i).poisoned = false ∧ (p.regs h).poisoned = false ∧
      (p.cloneGlobals i = .ok h ∨ ∀ n, (p.view i).getId n = .error .noSuchDomain) := by
  intro p
  have hok : p.Ok := prun_ok start_ok ops
  have hemp : (p.regs (p.libs i).reg).g.isEmpty = true ↔ (p.regs (p.libs i).reg).g.domains = [] := by
    simp only [Globals.isEmpty, Bool.and_eq_true, List.isEmpty_iff, and_iff_left_iff_imp]
    intro hd
    exact prun_empty ops _ hd
  unfold Host.sync
  cases hd : (p.libs i).dead with
  | true => simp [Host.view, hd]
  | false =>
    cases hp : (p.regs (p.libs i).reg).poisoned with
    | true => simp [Host.view, hd, hp]
    | false =>
      cases hh : (p.regs h).poisoned with
      | true => simp
      | false =>
        by_cases e : (p.libs i).reg = h
        · simp [Host.view, hd, hp, e, Host.cloneGlobals, hh]
        · have hv : (p.view i).poisoned = false := by simp [Host.view, hd, hp]
          have hg : (∀ n, (p.view i).getId n = .error .noSuchDomain) ↔ (p.regs (p.libs i).reg).g.domains = [] := by
            unfold World.getId
            simp only [hv, Bool.false_eq_true, if_false]
            constructor
            · intro ha
              by_contra hne
              obtain ⟨x, l, hx⟩ := List.exists_cons_of_ne_nil hne
              have := ha x.1
              have hl : (x :: l).lookup x.1 = some x.2 := by rw [List.lookup_cons, beq_self_eq_true]
              simp only [Host.view, hx, hl] at this
              cases this
            · intro ha n
              simp only [Host.view, ha, List.lookup_nil]
          rw [hg, ← hemp, hv]
          cases he : (p.regs (p.libs i).reg).g.isEmpty <;> simp [e, Host.cloneGlobals, hd]

/-- A call of `sync_globals` that panics leaves the universes, all registries and all other libraries as they were; but its
own library can never again register anything, make a universe, or find a domain. -/
theorem C69_failed (p : Host P V) (i h : Nat) (hf : (p.sync i h).1 ≠ .ok ()) :
    (p.sync i h).2.unis = p.unis ∧ (p.sync i h).2.regs = p.regs ∧ (∀ j, j ≠ i → (p.sync i h).2.view j = p.view j) ∧
      ((p.sync i h).2.view i).poisoned = true := by
  have hk : (p.killed i).unis = p.unis ∧ (p.killed i).regs = p.regs ∧ (∀ j, j ≠ i → (p.killed i).view j = p.view j) ∧
      ((p.killed i).view i).poisoned = true := by
    refine ⟨rfl, rfl, ?_, ?_⟩
    · intro j hj; rw [view_killed, if_neg hj]
    · rw [view_killed, if_pos rfl]
  unfold Host.sync at hf ⊢
  split
  · rename_i hd
    exact ⟨rfl, rfl, fun _ _ => rfl, by simp [Host.view, hd]⟩
  · rename_i hd
    rw [if_neg hd] at hf
    split
    · exact hk
    · rename_i hp1
      rw [if_neg hp1] at hf
      split
      · exact hk
      · rename_i hp2
        rw [if_neg hp2] at hf
        split
        · rename_i he; rw [if_pos he] at hf; exact absurd rfl hf
        · rename_i he
          rw [if_neg he] at hf
          split
          · exact hk
          · rename_i hq; rw [if_neg hq] at hf; exact absurd rfl hf

/-- `clone_globals` hands out the globals that the library works with: a library that has just been given them works with
the very same ones. In a library cut off by a failed `sync_globals` it panics. -/
theorem C69_clone (p : Host P V) (i h : Nat) :
    ((p.sync i h).1 = .ok () → (p.sync i h).2.cloneGlobals i = .ok h) ∧
    ((p.sync i h).1 ≠ .ok () → (p.sync i h).2.cloneGlobals i = .error .poisoned) ∧
    (∀ j, j ≠ i → (p.sync i h).2.cloneGlobals j = p.cloneGlobals j) ∧
    (∀ k, p.cloneGlobals i = .ok k → (p.regs k).poisoned = (p.view i).poisoned ∧ (p.regs k).g = (p.view i).g) := by
  have hother : ∀ j, j ≠ i → (p.sync i h).2.libs j = p.libs j := by
    intro j hj
    unfold Host.sync
    repeat' split
    all_goals first | rfl | exact Function.update_of_ne hj _ _
  refine ⟨?_, ?_, ?_, ?_⟩
  · unfold Host.sync Host.cloneGlobals
    repeat' split
    all_goals simp_all
  · unfold Host.sync Host.cloneGlobals
    repeat' split
    all_goals simp_all [Host.killed]
  · intro j hj
    unfold Host.cloneGlobals
    rw [hother j hj]
  · intro k hk
    unfold Host.cloneGlobals at hk
    split at hk
    · cases hk
    · rename_i hd
      cases hk
      simp only [Host.view, Bool.not_eq_true] at hd ⊢
      simp [hd]

/-- Such a library stays cut off whatever happens afterwards. -/
theorem C69_cut_off (ops ops' : List (DlOp decl)) (i : Nat) (hd : (((Host.start : Host P V).run decl ops).view i).poisoned = true) :
    let p := (Host.start : Host P V).run decl (ops ++ ops')
    (∀ n, (p.call decl i (.registerDomain n)).1 ≠ .ok ()) ∧ (∀ q, (p.call decl i (.registerProp q)).1 ≠ .ok ()) ∧
      (∀ t, (p.call decl i (.registerTable t)).1 ≠ .ok ()) ∧ (∀ ns, (p.call decl i (.newUniverse ns)).1 ≠ .ok ()) ∧
      (∀ k n, (p.call decl i (.addDomain k n)).1 ≠ .ok ()) ∧ (∀ h, (p.sync i h).1 ≠ .ok ()) := by
  intro p
  have hp : (p.view i).poisoned = true := by
    have := (prun_view (prun_ok start_ok ops) ops' i).2 hd
    rw [← prun_append] at this
    exact this
  refine ⟨?_, ?_, ?_, ?_, ?_, ?_⟩
  · intro n
    simp only [Host.call, World.step, World.registerDomain, hp]
    cases checkName n.toList <;> simp
  · intro q
    simp [Host.call, World.step, World.registerProp, hp]
  · intro t
    simp only [Host.call, World.step, World.registerTable, hp]
    cases t.build <;> simp
  · intro ns
    simp [Host.call, World.step, World.newUniverse, hp, Except.map]
  · intro k n
    simp only [Host.call, World.step, World.addDomain, World.synced, hp]
    cases (p.view i).unis[k]? <;> simp
  · intro h hs
    have := (C69_sync_iff (ops ++ ops') i h).1 hs
    rw [show (Host.start : Host P V).run decl (ops ++ ops') = p from rfl, hp] at this
    cases this.1

/-- Nothing a library has registered is ever lost to it, by `sync_globals` or otherwise: a domain keeps its id, and a
property its place, until the registry is poisoned. -/
theorem C69_keeps (ops ops' : List (DlOp decl)) (i : Nat) :
    let p := (Host.start : Host P V).run decl ops
    let p' := (Host.start : Host P V).run decl (ops ++ ops')
    (∀ n d, (p.view i).getId n = .ok d → (p'.view i).getId n = .ok d ∨ (p'.view i).poisoned = true) ∧
      (∀ q x, ((p.view i).syncAlias decl q).1 = .ok x → ((p'.view i).syncAlias decl q).1 = .ok x ∨ (p'.view i).poisoned = true) := by
  intro p p'
  have hx : Ext (p.view i).g (p'.view i).g := by
    have := (prun_view (prun_ok start_ok ops) ops' i).1
    rw [← prun_append] at this
    exact this
  constructor
  · intro n d hn
    cases hp : (p'.view i).poisoned with
    | true => exact Or.inr rfl
    | false =>
      obtain ⟨-, info, hl, hid⟩ := getId_ok hn
      obtain ⟨info', a1, a2, -⟩ := hx.dom _ _ hl
      left
      unfold World.getId
      simp only [hp, Bool.false_eq_true, if_false, a1, a2, hid]
  · intro q x hq
    cases hp : (p'.view i).poisoned with
    | true => exact Or.inr rfl
    | false =>
      left
      unfold World.syncAlias World.die at hq ⊢
      simp only [hp, Bool.false_eq_true, if_false]
      split at hq
      · cases hq
      · split at hq
        · cases hq
        · rename_i info hl
          obtain ⟨info', a1, a2, a3, -⟩ := hx.dom _ _ hl
          split at hq
          · cases hq
          · rename_i gid hg
            split at hq
            · cases hq
            · rename_i did hdid
              rw [a1]
              simp only []
              rw [hx.gid _ _ hg]
              simp only []
              rw [a3 _ _ hdid, a2]
              exact hq

/-- Libraries that have not synced share nothing: a call of one does not show in the registry of the other. -/
theorem C69_apart (p : Host P V) (i j : Nat) (op : ROp decl) (hne : (p.libs j).reg ≠ (p.libs i).reg) :
    ((p.call decl i op).2.view j).g = (p.view j).g ∧ ((p.call decl i op).2.view j).poisoned = (p.view j).poisoned := by
  simp only [Host.call, Host.view]
  split
  · exact ⟨rfl, rfl⟩
  · simp only [Function.update_of_ne hne]
    exact ⟨trivial, trivial⟩

/-- A library that never calls `sync_globals`, and whose globals nobody takes over, is on its own: after any such history
nothing another library does changes what it has registered, and what it does changes nothing for the others. -/
theorem C69_unsynced (ops : List (DlOp decl)) (j : Nat) (hj : ∀ i h, DlOp.sync i h ∈ ops → i ≠ j ∧ h ≠ j) (i : Nat) (hi : i ≠ j)
    (op : ROp decl) :
    let p := (Host.start : Host P V).run decl ops
    (((p.call decl i op).2.view j).g = (p.view j).g ∧ ((p.call decl i op).2.view j).poisoned = (p.view j).poisoned) ∧
    (((p.call decl j op).2.view i).g = (p.view i).g ∧ ((p.call decl j op).2.view i).poisoned = (p.view i).poisoned) := by
  intro p
  have key : ∀ (ops : List (DlOp decl)) (q : Host P V), (∀ i h, DlOp.sync i h ∈ ops → i ≠ j ∧ h ≠ j) →
      (q.libs j).reg = j → (∀ i, i ≠ j → (q.libs i).reg ≠ j) →
      ((q.run decl ops).libs j).reg = j ∧ ∀ i, i ≠ j → ((q.run decl ops).libs i).reg ≠ j := by
    intro ops
    induction ops with
    | nil => intro q _ h1 h2; exact ⟨h1, h2⟩
    | cons x xs ih =>
      intro q hx h1 h2
      refine ih _ (fun i h hm => hx i h (by simp [hm])) ?_ ?_
      · cases x with
        | call i op => exact h1
        | sync a h =>
          have ha := (hx a h (by simp)).1
          show ((q.sync a h).2.libs j).reg = j
          unfold Host.sync Host.killed
          repeat' split
          all_goals first | exact h1 | (simp only [Function.update_of_ne (Ne.symm ha)]; exact h1)
      · intro i hi
        cases x with
        | call i op => exact h2 _ hi
        | sync a h =>
          have ha := hx a h (by simp)
          show ((q.sync a h).2.libs i).reg ≠ j
          unfold Host.sync Host.killed
          repeat' split
          all_goals first
            | exact h2 _ hi
            | (by_cases e : i = a
               · subst e
                 simp only [Function.update_self]
                 first | exact h2 _ hi | exact ha.2
               · simp only [Function.update_of_ne e]; exact h2 _ hi)
  obtain ⟨k1, k2⟩ := key ops Host.start hj rfl (fun i hi => hi)
  have hne : (p.libs j).reg ≠ (p.libs i).reg := by
    rw [k1]; exact fun e => k2 i hi e.symm
  exact ⟨C69_apart p i j op hne, C69_apart p j i op (Ne.symm hne)⟩

end V11

namespace V11.RegDemo

/-- `main` registers, a library joins, both register more, the library makes a universe and `main` uses it. -/
def twoLibs : List (DlOp decl) :=
  [.call 0 (.registerDomain "game"), .sync 1 0, .call 1 (.registerDomain "ui"), .call 1 (.registerProp 0), .call 0 (.registerProp 2), .sync 1 0,
   .call 1 (.newUniverse ["game", "ui"]), .call 0 (.set 0 2 (5 : Nat))]

/-- C69: it is polite; everything returns; the library reads what `main` wrote; and it could not sync after registering on
its own. -/
example : Polite [] twoLibs ∧ (Host.start.outcomes decl twoLibs).all (·.isOk) = true ∧
    (((Host.start.run decl twoLibs).view 1).get decl 0 2).1.toOption = some (5 : Nat) ∧
    ((Host.start.run decl twoLibs).sync 2 0).1 = .ok () ∧
    ((Host.start.run decl (twoLibs ++ [.call 2 (.registerDomain "mod")])).sync 2 0).1 = .error .globalsSet ∧
    ((Host.start.run decl (twoLibs ++ [.call 2 (.registerDomain "mod")])).sync 2 0).2.cloneGlobals 2 = .error .poisoned ∧
    ((Host.start.run decl (twoLibs ++ [.call 2 (.registerDomain "mod")])).sync 2 0).2.cloneGlobals 1 = .ok 0 := by
  refine ⟨?_, by decide, rfl, rfl, rfl, rfl, rfl⟩
  simp [twoLibs, Polite]

example : ∀ i h, DlOp.sync i h ∈ twoLibs → i ≠ 2 ∧ h ≠ 2 := by
  intro i h hm
  simp only [twoLibs, List.mem_cons, List.not_mem_nil, or_false, DlOp.sync.injEq, reduceCtorEq, false_or] at hm
  rcases hm with ⟨rfl, rfl⟩ | ⟨rfl, rfl⟩ <;> decide

/-- Why libraries must sync: library `1` has not, so it gives its own domain and property the same numbers as `main`'s, and
writing its property `game/lives` overwrites `main`'s `game/score` in `main`'s universe. -/
example : (((Host.start.run decl [.call 0 (.registerDomain "game"), .call 0 (.registerProp 0), .call 0 (.newUniverse ["game"]),
      .call 1 (.registerDomain "game"), .call 1 (.registerProp 2), .call 1 (.set 0 2 (99 : Nat))]).view 0).get decl 0 0).1.toOption = some (99 : Nat) ∧
    ¬ Polite [] ([.call 1 (.registerDomain "game")] : List (DlOp decl)) := by
  refine ⟨rfl, ?_⟩
  simp [Polite]

end V11.RegDemo
