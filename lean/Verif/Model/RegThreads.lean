import Verif.Model.Registry

/-!
# Calls of several threads on the registry and on universes

The registry's lock is taken and given back several times by one call: `Universe::new` has one section that makes the
domains and one for each `get_id` of its init functions; `add_domain` has three and those; using a table has one and then
uses the universe; using a property has none, or one if the static `Prop` of its `property!` is not set yet. Other
threads' sections come in between. Every step here is one section, or one access to a universe under one of its locks.

The static `Prop` is a `static mut` which is written under the registry's lock, field after field, and read without
(src/property.rs:209-222): while it is being written a reader can find it unset, set, or the domain set and the place in the
domain not (`Seen`). Memory is taken to be sequentially consistent apart from that. Guards that are kept over several
calls are not here but in `Threads`; initial values are values, so they do not use the registry themselves.

A universe can be shared by threads, and `add_domain` and `add_properties` need it alone (`&mut self`).
-/

namespace V11
variable {Ty : Type} {V : Ty → Type} {P : Type} [DecidableEq P]

/-- The domain instance at a place of a universe's list (src/domain.rs:211-217). -/
def domAt (u : List (MaybeDomain V)) (j : Nat) : Option (Instance V) :=
  match u[j]? with
  | some (.domain d) => some d
  | _ => none

/-- `register_tracker` after `get_id` (src/tracking.rs:315-321, 332-339). -/
def registerAt (u : List (MaybeDomain V)) (did : Nat) (r : Reg) : Option Panic × List (MaybeDomain V) :=
  match findTable u did r.table with
  | .error p => (some p, u)
  | .ok t =>
    if t.poisoned then (some .poisoned, u)
    else if t.gt.ty ≠ r.ty then (some .badDowncast, modTable u did r.table TableInst.poison)
    else if r.consistent then (none, modTable u did r.table (fun t => { t with trackers := t.trackers ++ [r.tracker] }))
    else (some .trackerOnInconsistent, modTable u did r.table TableInst.poison)

/-- `openTable` after `get_id` (macros/output.rs:1615-1645, 1649-1662, 1666-1689, 1692-1705). -/
def openAt (u : List (MaybeDomain V)) (did : Nat) (m : GTable) (write tolerant : Bool) : R Unit × List (MaybeDomain V) :=
  match findTable u did m.name with
  | .error p => (.error p, u)
  | .ok t =>
    match t.gt.convert m with
    | .error p => (.error p, if write then modTable u did m.name TableInst.poison else u)
    | .ok _ => if t.poisoned && !tolerant then (.error .poisoned, u) else (.ok (), u)

/-- `panicWriting` after `get_id`. -/
def panicAt (u : List (MaybeDomain V)) (did : Nat) (m : GTable) (tolerant : Bool) : R Unit × List (MaybeDomain V) :=
  match openAt u did m true tolerant with
  | (.error p, u) => (.error p, u)
  | (.ok _, u) => (.error .userPanic, modTable u did m.name TableInst.poison)

/-- What a call returns: nothing, a property's value or the number of a universe. -/
inductive Given (V : Ty → Type) where
  | unit
  | value (v : Σ t, V t)
  | number (k : Nat)

/-- What a reader makes of a static `Prop` that is being written (src/property.rs:213, 353-417): all of it, nothing of
it, or the domain but not the place in the domain. -/
inductive Seen where
  | whole
  | unset
  | torn
deriving DecidableEq, Repr

/-- Where a thread is in its call. -/
inductive RtPhase (V : Ty → Type) where
  /-- Not in a call. -/
  | idle
  /-- Nothing has been done. -/
  | begun
  /-- The static `Prop` was found unset (src/property.rs:213-215). -/
  | syncing
  /-- The static `Prop` was found set (src/property.rs:216). -/
  | resolved
  /-- `add_domain`: the list is up to date (src/domain.rs:244). -/
  | synced
  /-- `get_id` returned. -/
  | located (did : Nat)
  /-- The domains are made, and these domains and trackers are still to be initialised. Nobody else can use the
  universe, so here it is the thread's own. -/
  | building (u : List (MaybeDomain V)) (todo : List (String ⊕ Reg))
  /-- The call has had its effect and will return or panic. -/
  | done (out : R (Given V))

section
variable [DecidableEq Ty]

/-- What a call gives back. -/
def World.given (decl : P → PropDecl V) (w : World P V) : ROp decl → R (Given V)
  | .newUniverse ns => (w.newUniverse ns).1.map .number
  | .get k p => (w.get decl k p).1.map (fun v => .value ⟨_, v⟩)
  | .swap k p v => (w.swap decl k p v).1.map (fun v => .value ⟨_, v⟩)
  | op => (w.step decl op).1.map (fun _ => .unit)

/-- The universe a call is on. -/
def ROp.on {decl : P → PropDecl V} : ROp decl → Option Nat
  | .addDomain k _ => some k
  | .addProperties k => some k
  | .get k _ => some k
  | .set k _ _ => some k
  | .swap k _ _ => some k
  | .openTable k _ _ _ => some k
  | .panicWriting k _ _ => some k
  | .registerTracker k _ => some k
  | _ => none

/-- The call borrows its universe mutably (src/domain.rs:243, 278). -/
def ROp.alone {decl : P → PropDecl V} : ROp decl → Bool
  | .addDomain _ _ => true
  | .addProperties _ => true
  | _ => false

/-- What threads do, in order. -/
inductive RtEv (ι : Type) (decl : P → PropDecl V) where
  /-- The call began. -/
  | began (i : ι) (op : ROp decl)
  /-- The call had its effect. -/
  | effect (i : ι) (op : ROp decl)
  /-- A call on property `p` in universe `k` set the static `Prop` on its way (src/property.rs:314-330). -/
  | bound (i : ι) (k : Nat) (p : P)
  /-- The call met another thread's unfinished work, and panics without an effect. -/
  | lapse (i : ι) (op : ROp decl)
  /-- The call returned, or panicked. -/
  | returned (i : ι) (op : ROp decl) (out : R (Given V))

/-- A thread: the calls it still makes, the first of which it is in unless it is idle. -/
structure RtThread (decl : P → PropDecl V) where
  todo : List (ROp decl)
  phase : RtPhase V

/-- The process: what is in memory, who is writing which static `Prop` (and so has the registry locked), the threads, and
what has happened. -/
structure RtSys (ι : Type) (decl : P → PropDecl V) where
  w : World P V
  storing : Option (ι × P)
  th : ι → RtThread decl
  log : List (RtEv ι decl)

variable {ι : Type} [DecidableEq ι] {decl : P → PropDecl V}

/-- Threads start after the calls that made `w`. -/
def RtSys.start (w : World P V) (progs : ι → List (ROp decl)) : RtSys ι decl :=
  { w := w, storing := none, th := fun i => { todo := progs i, phase := .idle }, log := [] }

/-- Thread `i` is now there in its call. -/
def RtSys.goto (s : RtSys ι decl) (i : ι) (ph : RtPhase V) : RtSys ι decl :=
  { s with th := Function.update s.th i { s.th i with phase := ph } }

/-- Something has happened. -/
def RtSys.note (s : RtSys ι decl) (e : RtEv ι decl) : RtSys ι decl := { s with log := s.log ++ [e] }

/-- The call of thread `i` has its effect. -/
def RtSys.settle (s : RtSys ι decl) (i : ι) (op : ROp decl) (out : R (Given V)) (w : World P V) : RtSys ι decl :=
  (({ s with w := w }).note (.effect i op)).goto i (.done out)

/-- The call has its effect in one step. -/
def RtSys.whole (s : RtSys ι decl) (i : ι) (op : ROp decl) : RtSys ι decl := s.settle i op (s.w.given decl op) (s.w.step decl op).2

/-- `get`, `set`, `swap` (src/property.rs:209-222, 314-330, 353-417). -/
def RtSys.useProp (s : RtSys ι decl) (i : ι) (see : Seen) (op : ROp decl) (k : Nat) (p : P) : RtPhase V → Option (RtSys ι decl)
  | .begun =>
    match s.w.idx p with
    | none => some (s.goto i .syncing)
    | some ix =>
      if s.storing.any (fun x => decide (x.2 = p)) then
        match see with
        | .whole => some (s.goto i .resolved)
        | .unset => some (s.goto i .syncing)
        | .torn =>
          match (s.w.unis[k]?).bind (fun u => domAt u ix.domain) with
          | some _ => some ((s.note (.lapse i op)).goto i (.done (.error .lateProp)))
          | none => some (s.goto i .resolved)
      else some (s.goto i .resolved)
  | .syncing =>
    if s.storing.isSome then none
    else match s.w.syncAlias decl p with
      | (.ok _, w) => some ((({ s with w := w, storing := if (s.w.idx p).isSome then none else some (i, p) }).note (.bound i k p)).goto i .resolved)
      | (.error e, w) => some (s.settle i op (.error e) w)
  | .resolved => some (s.whole i op)
  | _ => none

/-- The registration of a property (src/property.rs:266-313), which writes the static `Prop` if it was unset. -/
def RtSys.useReg (s : RtSys ι decl) (i : ι) (p : P) : Option (RtSys ι decl) :=
  if s.storing.isSome then none
  else
    let s' := s.whole i (.registerProp p)
    some { s' with storing := if (s.w.idx p).isNone && (s'.w.idx p).isSome then some (i, p) else none }

/-- `openTable`, `panicWriting` and `registerTracker`: `get_id` of the domain, and then the table (src/tables.rs:18-23). -/
def RtSys.useTable (s : RtSys ι decl) (i : ι) (op : ROp decl) (k : Nat) (domain : String)
    (call : List (MaybeDomain V) → Nat → R Unit × List (MaybeDomain V)) : RtPhase V → Option (RtSys ι decl)
  | .begun =>
    if s.storing.isSome then none
    else match s.w.getId domain with
      | .error e => some (s.settle i op (.error e) s.w)
      | .ok did => some (s.goto i (.located did))
  | .located did =>
    match s.w.unis[k]? with
    | none => none
    | some u => some (s.settle i op ((call u did).1.map (fun _ => .unit)) { s.w with unis := s.w.unis.set k (call u did).2 })
  | _ => none

/-- One step of the initialisation of a new domain (src/domain.rs:252-265, src/tracking.rs:332-339): `some` is a panic. -/
def World.buildOne (w : World P V) (u : List (MaybeDomain V)) (todo : List (String ⊕ Reg)) :
    String ⊕ Reg → Option Panic × List (MaybeDomain V) × List (String ⊕ Reg)
  | .inl n =>
    match w.getId n with
    | .error p => (some p, u, todo)
    | .ok did =>
      match u[did]? with
      | some (.domain d) => (none, u, d.inits.map .inr ++ todo)
      | some (.unset _) => (some .domainNotInUniverse, u, todo)
      | none => (some .vecOob, u, todo)
  | .inr r => ((w.register u r).1, (w.register u r).2, todo)

/-- The initialisation of new domains, at the end of which `fin` says what becomes of the universe. -/
def RtSys.build (s : RtSys ι decl) (i : ι) (op : ROp decl) (fin : Option Panic → List (MaybeDomain V) → R (Given V) × World P V)
    (u : List (MaybeDomain V)) : List (String ⊕ Reg) → Option (RtSys ι decl)
  | [] => some (s.settle i op (fin none u).1 (fin none u).2)
  | x :: todo =>
    if s.storing.isSome then none
    else match s.w.buildOne u todo x with
      | (none, u, todo) => some (s.goto i (.building u todo))
      | (some p, u, _) => some (s.settle i op (fin (some p) u).1 (fin (some p) u).2)

/-- A new universe is added if nothing panicked, and dropped otherwise (src/lib.rs:118-127). -/
def World.finNew (w : World P V) (e : Option Panic) (u : List (MaybeDomain V)) : R (Given V) × World P V :=
  match e with
  | none => (.ok (.number w.unis.length), { w with unis := w.unis ++ [u] })
  | some p => (.error p, w)

/-- The universe a domain was added to is changed either way (src/domain.rs:243-250). -/
def World.finAdd (w : World P V) (k : Nat) (e : Option Panic) (u : List (MaybeDomain V)) : R (Given V) × World P V :=
  (match e with | none => .ok .unit | some p => .error p, { w with unis := w.unis.set k u })

/-- `Universe::new` (src/lib.rs:118-127, src/domain.rs:230-241, 252-265). -/
def RtSys.useNew (s : RtSys ι decl) (i : ι) (ns : List String) : RtPhase V → Option (RtSys ι decl)
  | .begun =>
    if s.storing.isSome then none
    else if s.w.poisoned then some (s.settle i (.newUniverse ns) (.error .poisoned) s.w)
    else match s.w.g.getDomains (s.w.g.did2name.map .unset) ns with
      | .error e => some (s.settle i (.newUniverse ns) (.error e) { s.w with poisoned := true })
      | .ok (u, g) => some (({ s with w := { s.w with g := g } }).goto i (.building u (ns.map .inl)))
  | .building u todo => s.build i (.newUniverse ns) s.w.finNew u todo
  | _ => none

/-- `add_domain` (src/domain.rs:243-250, 252-265). -/
def RtSys.useAdd (s : RtSys ι decl) (i : ι) (k : Nat) (n : String) : RtPhase V → Option (RtSys ι decl)
  | .begun =>
    if s.storing.isSome then none
    else match s.w.unis[k]? with
      | none => none
      | some u =>
        match s.w.synced u with
        | .error e => some (s.settle i (.addDomain k n) (.error e) s.w)
        | .ok u => some (({ s with w := { s.w with unis := s.w.unis.set k u } }).goto i .synced)
  | .synced =>
    if s.storing.isSome then none
    else match s.w.unis[k]? with
      | none => none
      | some u =>
        match s.w.getId n with
        | .error e => some (s.settle i (.addDomain k n) (.error e) s.w)
        | .ok did =>
          match u[did]? with
          | none => some ((s.note (.lapse i (.addDomain k n))).goto i (.done (.error .vecOob)))
          | some m =>
            if m.isSet then some (s.settle i (.addDomain k n) (.ok .unit) s.w)
            else some (s.goto i (.located did))
  | .located did =>
    if s.storing.isSome then none
    else match s.w.unis[k]? with
      | none => none
      | some u =>
        if s.w.poisoned then some (s.settle i (.addDomain k n) (.error .poisoned) s.w)
        else match s.w.g.instantiate n with
          | .error e => some (s.settle i (.addDomain k n) (.error e) { s.w with poisoned := true })
          | .ok (inst, g) => some (({ s with w := { s.w with g := g } }).goto i (.building (u.set did (.domain inst)) [.inl n]))
  | .building u todo => s.build i (.addDomain k n) (s.w.finAdd k) u todo
  | _ => none

/-- One step of thread `i` inside its call. `none`: it waits for the registry. -/
def RtSys.call (s : RtSys ι decl) (i : ι) (see : Seen) (ph : RtPhase V) : ROp decl → Option (RtSys ι decl)
  | .registerDomain n => if s.storing.isSome then none else some (s.whole i (.registerDomain n))
  | .registerTable t => if s.storing.isSome then none else some (s.whole i (.registerTable t))
  | .addProperties k => if s.storing.isSome then none else some (s.whole i (.addProperties k))
  | .registerProp p => s.useReg i p
  | .newUniverse ns => s.useNew i ns ph
  | .addDomain k n => s.useAdd i k n ph
  | .get k p => s.useProp i see (.get k p) k p ph
  | .set k p v => s.useProp i see (.set k p v) k p ph
  | .swap k p v => s.useProp i see (.swap k p v) k p ph
  | .openTable k m b t => s.useTable i (.openTable k m b t) k m.domain (fun u did => openAt u did m b t) ph
  | .panicWriting k m t => s.useTable i (.panicWriting k m t) k m.domain (fun u did => panicAt u did m t) ph
  | .registerTracker k r =>
    s.useTable i (.registerTracker k r) k r.domain
      (fun u did => (match (registerAt u did r).1 with | none => .ok () | some p => .error p, (registerAt u did r).2)) ph

/-- One step of thread `i`: it finishes writing a static `Prop`, begins a call, goes on with it, or returns from it. -/
def RtSys.act (s : RtSys ι decl) (i : ι) (see : Seen) : Option (RtSys ι decl) :=
  match (s.th i).todo with
  | [] => none
  | op :: rest =>
    if s.storing.any (fun x => decide (x.1 = i)) then some { s with storing := none }
    else match (s.th i).phase with
      | .idle => some ((s.note (.began i op)).goto i .begun)
      | .done out =>
        let s' := s.note (.returned i op out)
        some { s' with th := Function.update s'.th i { todo := rest, phase := .idle } }
      | ph => s.call i see ph op

/-- Thread `j` is in this call. -/
def RtSys.inCall (s : RtSys ι decl) (j : ι) (op : ROp decl) : Prop := (s.th j).phase ≠ .idle ∧ (s.th j).todo.head? = some op

/-- What Rust's borrow rules ask of a call that begins: its universe exists, and either both it and what other threads are
doing to that universe take `&self`, or nobody is doing anything to it. -/
def RtSys.mayGo (s : RtSys ι decl) (i : ι) : Prop :=
  (s.th i).phase = .idle → ∀ op k, (s.th i).todo.head? = some op → op.on = some k →
    k < s.w.unis.length ∧ ∀ j op', j ≠ i → s.inCall j op' → op'.on = some k → op.alone = false ∧ op'.alone = false

/-- Any schedule. -/
inductive RtRun (s : RtSys ι decl) : RtSys ι decl → Prop where
  | refl : RtRun s s
  | step {t t' : RtSys ι decl} (i : ι) (see : Seen) (h : RtRun s t) (hb : t.mayGo i) (ha : t.act i see = some t') : RtRun s t'

end
end V11
