import Verif.Model.RegThreads

/-!
# Property initialisers that do something

The initialiser of a `property!` is any expression (src/property.rs:186-189); it is evaluated each time a domain is made for a universe, by
`Producer::produce`, while the caller holds the registry's lock: for writing in `Universe::new` (src/domain.rs:230-241) and in
`add_domain` (248), for reading in `add_properties` (278-289). `Model/Registry` takes initial values to be values; here they are programs that may
make any call of the registry and of other universes, and may panic.

The lock is not reentrant. std says of a second `read()` by a thread that holds it that it "might panic" or deadlock, so it is taken to block
under either. A universe whose domain is being made is borrowed exclusively (`&mut self`), so whoever uses it then waits for its
owner; the universe that `Universe::new` makes cannot be named yet. Locks of properties and tables are free between calls.
-/

namespace V11
variable {Ty : Type} {V : Ty → Type} {P : Type} [DecidableEq P]

/-- An initialiser of type `t`: it returns a value, panics, or makes a call and goes on with its outcome (also if that call panicked: it may have been
caught). -/
inductive Recipe (decl : P → PropDecl V) (t : Ty) where
  | ret (v : V t)
  | panic
  | call (op : ROp decl) (k : R (Given V) → Recipe decl t)

/-- Whether the call waits forever, if this thread holds the registry's lock and has borrowed universe `busy`. The calls lock the registry at: src/domain.rs:48
(after the name is checked), src/property.rs:267, src/tables.rs:191-216 (after the table is built), src/domain.rs:232, 269, 283; the
functions of tables and `register_tracker` by `get_id` (src/tables.rs:18-23, src/tracking.rs:332-339); using a property only if its static `Prop` is not set yet
(src/property.rs:212-216). -/
def World.blocks {decl : P → PropDecl V} (w : World P V) (busy : Option Nat) : ROp decl → Bool
  | .registerDomain n => (checkName n.toList).isOk
  | .registerProp _ => true
  | .registerTable t => t.build.isOk
  | .newUniverse _ => true
  | .addDomain _ _ => true
  | .addProperties _ => true
  | .get k p => decide (busy = some k) || (w.idx p).isNone
  | .set k p _ => decide (busy = some k) || (w.idx p).isNone
  | .swap k p _ => decide (busy = some k) || (w.idx p).isNone
  | .openTable _ _ _ _ => true
  | .panicWriting _ _ _ => true
  | .registerTracker _ _ => true

variable [DecidableEq Ty]

/-- The initialiser, run by a thread that holds the registry's lock and has borrowed universe `busy`. -/
def Recipe.run {decl : P → PropDecl V} {t : Ty} (busy : Option Nat) : Recipe decl t → World P V → R (V t) × World P V
  | .ret v, w => (.ok v, w)
  | .panic, w => (.error .userPanic, w)
  | .call op k, w =>
    if w.blocks busy op then (.error .deadlock, w)
    else (k (w.given decl op)).run busy (w.step decl op).2

/-- The process. `makers` says which `property!` the producer with each global id is of (`gid2producer`, src/domain.rs:363), so it stands for the
`producers` of `w`, which have the types but not the values; `made` is a record of the initialisers that have been run. -/
structure EWorld (decl : P → PropDecl V) where
  w : World P V
  makers : List P
  made : List (P × R (Σ t, V t))

namespace EWorld
variable {decl : P → PropDecl V}

/-- Nothing registered. -/
def empty : EWorld decl := ⟨World.empty, [], []⟩

variable (inits : (p : P) → Recipe decl (decl p).ty)

/-- `gid2producer[id.0].0.produce()` (src/domain.rs:189, src/property.rs:186-189). -/
def produce (busy : Option Nat) (e : EWorld decl) (gid : Nat) : R (Σ t, V t) × EWorld decl :=
  match e.makers[gid]? with
  | none => (.error .vecOob, e)
  | some p =>
    ((((inits p).run busy e.w).1.map (Sigma.mk (decl p).ty)),
     { e with w := ((inits p).run busy e.w).2, made := e.made ++ [(p, ((inits p).run busy e.w).1.map (Sigma.mk (decl p).ty))] })

/-- The loop of `DomainInfo::instantiate` (src/domain.rs:188-191). -/
def produceAll (busy : Option Nat) (e : EWorld decl) : List Nat → R (List (Σ t, V t)) × EWorld decl
  | [] => (.ok [], e)
  | gid :: gids =>
    match produce inits busy e gid with
    | (.error p, e) => (.error p, e)
    | (.ok v, e) =>
      match produceAll busy e gids with
      | (.error p, e) => (.error p, e)
      | (.ok vs, e) => (.ok (v :: vs), e)

/-- `instantiate_domain` (src/domain.rs:372-381, 186-200). -/
def instantiate (busy : Option Nat) (e : EWorld decl) (name : String) : R (Instance V) × EWorld decl :=
  match e.w.g.domains.lookup name with
  | none => (.error .noSuchDomain, e)
  | some info =>
    match produceAll inits busy { e with w := { e.w with g := e.w.g.update name (fun info => { info with locked := true }) } } info.members with
    | (.error p, e) => (.error p, e)
    | (.ok props, e) =>
      (.ok { id := info.id, name := name, props := props,
             tables := info.tables.map (fun p => (p.1, { gt := p.2, trackers := [], poisoned := false })), order := info.order }, e)

/-- The loop of `get_domains` (src/domain.rs:234-239). -/
def getDomains (e : EWorld decl) (ret : List (MaybeDomain V)) : List String → R (List (MaybeDomain V)) × EWorld decl
  | [] => (.ok ret, e)
  | name :: names =>
    match e.w.g.domains.lookup name with
    | none => (.error .noSuchDomain, e)
    | some info =>
      match instantiate inits none e name with
      | (.error p, e) => (.error p, e)
      | (.ok inst, e) =>
        if info.id < ret.length then getDomains e (ret.set info.id (.domain inst)) names
        else (.error .vecOob, e)

/-- A panic while the registry is locked for writing; a thread that waits forever does not unwind. -/
def die {α : Type} (e : EWorld decl) (p : Panic) : R α × EWorld decl :=
  (.error p, if p = .deadlock then e else { e with w := { e.w with poisoned := true } })

/-- `Universe::new` (src/lib.rs:118-127, src/domain.rs:230-241). -/
def newUniverse (e : EWorld decl) (names : List String) : R Nat × EWorld decl :=
  if e.w.poisoned then (.error .poisoned, e)
  else match getDomains inits e (e.w.g.did2name.map .unset) names with
    | (.error p, e) => e.die p
    | (.ok u, e) =>
      match e.w.initDomains u names with
      | (none, u) => (.ok e.w.unis.length, { e with w := { e.w with unis := e.w.unis ++ [u] } })
      | (some p, _) => (.error p, e)

/-- `add_domain` (src/domain.rs:243-250). -/
def addDomain (e : EWorld decl) (k : Nat) (name : String) : R Unit × EWorld decl :=
  match e.w.unis[k]? with
  | none => (.error .vecOob, e)
  | some u =>
    match e.w.synced u with
    | .error p => (.error p, e)
    | .ok u =>
      let e := { e with w := { e.w with unis := e.w.unis.set k u } }
      match e.w.getId name with
      | .error p => (.error p, e)
      | .ok id =>
        match u[id]? with
        | none => (.error .vecOob, e)
        | some m =>
          if m.isSet then (.ok (), e)
          else match instantiate inits (some k) e name with
            | (.error p, e) => e.die p
            | (.ok inst, e) =>
              match e.w.initDomain (u.set id (.domain inst)) name with
              | (none, u) => (.ok (), { e with w := { e.w with unis := e.w.unis.set k u } })
              | (some p, u) => (.error p, { e with w := { e.w with unis := e.w.unis.set k u } })

/-- `DomainInstance::add_properties` (src/domain.rs:326-334) for the members that are missing: each is stored when it has been made. -/
def produceMore (busy : Option Nat) (e : EWorld decl) (d : Instance V) : List Nat → R Unit × Instance V × EWorld decl
  | [] => (.ok (), d, e)
  | gid :: gids =>
    match produce inits busy e gid with
    | (.error p, e) => (.error p, d, e)
    | (.ok v, e) => produceMore busy e { d with props := d.props ++ [v] } gids

/-- The loop of `Universe::add_properties` (src/domain.rs:284-288); `done` are the entries it has been through. -/
def addMore (busy : Option Nat) (e : EWorld decl) (done : List (MaybeDomain V)) : List (MaybeDomain V) → R Unit × List (MaybeDomain V) × EWorld decl
  | [] => (.ok (), done, e)
  | .unset n :: ms => addMore busy e (done ++ [.unset n]) ms
  | .domain d :: ms =>
    match e.w.g.domains.lookup d.name with
    | none => (.error .noSuchDomain, done ++ .domain d :: ms, e)
    | some info =>
      match produceMore inits busy e d (info.members.drop d.props.length) with
      | (.error p, d, e) => (.error p, done ++ .domain d :: ms, e)
      | (.ok _, d, e) => addMore busy e (done ++ [.domain d]) ms

/-- `Universe::add_properties` (src/domain.rs:278-289). -/
def addProperties (e : EWorld decl) (k : Nat) : R Unit × EWorld decl :=
  match e.w.unis[k]? with
  | none => (.error .vecOob, e)
  | some u =>
    if e.w.poisoned then (.error .poisoned, e)
    else match addMore inits (some k) e [] u with
      | (r, u, e) => (r, { e with w := { e.w with unis := e.w.unis.set k u } })

/-- `Prop::init` (src/property.rs:266-311): the producer is kept if the name is new (305-307). -/
def registerProp (e : EWorld decl) (p : P) : R Unit × EWorld decl :=
  ((e.w.registerProp decl p).1,
   { e with
     w := (e.w.registerProp decl p).2
     makers := if (e.w.registerProp decl p).2.g.producers.length = e.w.g.producers.length then e.makers else e.makers ++ [p] })

/-- Any call. -/
def step (e : EWorld decl) : ROp decl → R Unit × EWorld decl
  | .registerProp p => e.registerProp p
  | .newUniverse ns => ((newUniverse inits e ns).1.map (fun _ => ()), (newUniverse inits e ns).2)
  | .addDomain k n => addDomain inits e k n
  | .addProperties k => addProperties inits e k
  | op => ((e.w.step decl op).1, { e with w := (e.w.step decl op).2 })

/-- A history of calls of one thread; panics are caught and the program goes on, but not after a call that waits forever. -/
def run (e : EWorld decl) : List (ROp decl) → Option (EWorld decl)
  | [] => some e
  | op :: ops =>
    match e.step inits op with
    | (.error .deadlock, _) => none
    | (_, e) => e.run ops

end EWorld
end V11
