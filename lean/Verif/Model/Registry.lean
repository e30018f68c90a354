import Verif.Model.Serial
import Verif.Model.Universe

/-!
# The global registry, properties and universes

The process-wide registry lives behind one `RwLock`; a panic while it is held for writing poisons it for
good. Every operation returns its result and the world afterwards, because a call that panics can still have
had effects.
-/

namespace V11

/-- `'A'..='Z'` or `'a'..='z'` (src/intern.rs:10). -/
def isLetter (c : Char) : Bool := (decide ('A' ≤ c) && decide (c ≤ 'Z')) || (decide ('a' ≤ c) && decide (c ≤ 'z'))

/-- The loop of `check_name` (src/intern.rs:13-19). -/
def checkChars : List Char → R Unit
  | [] => .ok ()
  | c :: cs =>
    if c = '_' then checkChars cs
    else if isLetter c then checkChars cs
    else if '0' ≤ c ∧ c ≤ '9' then checkChars cs
    else .error .badName

/-- `intern::check_name` (src/intern.rs:6-20). -/
def checkName (name : List Char) : R Unit :=
  match name with
  | [] => .error .badName
  | c :: cs =>
    if c = '_' then .error .badName
    else if isLetter c then checkChars (c :: cs)
    else .error .badName

/-- `Prop::check_name` (src/property.rs:332-341). `splitn(2, '/')` splits at the first `/`. -/
def checkPropName (domain name : List Char) : R Unit := do
  checkName domain
  let front := name.takeWhile (· ≠ '/')
  match name.dropWhile (· ≠ '/') with
  | [] => .error .badPropName
  | _ :: short =>
    if front ≠ domain then .error .badPropName
    else checkName short

/-- A call of `universe.register_tracker` (src/tracking.rs:332-339), as made by a table's
`register_foreign_trackers` (macros/output.rs:1786-1795): the `Foreign` type, given by the domain and name it
declares, whether it is consistent and which type it is; and the tracker. -/
structure Reg where
  domain : String
  table : String
  consistent : Bool
  ty : Nat
  tracker : Nat
deriving DecidableEq, Repr

/-- `GenericTable` (src/tables.rs:62-72), and so what a module made by `table!` is: `columns` with `colTys` their
`TypeId`s, and `ty` the `TypeId` of the module's own `Table` and `Row` types. `init` is what its one `init_fn` does
(macros/output.rs:1726). -/
structure GTable where
  domain : String
  name : String
  columns : List ColumnMeta
  colTys : List Nat
  kind : Kind
  ty : Nat
  init : List Reg
deriving DecidableEq, Repr

/-- `GenericTable::new` then `add_column` for each column (src/tables.rs:86-101, 130-140;
macros/output.rs:1707-1725): names are checked, duplicates panic. The globals are not touched. -/
def addColumns (seen : List ColumnMeta) : List ColumnMeta → R Unit
  | [] => .ok ()
  | c :: cs => do
    checkName c.name.toList
    if seen.any (fun d => d.name = c.name) then .error .dupColumn
    else addColumns (seen ++ [c]) cs

/-- `new_generic_table` (macros/output.rs:1707-1727). -/
def GTable.build (g : GTable) : R Unit := do
  checkName g.name.toList
  addColumns [] g.columns

/-- `equivalent` (src/tables.rs:218-228): kind, version, trackers and the actual types are not compared. -/
def GTable.equivalent (a b : GTable) : Bool :=
  decide (a.domain = b.domain) && decide (a.name = b.name) && decide (a.columns.length = b.columns.length) &&
    (a.columns.zip b.columns).all (fun p => decide (p.1 = p.2))

/-- `DomainInfo` (src/domain.rs:159-167). A `HashMap` is an association list with distinct keys. -/
structure DomainInfo where
  id : Nat
  members : List Nat
  tables : List (String × GTable)
  order : List String
  name2did : List (String × Nat)
  locked : Bool
deriving DecidableEq, Repr

/-- `PropertyIndex` (src/property.rs:40-45). -/
structure PIndex where
  domain : Nat
  did : Nat
  gid : Nat
deriving DecidableEq, Repr

variable {Ty : Type} {V : Ty → Type}

/-- What a `property!` declares (src/property.rs:110-204): domain, full name, type and initial value. The
initialiser expression is taken to evaluate to the same value every time (`Model/Inits` has those that do something). -/
structure PropDecl (V : Ty → Type) where
  domain : String
  name : String
  ty : Ty
  init : V ty

/-- `GlobalProperties` (src/domain.rs:357-367); `gid2name` is only used for printing and left out. -/
structure Globals (V : Ty → Type) where
  name2gid : List (String × Nat)
  producers : List (Σ t, V t)
  domains : List (String × DomainInfo)
  did2name : List String

/-- A table in a universe: `GenericTable::prototype` (src/tables.rs:116-128) in its `RwLock`; here only its
trackers and whether the lock is poisoned matter. -/
structure TableInst where
  gt : GTable
  trackers : List Nat
  poisoned : Bool
deriving DecidableEq, Repr

/-- `DomainInstance` (src/domain.rs:302-309). Each property is in a `RwLock`, free between calls. -/
structure Instance (V : Ty → Type) where
  id : Nat
  name : String
  props : List (Σ t, V t)
  tables : List (String × TableInst)
  order : List String

/-- `MaybeDomain` (src/domain.rs:211-217). -/
inductive MaybeDomain (V : Ty → Type) where
  | unset (name : String)
  | domain (d : Instance V)

/-- `MaybeDomain::is_set` (src/domain.rs:219-224). -/
def MaybeDomain.isSet : MaybeDomain V → Bool
  | .unset _ => false
  | .domain _ => true

/-- The process: the registry, whether its lock is poisoned, the static `Prop` of each `property!`
(`none` while unset), and the universes created so far. -/
structure World (P : Type) (V : Ty → Type) where
  g : Globals V
  poisoned : Bool
  idx : P → Option PIndex
  unis : List (List (MaybeDomain V))

variable {P : Type} [DecidableEq P]

/-- Nothing registered. -/
def World.empty : World P V :=
  { g := { name2gid := [], producers := [], domains := [], did2name := [] }, poisoned := false, idx := fun _ => none, unis := [] }

/-- `pmap.domains.get_mut(&name)` and an update. -/
def Globals.update (g : Globals V) (name : String) (f : DomainInfo → DomainInfo) : Globals V :=
  { g with domains := g.domains.map (fun p => if p.1 = name then (p.1, f p.2) else p) }

/-- A panic while the registry is locked for writing. -/
def World.die {α : Type} (w : World P V) (p : Panic) : R α × World P V := (.error p, { w with poisoned := true })

/-- `DomainName::register` (src/domain.rs:45-71). -/
def World.registerDomain (w : World P V) (name : String) : R Unit × World P V :=
  match checkName name.toList with
  | .error p => (.error p, w)
  | .ok _ =>
    if w.poisoned then (.error .poisoned, w)
    else match w.g.domains.lookup name with
      | some _ => (.ok (), w)
      | none =>
        let info : DomainInfo := { id := w.g.domains.length, members := [], tables := [], order := [], name2did := [], locked := false }
        (.ok (), { w with g := { w.g with domains := w.g.domains ++ [(name, info)], did2name := w.g.did2name ++ [name] } })

/-- `DomainName::get_id` (src/domain.rs:73-90): a read lock, which a panic does not poison. -/
def World.getId (w : World P V) (name : String) : R Nat :=
  if w.poisoned then .error .poisoned
  else match w.g.domains.lookup name with
    | some info => .ok info.id
    | none => .error .noSuchDomain

/-- `Prop::init` (src/property.rs:266-311). `decl` is what the `property!` says. -/
def World.registerProp (decl : P → PropDecl V) (w : World P V) (p : P) : R Unit × World P V :=
  if w.poisoned then (.error .poisoned, w)
  else match w.idx p with
    | some _ => (.ok (), w)
    | none =>
      let d := decl p
      match checkPropName d.domain.toList d.name.toList with
      | .error e => w.die e
      | .ok _ =>
        match w.g.domains.lookup d.domain with
        | none => w.die .noSuchDomain
        | some info =>
          if info.locked then w.die .lockedDomain
          else
            let known := w.g.name2gid.lookup d.name
            let gid := known.getD w.g.producers.length
            let did := (info.name2did.lookup d.name).getD info.members.length
            let g : Globals V := { w.g with
              name2gid := if known.isSome then w.g.name2gid else w.g.name2gid ++ [(d.name, gid)]
              producers := if known.isSome then w.g.producers else w.g.producers ++ [Sigma.mk d.ty d.init] }
            let g := g.update d.domain (fun info => { info with
              name2did := if (info.name2did.lookup d.name).isSome then info.name2did else info.name2did ++ [(d.name, did)]
              members := info.members ++ [gid] })
            (.ok (), { w with g := g, idx := Function.update w.idx p (some { domain := info.id, did := did, gid := gid }) })

/-- `$table::register()` (macros/output.rs:1730-1733, src/tables.rs:191-216). -/
def World.registerTable (w : World P V) (t : GTable) : R Unit × World P V :=
  match t.build with
  | .error p => (.error p, w)
  | .ok _ =>
    if w.poisoned then (.error .poisoned, w)
    else match w.g.domains.lookup t.domain with
      | none => w.die .noSuchDomain
      | some info =>
        if info.locked then w.die .lockedDomain
        else match info.tables.lookup t.name with
          | none =>
            (.ok (), { w with g := w.g.update t.domain (fun info => { info with
              order := info.order ++ [t.name], tables := info.tables ++ [(t.name, t)] }) })
          | some old => if t.equivalent old then (.ok (), w) else w.die .tableMismatch

/-- `instantiate_domain` and `DomainInfo::instantiate` (src/domain.rs:186-200, 372-381), the registry being
locked for writing. -/
def Globals.instantiate (g : Globals V) (name : String) : R (Instance V × Globals V) :=
  match g.domains.lookup name with
  | none => .error .noSuchDomain
  | some info => do
    let props ← info.members.mapM (checkedGet g.producers)
    .ok ({ id := info.id, name := name, props := props,
           tables := info.tables.map (fun p => (p.1, { gt := p.2, trackers := [], poisoned := false })), order := info.order },
         g.update name (fun info => { info with locked := true }))

/-- The loop of `get_domains` (src/domain.rs:234-239). -/
def Globals.getDomains (g : Globals V) (ret : List (MaybeDomain V)) : List String → R (List (MaybeDomain V) × Globals V)
  | [] => .ok (ret, g)
  | name :: names => do
    match g.domains.lookup name with
    | none => .error .noSuchDomain
    | some info =>
      let (inst, g) ← g.instantiate name
      if info.id < ret.length then g.getDomains (ret.set info.id (.domain inst)) names
      else .error .vecOob

/-- The table of a universe named by domain id and table name (src/tables.rs:18-23,
src/domain.rs:336-344). -/
def findTable (u : List (MaybeDomain V)) (did : Nat) (table : String) : R TableInst :=
  match u[did]? with
  | some (.domain d) =>
    match d.tables.lookup table with
    | some t => .ok t
    | none => .error .noSuchTable
  | _ => .error .domainNotInUniverse

/-- Changes a table of a domain. -/
def Instance.modTable (d : Instance V) (table : String) (f : TableInst → TableInst) : Instance V :=
  { d with tables := d.tables.map (fun p => if p.1 = table then (p.1, f p.2) else p) }

/-- Changes a table of a universe. -/
def modTable (u : List (MaybeDomain V)) (did : Nat) (table : String) (f : TableInst → TableInst) : List (MaybeDomain V) :=
  u.modify did (fun m => match m with | .domain d => .domain (d.modTable table f) | m => m)

/-- A panic while the table is locked for writing poisons its lock (std). -/
def TableInst.poison (t : TableInst) : TableInst := { t with poisoned := true }

/-- `Universe::register_tracker` (src/tracking.rs:315-321, 332-339). The table's lock is held for writing when the
last two checks panic. (The lock of the table's `Flush`, which the last one poisons too, is inside.) -/
def World.register (w : World P V) (u : List (MaybeDomain V)) (r : Reg) : Option Panic × List (MaybeDomain V) :=
  match w.getId r.domain with
  | .error p => (some p, u)
  | .ok did =>
    match findTable u did r.table with
    | .error p => (some p, u)
    | .ok t =>
      if t.poisoned then (some .poisoned, u)
      else if t.gt.ty ≠ r.ty then (some .badDowncast, modTable u did r.table TableInst.poison)
      else if r.consistent then (none, modTable u did r.table (fun t => { t with trackers := t.trackers ++ [r.tracker] }))
      else (some .trackerOnInconsistent, modTable u did r.table TableInst.poison)

/-- Runs registrations until one panics. -/
def World.registerAll (w : World P V) : List (MaybeDomain V) → List Reg → Option Panic × List (MaybeDomain V)
  | u, [] => (none, u)
  | u, r :: rs =>
    match w.register u r with
    | (none, u) => w.registerAll u rs
    | (some p, u) => (some p, u)

/-- What the init functions of a domain's tables register, in registration order of the tables
(src/domain.rs:255-261). -/
def Instance.inits (d : Instance V) : List Reg :=
  d.order.flatMap (fun n => match d.tables.lookup n with | some t => t.gt.init | none => [])

/-- `init_domain` (src/domain.rs:252-265). A panic leaves the trackers registered before it. Each table's lock is
read just before its registrations run; that it could be poisoned is left out, as these tables have just been made and
nothing has panicked since. -/
def World.initDomain (w : World P V) (u : List (MaybeDomain V)) (name : String) : Option Panic × List (MaybeDomain V) :=
  match w.getId name with
  | .error p => (some p, u)
  | .ok did =>
    match u[did]? with
    | some (.domain d) => w.registerAll u d.inits
    | some (.unset _) => (some .domainNotInUniverse, u)
    | none => (some .vecOob, u)

/-- `init_domain` for each listed domain (src/lib.rs:123-125). -/
def World.initDomains (w : World P V) : List (MaybeDomain V) → List String → Option Panic × List (MaybeDomain V)
  | u, [] => (none, u)
  | u, n :: ns =>
    match w.initDomain u n with
    | (none, u) => w.initDomains u ns
    | r => r

/-- `Universe::new` (src/lib.rs:118-127, src/domain.rs:230-241). The value is the number of the universe. -/
def World.newUniverse (w : World P V) (names : List String) : R Nat × World P V :=
  if w.poisoned then (.error .poisoned, w)
  else match w.g.getDomains (w.g.did2name.map .unset) names with
    | .error p => w.die p
    | .ok (u, g) =>
      let w := { w with g := g }
      match w.initDomains u names with
      | (none, u) => (.ok w.unis.length, { w with unis := w.unis ++ [u] })
      | (some p, _) => (.error p, w)

/-- `sync_domain_list` (src/domain.rs:268-273). `[n..]` of a shorter slice panics; the read lock is not
poisoned by that. -/
def World.synced (w : World P V) (u : List (MaybeDomain V)) : R (List (MaybeDomain V)) :=
  if w.poisoned then .error .poisoned
  else if u.length ≤ w.g.did2name.length then .ok (u ++ (w.g.did2name.drop u.length).map .unset)
  else .error .vecOob

/-- `add_domain` (src/domain.rs:243-250) on universe number `k`. If an init function panics the domain stays
in the universe. -/
def World.addDomain (w : World P V) (k : Nat) (name : String) : R Unit × World P V :=
  match w.unis[k]? with
  | none => (.error .vecOob, w)
  | some u =>
    match w.synced u with
    | .error p => (.error p, w)
    | .ok u =>
      let w := { w with unis := w.unis.set k u }
      match w.getId name with
      | .error p => (.error p, w)
      | .ok id =>
        match u[id]? with
        | none => (.error .vecOob, w)
        | some m =>
          if m.isSet then (.ok (), w)
          else match w.g.instantiate name with
            | .error p => w.die p
            | .ok (inst, g) =>
              let w := { w with g := g }
              let u := u.set id (.domain inst)
              match w.initDomain u name with
              | (none, u) => (.ok (), { w with unis := w.unis.set k u })
              | (some p, u) => (.error p, { w with unis := w.unis.set k u })

/-- `DomainInstance::add_properties` (src/domain.rs:326-334): produces the members beyond those it has. -/
def Instance.addProperties (g : Globals V) (d : Instance V) : R (Instance V) :=
  match g.domains.lookup d.name with
  | none => .error .noSuchDomain
  | some info => do
    let more ← (info.members.drop d.props.length).mapM (checkedGet g.producers)
    .ok { d with props := d.props ++ more }

/-- One entry of the loop of `Universe::add_properties` (src/domain.rs:280-287). -/
def MaybeDomain.addProperties (g : Globals V) (m : MaybeDomain V) : R (MaybeDomain V) :=
  match m with
  | .domain d => do let d ← d.addProperties g; .ok (.domain d)
  | .unset n => .ok (.unset n)

/-- `Universe::add_properties` (src/domain.rs:278-289) on universe `k`. -/
def World.addProperties (w : World P V) (k : Nat) : R Unit × World P V :=
  match w.unis[k]? with
  | none => (.error .vecOob, w)
  | some u =>
    if w.poisoned then (.error .poisoned, w)
    else match u.mapM (fun m => m.addProperties w.g) with
      | .error p => (.error p, w)
      | .ok u => (.ok (), { w with unis := w.unis.set k u })

/-- `sync_alias` (src/property.rs:314-330). -/
def World.syncAlias (decl : P → PropDecl V) (w : World P V) (p : P) : R PIndex × World P V :=
  if w.poisoned then (.error .poisoned, w)
  else match w.g.domains.lookup (decl p).domain with
    | none => w.die .noSuchDomain
    | some info =>
      match w.g.name2gid.lookup (decl p).name with
      | none => w.die .unregisteredProp
      | some gid =>
        match info.name2did.lookup (decl p).name with
        | none => w.die .unwrapNone
        | some did =>
          let i : PIndex := { domain := info.id, did := did, gid := gid }
          (.ok i, { w with idx := Function.update w.idx p (some i) })

/-- `PropRef::get` (src/property.rs:226-231). -/
def World.resolve (decl : P → PropDecl V) (w : World P V) (p : P) : R PIndex × World P V :=
  match w.idx p with
  | some i => (.ok i, w)
  | none => w.syncAlias decl p

/-- The cell a resolved property names in a universe, with the checks of `Index` (src/property.rs:385-417). -/
def cellOf (u : List (MaybeDomain V)) (i : PIndex) : R (Σ t, V t) :=
  match u[i.domain]? with
  | some (.domain d) =>
    match d.props[i.did]? with
    | some v => .ok v
    | none => .error .lateProp
  | _ => .error .domainNotInUniverse

/-- `get_column`, `get_column_mut` (src/tables.rs:142-186) of the table `t` for a column that is called `c.name`, has
the stored type name `c.storedTypeName` and the type `ty`. -/
def GTable.getColumn (t : GTable) (c : ColumnMeta) (ty : Nat) : R Unit :=
  match (t.columns.zip t.colTys).find? (fun p => decide (p.1.name = c.name)) with
  | none => .error .noSuchColumn
  | some p =>
    if p.1.storedTypeName ≠ c.storedTypeName then .error .badColumn
    else if p.2 = ty then .ok ()
    else .error .badColumn

/-- The part of `convert_read_guard` and `convert_write_guard` (macros/output.rs:1615-1645, 1666-1689) of the module `m`
that can panic, given the table `t`. -/
def GTable.convert (t m : GTable) : R Unit := do
  (m.columns.zip m.colTys).forM (fun p => t.getColumn p.1 p.2)
  if t.ty = m.ty then .ok () else .error .badDowncast

/-- The module `m` locks its table in universe `k`: `write` says whether for writing, and `tolerant` whether by
`read_result`, `try_read`, `write_result` or `try_write` (the caller being ready to use a poisoned table), or by `read` or
`write` (macros/output.rs:1649-1662, 1692-1705). The guard is let go afterwards. Nobody else holds the table, so the
`try_` functions do not return `WouldBlock`. A panic in `convert_write_guard` poisons the lock. -/
def World.openTable (w : World P V) (k : Nat) (m : GTable) (write tolerant : Bool) : R Unit × World P V :=
  match w.unis[k]? with
  | none => (.error .vecOob, w)
  | some u =>
    match w.getId m.domain with
    | .error p => (.error p, w)
    | .ok did =>
      match findTable u did m.name with
      | .error p => (.error p, w)
      | .ok t =>
        match t.gt.convert m with
        | .error p => (.error p, if write then { w with unis := w.unis.set k (modTable u did m.name TableInst.poison) } else w)
        | .ok _ => if t.poisoned && !tolerant then (.error .poisoned, w) else (.ok (), w)

/-- The same for writing, the caller panicking with the guard in hand (there being nothing to flush). -/
def World.panicWriting (w : World P V) (k : Nat) (m : GTable) (tolerant : Bool) : R Unit × World P V :=
  match w.openTable k m true tolerant with
  | (.error p, w) => (.error p, w)
  | (.ok _, w) =>
    match w.unis[k]?, w.getId m.domain with
    | some u, .ok did => (.error .userPanic, { w with unis := w.unis.set k (modTable u did m.name TableInst.poison) })
    | _, _ => (.error .vecOob, w)

/-- `Universe::register_tracker` on universe `k` (src/tracking.rs:332-339). -/
def World.registerTracker (w : World P V) (k : Nat) (r : Reg) : R Unit × World P V :=
  match w.unis[k]? with
  | none => (.error .vecOob, w)
  | some u =>
    match w.register u r with
    | (none, u) => (.ok (), { w with unis := w.unis.set k u })
    | (some p, u) => (.error p, { w with unis := w.unis.set k u })

/-- `Universe::info` (src/lib.rs:136-150): here only whether it returns. It reads every table's lock. -/
def World.info (w : World P V) (k : Nat) : R Unit :=
  match w.unis[k]? with
  | none => .error .vecOob
  | some u => u.forM (fun m => match m with
    | .unset _ => .ok ()
    | .domain d => d.tables.forM (fun p => if p.2.poisoned then .error .poisoned else .ok ()))

/-- `Universe::get_domain_names` (src/domain.rs:292-300). -/
def World.domainNames (w : World P V) (k : Nat) : R (List String) :=
  match w.unis[k]? with
  | none => .error .vecOob
  | some u => .ok (u.filterMap (fun m => match m with | .unset _ => none | .domain d => some d.name))

section
variable [DecidableEq Ty]

/-- `downcast_ref` (src/property.rs:409-415). -/
def downcast (t : Ty) (v : Σ t, V t) : R (V t) :=
  if h : v.1 = t then .ok (h ▸ v.2) else .error .badDowncast

/-- `universe.get(prop)` (src/property.rs:353-356). -/
def World.get (decl : P → PropDecl V) (w : World P V) (k : Nat) (p : P) : R (V (decl p).ty) × World P V :=
  match w.unis[k]? with
  | none => (.error .vecOob, w)
  | some u =>
    match w.resolve decl p with
    | (.error e, w) => (.error e, w)
    | (.ok i, w) =>
      match cellOf u i with
      | .error e => (.error e, w)
      | .ok v => (downcast _ v, w)

/-- Overwrites a cell. -/
def putCell (u : List (MaybeDomain V)) (i : PIndex) (v : Σ t, V t) : List (MaybeDomain V) :=
  u.modify i.domain (fun m => match m with
    | .domain d => .domain { d with props := d.props.set i.did v }
    | m => m)

/-- `universe.swap(prop, val)` (src/property.rs:363-368). -/
def World.swap (decl : P → PropDecl V) (w : World P V) (k : Nat) (p : P) (val : V (decl p).ty) :
    R (V (decl p).ty) × World P V :=
  match w.unis[k]? with
  | none => (.error .vecOob, w)
  | some u =>
    match w.resolve decl p with
    | (.error e, w) => (.error e, w)
    | (.ok i, w) =>
      match cellOf u i with
      | .error e => (.error e, w)
      | .ok v =>
        match downcast _ v with
        | .error e => (.error e, w)
        | .ok old => (.ok old, { w with unis := w.unis.set k (putCell u i ⟨_, val⟩) })

/-- `universe.set(prop, val)` (src/property.rs:358-361). -/
def World.set (decl : P → PropDecl V) (w : World P V) (k : Nat) (p : P) (val : V (decl p).ty) : R Unit × World P V :=
  match w.swap decl k p val with
  | (.ok _, w) => (.ok (), w)
  | (.error e, w) => (.error e, w)

/-- Any call a program makes of the registry and of universes. -/
inductive ROp (decl : P → PropDecl V) where
  | registerDomain (name : String)
  | registerProp (p : P)
  | registerTable (t : GTable)
  | newUniverse (names : List String)
  | addDomain (k : Nat) (name : String)
  | addProperties (k : Nat)
  | get (k : Nat) (p : P)
  | set (k : Nat) (p : P) (v : V (decl p).ty)
  | swap (k : Nat) (p : P) (v : V (decl p).ty)
  | openTable (k : Nat) (m : GTable) (write tolerant : Bool)
  | panicWriting (k : Nat) (m : GTable) (tolerant : Bool)
  | registerTracker (k : Nat) (r : Reg)

/-- Whether the call returned, and the world afterwards. -/
def World.step (decl : P → PropDecl V) (w : World P V) : ROp decl → R Unit × World P V
  | .registerDomain n => w.registerDomain n
  | .registerProp p => w.registerProp decl p
  | .registerTable t => w.registerTable t
  | .newUniverse ns => ((w.newUniverse ns).1.map (fun _ => ()), (w.newUniverse ns).2)
  | .addDomain k n => w.addDomain k n
  | .addProperties k => w.addProperties k
  | .get k p => ((w.get decl k p).1.map (fun _ => ()), (w.get decl k p).2)
  | .set k p v => w.set decl k p v
  | .swap k p v => ((w.swap decl k p v).1.map (fun _ => ()), (w.swap decl k p v).2)
  | .openTable k m write tolerant => w.openTable k m write tolerant
  | .panicWriting k m tolerant => w.panicWriting k m tolerant
  | .registerTracker k r => w.registerTracker k r

/-- A history of calls; panics are caught and the program goes on. -/
def World.run (decl : P → PropDecl V) (w : World P V) : List (ROp decl) → World P V
  | [] => w
  | op :: ops => ((w.step decl op).2).run decl ops

end
end V11
