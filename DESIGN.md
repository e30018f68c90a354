# A Lean 4 model of purpleposeidon/v11

`/repo` is a pinned commit of v11, an in-memory, column-oriented table library. A procedural macro
(`macros/output.rs`) generates one module per table; `src/` holds columns, row ids, iterators, the
tracker/event machinery, domains, properties and universes. Nothing is built or run here: the model is
written from the source text, and every definition cites the file and lines it models.

## Trusted base

* Lean 4.33.0's kernel, and Lean's `propext`, `Classical.choice`, `Quot.sound`. No axiom is added; no
  `native_decide`/`bv_decide`. `lean/Verif/Axioms.lean` (generated) prints the axioms of every property theorem at
  build time: each is a subset of these three.
* My reading of the source: the theorems are about the model. Each definition carries a citation, and
  simplifications are stated there and below.
* Assumed behaviour of libraries, used as specifications: `Vec`, `BTreeMap` (a strictly ascending list
  of keys; `range` panics on an inverted range, as documented, although newer versions let it pass on an empty map), `HashMap` (a finite map), `bit_vec::BitVec` (a list of bits whose `[]`/`set` panic out of
  range), `VecDeque` (a list), slice `sort` (stable sort), `RwLock` (read count / writer flag), serde
  (a lossless sequence of elements; in C90 any serialiser and any finite input).

## Conventions

* A panic, a deadlock, a stack overflow and *undefined behaviour* are values of `Panic`; every modelled
  function returns `R α = Except Panic α`. UB (an unchecked access out of bounds) is its own value
  `Panic.ub`, so "no UB" is a theorem, not an assumption.
* A panic while a write lock is held is terminal for that lock: `RwLock` poisons it and v11's `read`/
  `write` unwrap, so the partially updated state is not observable through them. Observing it through
  `write_result().into_inner()` is what C70–C72 are about: there (`Model/Crash`) every call also says what table it
  leaves when it panics.
* `usize`/`u32`… row ids are `Nat` bounded by a parameter `max` (the row-id type's maximum);
  every conversion the code performs (`from_usize`, `NumCast`) is modelled, with its panic. Arithmetic on
  raw ids (`next`) panics on overflow (debug profile); `usize` itself is treated as unbounded (a table
  with 2^64 rows does not fit in memory).
* Row data is generic: a `Schema` has any number of columns, each with any element type and any lawful
  column storage; `VecCol`, `BoolCol`, `BTreeIndex<VecCol>`, `BTreeIndex<BoolCol>` are proved lawful.

## Layout (lean/Verif)

* `Model/…` — executable model, one module per source area. `Spec/…` — small independent
  specifications. `Lemmas/…` — proofs. `Props/…` — property theorems, one file per group, each with
  `example`s showing the hypotheses are met by a non-trivial case.

## Per property: what is modelled, how it is proved

| id | model | specification | method |
|---|---|---|---|
| C01–C04, C06–C09 | `Model/Table`: consistent `Write` (push, delete, flush, clear, drop) over a generic schema | `view`/`Holds`: the live rows as `Nat → Option Row` | one-step refinement, then induction over operation lists |
| C05, C25, C54 | `Model/Iter`: `RowRange`, `CheckedIter`, `UncheckedIter`, `ConsistentIter`, `EditIter` as step machines | sorted lists of live ids | induction over the drained sequence, loop invariant for the join against the free list |
| C10, C11 | `Model/Ops`: every structural operation of every table kind | equal lengths; `ub` never returned | invariant by induction over operation lists (`Reach`) |
| C12–C14 | `Model/Column(s)`: `BTreeIndex` over `VecCol`/`BoolCol`, any mix of columns (`mkSchema`) | filter of the live ids | column law: the index is the graph of the live rows |
| C15–C19, C21 | `Model/Sorted`, `Model/Rug`: `merge_logged`, `remove_rows`, `merge0` step by step (rug, cursor, swaps) | `Spec/Merge`, `Spec/Lists` | loop invariants for the in-place algorithms |
| C20, C22, C23, C52, C53, C57 | `Model/Bag`, `Model/Deletable`, `Model/Table`: bag/append/sorted/list `delete_raw`, `clear`, `BagIter` | `swapRemove` on lists | as above |
| C24 | `Model/Iter`: `JoinCore` | join of sorted lists | induction on the right sequence |
| C26 | `Model/Column`: `BoolCol` with its cache | `List Bool` | bisimulation over call histories |
| C27, C28, C33, C58, C61 | `Model/Universe`: `do_flush`, `register_tracker`, trackers that log a snapshot of the universe, `select_rows` under a read lock | `Spec/Session` | equality of the log with the specified one |
| C29–C32, C59, C60 | `Model/Universe`: tables, foreign_auto trackers, handlers, fuel for recursion, read-lock counts for self-deadlock | `Spec/Cascade`: `Doomed`, `Cascaded`, `Integrity` | induction on a rank of the acyclic graph; cyclic case for every fuel |
| C34–C38 | `Model/Serial`: column (de)serialisation, `Extraction`, `validate`, `restore_extract`, remappings, the flush lock's leaked readers | `Spec/Serial` | refinement; induction over histories |
| C39–C45, C62 | `Model/Registry`: global registry with poisoning, domains, property cells, universes, static initialisation flags | `Spec/Registry`: the ledger of past operations | invariants by induction over operation histories |
| C66–C68 | `Model/Registry`: locking a universe's table through a module, with the `TypeId`s it is checked against; poisoned table locks; `register_tracker`, `info`, `get_domain_names` | `Spec/Registry`: `hasTable`, `dead`, `Reg.fits`, `Kills` | as C39–C45 |
| C69 | `Model/Libs`: libraries with their own copies of the global, registries, `sync_globals` | `Spec/Libs`: `Polite` | simulation by the one-library model; monotonicity over all histories |
| C70–C72 | `Model/Crash`: every `Write` call as a state transformer that also gives the table it leaves on a panic, column by column; closures and iterators may panic | `Spec/Crash`: `okPrefix`, `visitPlaced`, `retainPlaced`, `putOver`; `MergeLeft` | a length invariant of torn tables and an alignment invariant by induction over histories; loop invariants with the panic as an exit; agreement with the other model |
| C46 | `Model/Handlers`: event table and the handler vector | the flags of an event | the built-in table by cases, all later histories by induction |
| C47 | `Model/Context`: `context!` `new`/`from`/`release_fields` as a transfer of lock tokens | multiset of held locks | induction over field lists |
| C48 | `Model/Race`: other threads' sessions in the window of a flush | `Spec/Cascade` | exact effect of the window, positive theorem for quiet windows |
| C49 | `Model/Poison`: one lock under histories of lock calls, guard drops and panics | `Spec/Poison` | induction over histories |
| C50 | `Model/MacroConfig`: attribute and column parser at token level, `set_kind`, `validate`, the panics of `write_out` | `Spec/Macro` | all token sequences |
| C51 | `Model/Table`: `push_array` | list append | refinement |
| C55 | `Model/Table`, `Model/Iter`: `check`, `CheckedRowId` against any later table | liveness of the id | case analysis + column laws |
| C56 | `Model/Ops` for sorted tables | `Sorted` | invariant |
| C63, C64 | `Model/Threads`: the functions of `Model/Universe` and `Model/Serial` as programs of lock requests, lock releases and table accesses; interleavings of any number of them, panics poisoning locks, any reader/writer policy | `Spec/Threads`: scripts that take locks in order (C63), any scripts (C64) | invariant over steps (`Tidy`, `Good`), lock order, multiset termination; run alone the programs equal the functions |
| C65 | as C63 | `Spec/Threads`: `Sess`, `Effects` | simulation: the order of the stores is the serial order |
| C73 | `Model/RowId`: id types as integer ranges, the comparison and conversion impls, serde | integers; `Reach` for tables | arithmetic; invariant of the table length |
| C74 | `Model/Selection`: `Select`, `SelectIter`, `AnySliceRef` over an explicit memory, the type-erased table entry points | `Yielding` | induction over what the iterator yields; equality with the typed functions |
| C75 | `Model/Custom`: `flush`, `live_flush` and `do_flush` with trackers and handlers that are arbitrary state transformers with panics | `Spec/Custom`: `toldOf`, `inTurn` | induction over the tracker list; `Model/Universe` is shown to be an instance |
| C76 | `Model/Declared`: column storages, derived trackers and their registration computed from `table!` declarations | `Spec/Declared`: `RefCol`, `References`, `Goes`, `Tracks` speak about the declarations only | C50 for what the macro accepts, C45 for what is registered, C46 for the handlers, C29/C30 for the cascade |
| C77 | `Model/Universe`: the log of calls to trackers of `do_flush` | `Spec/Chains`: `dependants`, `chains`, `toldAt` count chains of `foreign_auto` columns | `Lemmas/Tell`: induction on the recursion depth of any flush that returns; `C77_exponential` is a line of m+1 tables for every m |
| C78 | `Model/Column`, `Model/Columns` | `Spec/Storage`: `vecSpec`, a list and the deleted positions | simulation, from the column laws every storage is shown to meet |
| C79 | `Model/Unwind`: every call as a function from lock to lock and result, table and change list kept at a panic; the destructor decides | `Spec/Unwind`: which calls leave something to flush, whether a first id is handed out | per-call lemmas `UOp.returned`, `UOp.panicked`, then induction over the calls; `C79_agrees` ties the model to the others |
| C80 | `Model/Unwind`: `restore_extract` up to its flush on that model | `Spec/Unwind`: `BeginsWith`, `ShortAt`, `LostAt` on the columns of the extraction | `Lemmas/Damaged`: induction over the entries before the bad one; `C80_agrees` ties it to `restore` |
| C81 | `Model/CtxThreads`: threads as lists of lock/unlock actions produced by `new`/`from`/`drop`; steps, schedules, reader policy | `Spec/CtxThreads`: `Listed`, `Courteous`, `Halted`, `CanBlock` | invariant: each thread's next locks are below all it holds; the thread wanting the lowest-ranked lock can go on; `C81_agrees` ties the actions to the log of `Model/Context` |
| C82 | `Model/FlushPanic`: the functions of `Model/Universe` for observers that may panic, returning the universe as the panic leaves it (guards dropped on the way) | `Spec/FlushPanic`: `Calm`, `Bursts`, `PartlyCascaded`, `Shallow` | simulation: the run is the panic-free run cut at the first call that panics; what each call saw is an invariant of the cascade induction (C29); the defect is a concrete universe |
| C83 | as C63; `restore`, `session`, `extractSelection` | `Spec/Threads`: `Guarded` (scripts with no lock order) | weakest precondition without lock order (`Careful`), invariant over steps (`SysSound`); run alone by `C64_session_alone` |
| C84 | as C63 | `Spec/Mutex`: `Script.Work`, `Script.each` (pieces of work under the guard of one table), `Serially` (one thread, one piece after another) | simulation: the thread that has the mutex takes the steps of its lone run (`inside_step`), the others none (`OneByOne`); C63 for completion, C30 for references |
| C85 | `Model/TrackThreads`: threads as lists of lock steps over tables and tracker lists, `register_tracker`, the loop of `do_flush` by index into the live list, trackers as any sets of operation lists | `Spec/TrackThreads`: `toldBy`, `registeredOn` (from the log), `TkOrder`, `CodeInOrder` (any level map on locks), `AutoCode`; `Spec/TrackTie`: Traces (lock steps of a program of `Model/Threads`), TkLocks (of `Model/TrackThreads`) | invariant over all runs relating every open flush to the log (`TkInv`); strong induction on the level of the requested lock for progress; Dershowitz–Manna order on the programs for termination; invariants of the stuck thread, explicit schedule for the deadlock |
| C86 | `Model/Universe` (guards of the flushing thread), `Model/CtxFlush`: contexts as scripts of `Model/Threads` | `Spec/Cascade`: `DependsOn`; `Spec/CtxFlush`: `Descending`, `Considerate` | induction on the depth of the cascade: guards are balanced and every dependant was lockable; the converse with a ranking in which exactly the dependants are below the flushed table; contexts reduce to `Orderly` scripts (C63) |
| C87 | `Model/RegThreads`: every registry, universe and property call as its critical sections, interleaved with those of other threads (`RtSys`, `RtRun`); a racing read of the static `Prop` sees anything of it | `Spec/RegThreads`: `effectsOf`, `Answered`, `Lapsed`, `BeingSet`, `SameDomains`, `returnsOf` | simulation by the one-at-a-time run of the calls that took effect, up to domains locked early by calls in progress (`Behind`, `RtInv`); lexicographic rank for termination; explicit schedules for the two exceptions |
| C88 | Model/PropLocks: a thread is a tree of actions; every (universe, name) has a lock; guards, unwinding and poisoning; a log of events | Spec/PropLocks: last value put, events that use or write a lock, spoiled locks, scripts in turn, updates | the world is that of the log's calls made by one thread (C40, C41); invariants on guards, poison and log; strong induction on the lock's level; accessibility of scripts |
| C89 | `Model/Save` (client code over `Model/Serial`) | `Spec/Save`: ParentsFirst, Whole, Moved, CopiedTo, Joined, leads, Accepts, Receives | induction over the list of tables with the invariant `Half` (loaded tables are copied, their new ids are remembered); C35/C36 per table |
| C90 | `Model/Stream` | `Spec/Stream`: Sink.write | induction over the elements |
| C91 | `Model/Table`, `Model/Ops` | `Spec/Usage`: liveCount, TOp.Single, appendAndDelete | induction on the history from its end |
| C92 | `Model/FlushFail`: flush with what panics leave and poisoned locks | `Spec/FlushFail`: PartlyRemoved, DependantsGone | invariant closed under sequencing; refinement against `flush`; induction on the recursion budget |
| C93 | `Model/Caught`: sessions of `Model/Unwind`, flushes and live flushes of `Model/FlushFail`, selections of `Model/ViewFail`, one after another, panics caught | `Spec/Caught`: Possible, Whole, Plain, about | invariants over the list of sessions; a table not below the flushed one is missed by every step of the cascade (induction on the recursion budget) |
| C94 | `Model/Inits`: `Recipe` (programs over the API), `EWorld` (process with initialisers), `Universe::new`, `add_domain`, `add_properties` running them under the lock | `Spec/Inits`: lineup, evalEach, joins, Locks, Mild, bare | the registry's members are the lineup of the registrations (invariant over histories); a script that does not block changes only values (induction); a simulation between histories with scripts and with constants |
| C95 | `Model/TwoUniverses`: do_flush with the locked table's own trackers and the other universe's handlers and tables; flush, live_flush, select_rows so told | `Spec/Cascade`: Cascaded, Integrity, Ready | such a flush equals a flush of a lock on the other universe with the same marks; then the cascade theorems (C29, C58) apply to it |
| C96 | `Model/CtxUniverses`: programs over universes and context variables with the borrow rule, on top of `Model/Context` (`ctxFrom`) | `Spec/CtxUniverses`: SameUniverse, URun, Dangling, InUse, inContexts | field by field from the invariant of C47's loop; invariants over all runs; an explicit program for every lock type |
| C97 | `Model/SyncThreads`: threads that clone the handle, queue for the registry's lock, work and unlock, and `sync_globals` with its three locks, on top of `Model/Libs` | `Spec/SyncThreads`: regOf, shelfOf, BeganAt, ClonedAt, SyncedOnce, SyncedFirst | invariant over all runs that ties every phase and event to the history; wait-for analysis of stuck states; explicit runs for the lost registration and the deadlock |
| C98 | `Model/Unlocked`: set_locked and locked on top of `Model/Registry` | `Spec/Unlocked`: lkTrace, Registers | invariant over all histories weaker than WInv: a universe's properties are a prefix of its domain's members; the first-registration ledger |
| C99 | `Model/View`: viewSelect on top of doFlush | SameSelect in `Props/View`; Cascaded, Holding in `Spec/Cascade` | simulation of a flush under a lock by one without it (Lemmas/Live); C58 and the flush theorems for the cascade |
| C100 | `Model/ViewFail`: gViewSelect on gDoFlush (`Model/FlushFail`) and W.drop | HasChanges, Ready, PartlyRemoved, DependsOn | case analysis on the flush's outcome with the invariants of Lemmas/FlushLeft, FlushReach, FlushPartly |
| C101 | `Model/CtxPanic`: pCtxFrom, pCtxNew on the model of C47, with poisoned locks and unwinding | Old.guards, held locks, what a lock locks | induction over the fields; the held locks as permutations |
| C102 | `Model/CtxHistory`: CtxStep, CtxRun on the model of C101 | Compatible in `Props/Context` | invariant (held locks a permutation of the contexts', compatible, not poisoned, logged) over the steps |

Properties that a user would expect and that are false of the code are stated as what the code does do
(C09, C12, C17, C20, C25, C33, C36–C38, C45, C47–C50, C52, C55–C63, C66, C67, C73, C75); the defects are listed next.

## Defects found (all are theorems)

* C09: after `clear` + removal flush of a consistent table with deleted rows, the free list survives: the next push panics,
  `push_array` stores invisible rows. C20: `clear` is a no-op on sorted and list tables.
* C17: `merge` is not stable: the first new row lands before equal old ones, contrary to the comments.
* C31: a cyclic foreign_auto graph (also a self-reference) makes every flush of deleted rows deadlock, and every creation
  flush and every flush of a `clear` recurse without bound, even when no row matches. C59: an unremovable dependant makes every removal flush panic.
* C33: trackers of tables reached by a cascade are called after their rows are gone, contrary to the documentation.
* C36: restored foreign keys in sorted tables are not remapped; restoring nothing leaves an old remapping in force.
* C38: `live_flush` of a remapped table leaks a read guard; the next `restore_extract` or `register_tracker` blocks.
* C42/C62: registering into a domain in use panics while holding the registry lock, which kills the registry for good.
* C77: clearing a table tells trackers `d` foreign_auto links below `2^d` times.
* C45: listing a domain twice in `Universe::new` doubles its trackers.
* C46: with the default handlers a custom removal event can never be flushed once a dependant exists.
* C47: twin properties in a `context!` transfer have the same type name but different type ids: undefined behaviour.
* C48: rows added by other threads in a flush's window can be left dangling, or be spared.
* C49: a panic while an unflushed write lock of a consistent table is held aborts the process.
* C50: an invalid `table!` only prints a message and generates nothing; malformed `add_tracker` is silently ignored.
* C52: a bag flush with several selected rows in ascending order removes the wrong rows (swap_remove after swap_remove).
* C54: `size_hint` underflows. C55/C57: checked ids are accepted by other tables; a late `Deletable::delete` hits another row.
* C63: `restore_extract` holds the child's write lock while it locks the parents, against the order every flush uses: it
  deadlocks against `live_flush` of a parent; two foreign columns of one parent lock it twice.
* C66: two modules with the same domain, table name and columns both register, but every use of the second panics, and
  its first write shuts the first out. C67: a tracker on a table that is not `consistent`, or on the second module, poisons
  the table's lock. C62: a dead registry makes every table of every universe unusable.
* C71: a panic of a `visit` closure, or of the iterator or `log` of a `merge`, loses rows that were in the table before. C72:
  a push onto a full table leaves it unusable, and later calls may mix values of two rows.
* C73: the `undefined` default row id is a valid row of a full table; without overflow checks `next` of the last id is the
  first. C75: a tracker that itself removes the flushed row and adds one loses the new row to the flush.
* C81: growing a context with `from` deadlocks against a context with the same field order; a context reading one table twice
  deadlocks with a writer where waiting writers go first.
* C79: a push onto a cleared consistent table with deleted rows ends the process. C80: so does restoring an extraction that
  is damaged after its first entry (or has too many rows) into a consistent table.
* C82: a tracker of a dependent table that panics while a row is deleted leaves rows of tables below it with references to rows that are
  gone; deleting the row again does not remove them.
* C85: a tracker that locks its own table, as the documentation of `Tracker::handle` allows, hangs every cascade or `live_flush` that reaches it, and its
  flush deadlocks with a concurrent `register_tracker` (which holds the table's lock while it waits for the tracker list).
* C86: a `context!` that has a table and one of its dependants, the natural way to delete children and parents together, hangs for ever in the flush of the parents (`C86_context_hangs`); nothing in the documentation of `context!` or `flush` says so.
* C87: the first use of a property by two threads at once can panic although the property has a value, because the static `Prop` is written field by field while others read it without a lock
* C90: reading a column believes the length its input promises (`size_hint`), so a few damaged bytes can make it panic or abort for lack of memory.
* C91: `push_array` never uses free ids; a table that appends and deletes runs out of ids although it is empty.
* C92: `select` does not check its row: a removal of a row that does not exist panics only after everything that references the marked rows, and some of the rows, have gone, and poisons the lock.
* C93: A panic under the write lock of a dependent table makes deletion from its parents impossible for the rest of the process.
* C94: Twins make the first registrant's initialiser run once per registration; an initialiser that needs the registry deadlocks; one that panics poisons the registry for the whole process.
* C95: flush accepts any universe: told another one it deletes that universe's rows of the same numbers instead, and live_flush leaves dangling references in one of them.
* C96: Ctx::from ties the old context to nothing: a context may hold locks of a universe other than its own, and safe code can drop that universe first (use after free).
* C97: sync_globals takes two read locks which may be the same one, so a duplicate call (which its comment expects) can deadlock with a writer; and a registration that runs while another thread syncs can be lost.
* C98: a table registered on an unlocked domain in use can never be had in the universes that exist: there is no add_tables.
* C99: select_rows on w.as_read() of a self-referencing table deadlocks silently, where the documentation of live_flush warns and that of as_read does not.
* C100: a panic of a tracker called by select_rows on w.as_read() aborts the process if w has pending changes (Drop for Write panics while panicking), where live_flush in the same situation takes them out first and only poisons the lock.
* C101: one poisoned lock spreads: every context that lists it poisons, when it is made, everything listed for writing before it, and everything handed over for writing; if what is handed over has pending changes the process aborts.
* C102: one forgotten flush, if its panic is caught, makes the table inaccessible for good, and each context that lists the table then takes others with it.

## Not modelled

* `unsafe` lifetime tricks (`RefA`/`MutA`, `transmute` of guards, `mem::zeroed` locks in `context!`) beyond
  their logical effect; drop order; memory allocation; `Debug`/`Display` text; `any_slice` downcasts
  outside C66 and C74 (the dynamic type is taken to match); `avec.rs` (not compiled).
* `table!`: types, visibility, `row_id` widths and the text that is generated (`Model/MacroConfig` covers the decisions).
* Threads (`Model/Threads`): trackers and handlers are fixed while they run (registration while threads run has its own model, `Model/TrackThreads`, C85, without rows), the guard in a poison error of `try_write` or `try_read` is dropped, `context!` has its own model
  (`Model/CtxThreads`, C81) without flushes, and as client code here (`Model/CtxFlush`, C86) without properties as fields, a thread that panics ends (the abort of C49 is not taken there), memory is sequentially consistent (every access
  is under a lock).
* Poisoning of a table's lock is modelled for one lock (C49), and for the locks of contexts of one thread (C101, C102, without rows). What a panic in the middle of a `Write` call leaves is
  modelled in `Model/Crash` (C70–C72: the table) and `Model/Unwind` (C79, C80: table and change list), for one lock; a panic of an
  observer in the middle of a flush in `Model/FlushPanic` (C82: the universe), a panic of the
  library's own code in the middle of a flush in `Model/FlushFail` (C92: the universe and the poisoned locks, for `flush` and `live_flush`; C93: histories).
* Registry: `gid2name`. Initialisers with effects are in `Model/Inits` (C94), for one thread; in the other models an initialiser is a value.
* User handlers and trackers with effects of their own occur in C75 only; `consider`, `sort` and `needs_sort` are pure there,
  and the poisoning a panic causes is left to C49 and C66. Elsewhere trackers are derived or observing.
* `reserve`.
* serde of whole universes beyond `Extraction`.
