{
 "C02": {
  "status": "proved",
  "note": "The overflow corner where next_pushed panics although push succeeds is itself proved."
 },
 "C30": {
  "status": "proved",
  "note": "Histories of add/edit/select, delete and clear sessions. Excluded, and stated in the hypotheses: clear of a table with deleted rows (C09), tables filled to the last id, duplicate ids where a sorted table is searched by an index (C29_double_delete_panics)."
 },
 "C35": {
  "status": "proved",
  "note": "C35_extract_all excludes a table whose last id is in use (iteration panics there, C14); sorted tables with trackers of their own are not covered (they cannot be parents of anything but may have observers)."
 },
 "C36": {
  "status": "proved",
  "note": "Includes the defects the statement names: sorted children keep old keys; an empty restore leaves the previous remapping."
 },
 "C37": {
  "status": "proved",
  "note": "accepts/rejects/panics characterised exactly."
 },
 "C38": {
  "status": "proved",
  "note": "Exact effect in both cases, and that the leak is permanent over every later history."
 },
 "C41": {
  "status": "proved",
  "note": "The property's INIT expression is taken to be constant. Twins of a different type panic on access (C41_readable)."
 },
 "C42": {
  "status": "proved",
  "note": "The registry is dead after such a panic: C62."
 },
 "C44": {
  "status": "proved",
  "note": "Kind, table version and trackers are not compared (src/tables.rs:218-228); the model compares what the code compares."
 },
 "C45": {
  "status": "proved",
  "note": "Exact list of trackers, including the doubled ones of a domain listed twice."
 },
 "C62": {
  "status": "proved",
  "note": "Also every locking of a table, as it looks the domain up in the registry."
 },
 "C12": {
  "status": "proved",
  "note": "C12_find is stated for the columns table! offers; find_spec for any lawful column. C12_find_exact/C12_find_misses_max: the two cases of the maximal id."
 },
 "C66": {
  "status": "proved",
  "note": "Modules are told apart by the TypeId of their types (OwnTypes). Locks are free between calls."
 },
 "C67": {
  "status": "proved",
  "note": ""
 },
 "C68": {
  "status": "proved",
  "note": "Of info only whether it returns."
 },
 "C69": {
  "status": "proved",
  "note": "One thread at a time. Registries are told apart by number, as the code does by address."
 },
 "C70": {
  "status": "proved",
  "note": "Closures only look at the table. For consistent tables a panic while rows were added or deleted under the same lock ends the process (C49); the model goes on, so it covers more."
 },
 "C71": {
  "status": "proved",
  "note": "C71_visit also covers panicking iterators returned by the closure, exactly; C71_visit_closure_panics is the readable case. Needs len() at most the largest row id (merge: and that many with the new rows), as the calls do otherwise too (C15, C21)."
 },
 "C72": {
  "status": "proved",
  "note": "Other calls on the table a failed push left may mix the values of two rows (example in Props/Overflow)."
 },
 "C73": {
  "status": "proved",
  "note": "Id types are integer ranges with or without overflow checks. C73_wraps is the release profile."
 },
 "C74": {
  "status": "proved",
  "note": "Memory is a partial map from addresses to typed arrays; from_raw_parts at the wrong type is UB in the model."
 },
 "C75": {
  "status": "proved",
  "note": "consider/sort/needs_sort are taken as pure. That a panic in a tracker also poisons a lock is in C49/C66, not here."
 },
 "C76": {
  "status": "proved",
  "note": "Model/Declared computes schemas, trackers and handlers from declarations (Model/MacroConfig) and is connected to Model/Registry (C76_universe) and to the cascade properties (C76_cascade, C76_no_dangling). #[foreign] and #[add_tracker] trackers are observers."
 },
 "C77": {
  "status": "proved",
  "note": "Counts of observer calls for every graph, proved from the fact that the flush returned; C77_exponential is a family of concrete universes of every length."
 },
 "C78": {
  "status": "proved",
  "note": "Calls outside the contract (positions out of range, swapping deleted positions, pushes beyond the row-id type) are not covered here; C70 and C72 say what tables do with those. C26 also covers out-of-range calls of BoolCol."
 },
 "C79": {
  "status": "proved",
  "note": "Model/Unwind keeps the change list as well as the table through a panic; it agrees with the two earlier models. Proved from the state and the calls. Defect: pushing onto a cleared table with deleted rows ends the process."
 },
 "C80": {
  "status": "proved",
  "note": "Up to the flush. Defect: an extraction that is bad after its first entry ends the process when restored into a consistent table, although its header is accepted."
 },
 "C81": {
  "status": "proved",
  "note": "Only locks: C81_agrees ties the actions to the log of Model/Context. A thread blocked by its own lock counts as blocked. The order needed is on the locks asked for, not on the contexts: C81_growing_deadlocks shows the latter is not enough."
 },
 "C82": {
  "status": "proved",
  "note": "The panic is that of an observing tracker; the thread's guards are released on the way (read guards and Flush guards do not poison). C82_dangling is the defect: with a tracker on a dependent table registered before its own dependants', a panic leaves dangling references that a second attempt does not repair."
 },
 "C83": {
  "status": "proved",
  "note": "UB in the model is get_unchecked out of bounds; the accesses of a thread's own closures (visit, merge0, retain) are inside the methods; contexts and kept CheckedRowIds are excluded (their defects are C47, C55, C57). Extraction: at most max+1 ids listed."
 },
 "C84": {
  "status": "proved",
  "note": "the mutex table is never asked for by the pieces themselves; that a cascade locks it is allowed (the thread then waits for itself, alone and in the process alike). Observer calls are not part of the state of the process; those of the run alone are in its log."
 },
 "C85": {
  "status": "proved",
  "note": "Trackers are any code that locks, flushes, selects and registers (nondeterministic choice among operation lists); rows are not part of this model (C75, C63–C65), and nothing panics."
 },
 "C86": {
  "status": "proved",
  "note": "Needs are proved for every flush that returned, with any trackers and handlers; the converse for acyclic foreign_auto graphs with standard kinds (removal) or searchable columns (no-op handler). Contexts: properties as fields and a field type named twice are in C47/C81 only."
 },
 "C87": {
  "status": "proved",
  "note": "Memory is taken to be sequentially consistent except for the static Prop, of which a racing reader can see all, nothing, or the domain without the place; property initialisers are values; guards that are kept over several calls are in C63-C65."
 },
 "C88": {
  "status": "proved",
  "note": "Finding the property's place, which may set its static Prop, is one step (C87 has its parts). Memory is sequentially consistent. `Drop` of values does not panic. Whether std lets readers pass waiting writers is left open: the no-deadlock theorem covers both. A thread that asks for a lock it has itself waits; std may panic instead."
 },
 "C89": {
  "status": "proved",
  "note": "C89_any_tables: any tables, sorted or not, ids left alone or not; C89_dangling: exactly when a foreign key is bad afterwards; C89_sorted_broken: the defect of sorted tables; C89_save_load: every row arrives, keys follow (no sorted tables); C89_keys_stay_good: referential integrity; C89_into_empty, C89_identical: an empty target; C89_children_first: the wrong order panics."
 },
 "C90": {
  "status": "proved",
  "note": "C90_write: any Sink; C90_read: any SeqInput; C90_promise_believed, C90_read_too_long: the panics"
 },
 "C91": {
  "status": "proved",
  "note": "C91_ids_are_peak, C91_push_array_leaks"
 },
 "C92": {
  "status": "proved",
  "note": "C92_agrees ties the model to the one of the other theorems; what a deadlock, undefined behaviour or stack overflow leaves means nothing"
 },
 "C93": {
  "status": "proved",
  "note": "histories in which the process ends (abort, deadlock, undefined behaviour, stack overflow) have no state afterwards; C93_usable and C93_stuck assume that what the caller hands to a call does not panic inside it (it may between calls); C93_salvaged covers those too"
 },
 "C94": {
  "status": "proved",
  "note": "the initialisers' programs are over the calls of the registry, properties and tables of Model/Registry; one thread; a second lock of the registry by its holder is taken to wait forever (std allows a panic instead)"
 },
 "C95": {
  "status": "proved",
  "note": "both universes have the same tables and tracker lists; not modelled: another universe that lacks the table's domain (indexing panics), and its remapping of deserialised ids"
 },
 "C96": {
  "status": "proved",
  "note": "the borrow checker is modelled as: a context borrows the universe passed to make it, a moved context cannot be used, a borrowed universe cannot be dropped; one thread; what is done through the locks is not modelled here"
 },
 "C97": {
  "status": "proved",
  "note": "what a call does with the locked registry is an arbitrary function, done in one step; handles are numbers of registries and can be used by anybody; memory is sequentially consistent"
 },
 "C98": {
  "status": "proved",
  "note": "one thread (threads: C87); initial values as in Model/Registry"
 },
 "C99": {
  "status": "proved",
  "note": "observers are trackers that only look; trackers that lock tables themselves: C75"
 },
 "C100": {
  "status": "proved",
  "note": "what is left by undefined behaviour, a deadlock or a stack overflow is not stated"
 },
 "C101": {
  "status": "proved",
  "note": "what is left by undefined behaviour (two lock types of one name) and deadlocks is not stated"
 },
 "C102": {
  "status": "proved",
  "note": "one thread; deadlocks, undefined behaviour and aborts end the run"
 }
}