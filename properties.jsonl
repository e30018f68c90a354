{"id": "C01", "title": "push on a consistent table returns a fresh id and changes nothing else", "statement": "On a consistent table, `push(row)` (when it does not panic) returns an id that was not live before, is live afterwards and holds exactly the pushed row; every other id keeps its liveness and its row. `push` does not panic unless the table is full for its row-id type.", "quantifier": "every well-formed table (any schema, any columns, indexed or not, any free list), every row", "why_tests_cant": "depends on the whole history of deletes that shaped the free list, for every column storage and every schema", "anchors": ["macros/output.rs: push, push_end_unchecked, push_only_unchecked, swap_out_row", "src/map_index.rs: BTreeIndex", "src/storage.rs: VecCol, BoolCol"]}
{"id": "C02", "title": "next_pushed predicts push; push always takes the lowest non-live id", "statement": "On a consistent table `push` returns exactly what `next_pushed` returned just before, and that id is the least id that is not live (lowest deleted id, else the length). `next_pushed` itself panics on a full-width table (len = 2^bits) even if deleted rows are available, while `push` succeeds there.", "quantifier": "every well-formed consistent table and row, every row-id width", "why_tests_cant": "needs every free-list shape; the overflow corner needs 2^bits rows", "anchors": ["macros/output.rs: push, next_pushed"]}
{"id": "C03", "title": "ids are stable across every history of consistent-table operations", "statement": "In any history of push / push_array / delete / edit-of-another-row / flush / live_flush on a consistent table, an id that is live and never selected for a removal flush keeps its row: the same id reads the same values at the end.", "quantifier": "every finite sequence of operations from every well-formed table", "why_tests_cant": "quantifies over unbounded operation histories", "anchors": ["macros/output.rs: Write (consistent)"]}
{"id": "C04", "title": "delete is deferred: nothing changes until the flush", "statement": "`delete(id)` panics if the id is out of range or already deleted; otherwise the table contents, liveness, iteration and index lookups are unchanged, and the id is only recorded for the next flush.", "quantifier": "every consistent table and id", "why_tests_cant": "all tables and ids", "anchors": ["macros/output.rs: delete, event_del", "src/index.rs: Checkable::check"]}
{"id": "C05", "title": "iteration over a consistent table yields exactly the live rows, ascending, once", "statement": "`iter()`/`range(r)`/`editing()` on a consistent table yields precisely the ids in range that are live, in strictly increasing order, each once. (They panic on a table with 2^bits rows.)", "quantifier": "every well-formed table, every range within the table", "why_tests_cant": "the merge-skip against the free list must be right for every free-list shape", "anchors": ["src/index.rs: ConsistentIter, EditIter, CheckedIter", "src/joincore.rs: join", "macros/output.rs: range, iter, editing, row_range"]}
{"id": "C06", "title": "flush deletes exactly the marked rows, and only for removal events", "statement": "`flush(event)` with a removal event makes exactly the rows marked since the lock was taken dead (idempotently if marked twice) and leaves all others; with a non-removal event no row changes. With nothing marked, flush does nothing and calls no tracker.", "quantifier": "every well-formed table, every change list, every event", "why_tests_cant": "all change lists incl. duplicates", "anchors": ["macros/output.rs: flush, live_flush, delete_raw"]}
{"id": "C07", "title": "pushes and deletes cannot be flushed together", "statement": "If both a push and a delete/clear happened under one write lock, flush panics before any tracker is told and before any row is removed; likewise for an event that is both creation and removal.", "quantifier": "every operation sequence under one lock", "why_tests_cant": "unbounded sequences", "anchors": ["src/tracking.rs: do_flush", "macros/output.rs: event_add, event_del, event_cleared"]}
{"id": "C08", "title": "dropping a consistent write lock with unflushed changes panics; flushed or untouched locks never do", "statement": "The drop of a consistent table's write lock panics iff some push/delete/clear/select happened since the lock was taken or last flushed.", "quantifier": "every operation sequence under one lock", "why_tests_cant": "unbounded sequences", "anchors": ["macros/output.rs: impl Drop for Write"]}
{"id": "C09", "title": "what clear followed by a removal flush leaves", "statement": "After `clear()` and `flush(DELETE)` a consistent table is empty. If no row of it was deleted before, it then behaves as a new table: the next push gets id 0 and is visible. Otherwise the free list survives: the next push panics, and rows appended by push_array are stored but invisible under the ids that had been deleted.", "quantifier": "every well-formed consistent table", "why_tests_cant": "needs delete history followed by clear followed by push", "anchors": ["macros/output.rs: clear, clear_raw, event_cleared, flush"]}
{"id": "C10", "title": "all columns of a table always have equal length", "statement": "After any history of public structural operations of any table kind, all columns have the same length, which is `len()`; a row read gathers one element per column from the same row.", "quantifier": "every schema (any number and kind of columns), every operation history", "why_tests_cant": "unbounded histories and schemas; columns are independent containers mutated one after another", "anchors": ["macros/output.rs: push_only_unchecked, truncate, clear_raw, swap_out_row, swap, delete_raw, merge0, merge_logged, remove_rows"]}
{"id": "C11", "title": "no checked API path performs an out-of-bounds unchecked access", "statement": "Every unchecked column access reached from push, delete, iteration + indexing, get_row, merge, retain, visit, remove_rows, flush, index maintenance is in bounds, in every history; the only failures are explicit panics.", "quantifier": "every schema and history", "why_tests_cant": "memory safety must hold for all inputs", "anchors": ["src/columns.rs: Index", "src/storage.rs", "src/map_index.rs", "macros/output.rs"]}
{"id": "C12", "title": "index find returns the live rows holding the key, ascending", "statement": "`table.col.find(k)` on an indexed column of any table yields exactly the live ids below the row-id type's maximum whose element equals k, strictly increasing. (A live row whose id is the maximum itself is never found; if that id is unused the answer is exact.)", "quantifier": "every well-formed table in every history, every key", "why_tests_cant": "all histories of push/delete/swap/truncate/merge that maintain the index", "anchors": ["src/map_index.rs: find, push, unchecked_swap_out, unchecked_swap, deleted, truncate, clear"]}
{"id": "C13", "title": "index range returns exactly the live rows with key in [lo, hi]", "statement": "`table.col.range(lo, hi)` yields exactly the live ids (below the id type's maximum for key hi) whose element is between lo and hi inclusive, ordered by (element, id); it panics iff lo > hi.", "quantifier": "every well-formed table, every lo, hi", "why_tests_cant": "all histories", "anchors": ["src/map_index.rs: range"]}
{"id": "C14", "title": "indexed columns cannot be edited in place", "statement": "No in-place mutation of an indexed column's element succeeds (mutable access panics), so index and data cannot diverge; for unindexed columns an in-place write changes exactly that element.", "quantifier": "every column, row and value", "why_tests_cant": "all states", "anchors": ["src/map_index.rs: unchecked_index_mut", "macros/output.rs: COL_MUT", "src/columns.rs: EditA, MutA"]}
{"id": "C15", "title": "merge keeps a sorted table sorted and loses or duplicates no row", "statement": "After `merge(rows)` the sorted table is sorted by its key and its rows are, as a multiset, the old rows plus the new ones — for every sorted table and every (sorted) input, including duplicates and empty.", "quantifier": "every sorted table, every sorted input sequence", "why_tests_cant": "the in-place rug algorithm must be right for all sizes and key patterns", "anchors": ["macros/output.rs: merge, merge_logged", "src/assert_sorted.rs"]}
{"id": "C16", "title": "merge_logged reports the final ids of the new rows", "statement": "Each id passed to `log` by merge_logged is, when merge finishes, the position of the corresponding new row; one call per new row, ids strictly increasing. merge_in_a_single_row returns the position of its row.", "quantifier": "every sorted table and sorted input", "why_tests_cant": "all sizes and key patterns", "anchors": ["macros/output.rs: merge_logged, merge_in_a_single_row"]}
{"id": "C17", "title": "where merge puts rows with equal keys", "statement": "After merging rows into a sorted table the first new row precedes every existing row with its key, while every other new row follows all existing rows with its key. So merge is stable (existing rows first), as the code's comments claim, exactly when no existing row has the first new row's key.", "quantifier": "every sorted table and sorted input", "why_tests_cant": "all key patterns", "anchors": ["macros/output.rs: merge_logged choose"]}
{"id": "C18", "title": "remove_rows on a sorted table removes exactly the listed rows", "statement": "`remove_rows(ids)` on a sorted table with strictly increasing in-range ids leaves exactly the other rows in their original order; it panics without effect for unsorted, duplicate or out-of-range ids.", "quantifier": "every table, every id list", "why_tests_cant": "unchecked swaps driven by caller data", "anchors": ["macros/output.rs: Write::remove_rows (sorted)"]}
{"id": "C19", "title": "retain keeps exactly the rows satisfying the predicate, in order", "statement": "`retain(f)` leaves exactly the rows for which f was true, in order, calling f once per original row; f sees the row's original contents at that id.", "quantifier": "every table (non-consistent kinds), every predicate", "why_tests_cant": "all sizes and predicates", "anchors": ["macros/output.rs: retain, merge0"]}
{"id": "C20", "title": "clear empties append and bag tables at once and does nothing to sorted and list tables", "statement": "`clear()` on an append or bag table removes every row immediately; on a sorted or list table it does nothing at all, so no call empties those at once. (Consistent tables are emptied by the flush: C09.)", "quantifier": "every table kind and state", "why_tests_cant": "behaviour differs per generated kind", "anchors": ["macros/output.rs: event_cleared"]}
{"id": "C21", "title": "visit applies removals and insertions positionally", "statement": "`visit(f)` produces, for each original row in order, the row (unless removed) followed by its added rows; after Break the remaining rows are kept unchanged. f is called once per original row until Break and sees that row's original contents; added rows are not visited.", "quantifier": "every append/bag/list table, every visitor", "why_tests_cant": "the in-place rug algorithm must be right for all removal/insertion patterns", "anchors": ["macros/output.rs: merge0, visit", "src/lib.rs: Action"]}
{"id": "C22", "title": "bag delete removes exactly one row and moves at most the last row", "statement": "`delete(id)` on a bag removes exactly that row; the former last row takes its id; all other ids keep their rows.", "quantifier": "every bag table and id", "why_tests_cant": "all tables, all columns incl. indexed", "anchors": ["macros/output.rs: bag delete, delete_raw"]}
{"id": "C23", "title": "bag iter_mut visits every row exactly once and deletes exactly the marked ones", "statement": "Draining `iter_mut()` on a bag visits each original row exactly once whatever subset is marked for deletion along the way; afterwards exactly the unmarked rows remain.", "quantifier": "every bag table and every deletion pattern", "why_tests_cant": "swap-remove while iterating; all patterns. ", "anchors": ["src/index.rs: BagIter::next, Drop"]}
{"id": "C24", "title": "JoinCore implements a merge join", "statement": "Driving `join` with an ascending left sequence over an ascending right sequence yields Match exactly for the left items present on the right, Stop only when no right item remains at or above the left item; join_next consumes matches.", "quantifier": "every pair of ascending sequences", "why_tests_cant": "all sequences", "anchors": ["src/joincore.rs: join, join_next, cmp"]}
{"id": "C25", "title": "RowRange operations agree with the set of ids in the range", "statement": "`contains`, `len`, `inner_index`, iteration, `on` and `empty` agree with {i | start ≤ i < end}; `offset(n)` is Some(start+n) iff start+n is in the range, except that offset(len) is Some(end), which is not; `intersects` of non-empty ranges iff they share an id, but an empty range strictly inside another one also intersects it. `len` and `on` panic exactly on reversed ranges and on the maximal id.", "quantifier": "all ranges over all row-id widths", "why_tests_cant": "boundaries", "anchors": ["src/index.rs: RowRange"]}
{"id": "C26", "title": "BoolCol behaves as a vector of booleans", "statement": "Any sequence of push/index/index_mut/swap/swap_out/truncate/clear on a BoolCol is observationally a Vec<bool>, although mutable access goes through a one-element cache.", "quantifier": "every operation sequence", "why_tests_cant": "cache coherence over unbounded sequences", "anchors": ["src/storage.rs: BoolCol"]}
{"id": "C27", "title": "trackers are told every flushed change, in registration order, sorted on request, before removal", "statement": "On flush with a non-empty change set each interested tracker is called exactly once, in registration order, with exactly the changed rows (same multiset; ascending if the tracker asks), while the rows being deleted are still live in the flushed table.", "quantifier": "every change set, every tracker list, every event", "why_tests_cant": "all lists of trackers and change lists", "anchors": ["src/tracking.rs: do_flush", "macros/output.rs: flush"]}
{"id": "C28", "title": "trackers can only be attached to consistent tables", "statement": "register_tracker on a table without the consistent guarantee panics and leaves the tracker list unchanged; on a consistent table it appends.", "quantifier": "every table and registration history", "why_tests_cant": "all histories", "anchors": ["src/tracking.rs: register_tracker"]}
{"id": "C29", "title": "deleting rows cascades to exactly the dependent rows (foreign_auto)", "statement": "With an acyclic foreign_auto graph whose dependants are consistent or sorted tables, flush(DELETE) of a set of rows removes exactly those rows and every row that transitively references one of them through a foreign_auto column; all other rows of all tables survive unchanged (and consistent tables keep their ids).", "quantifier": "every acyclic schema graph, every universe state, every deletion set", "why_tests_cant": "arbitrary graphs incl. diamonds, arbitrary depth and contents", "anchors": ["macros/output.rs: foreign_auto tracker, select_*, remove_rows", "src/event.rs: Function::run, DeleteHandler", "src/tracking.rs: do_flush"]}
{"id": "C30", "title": "referential integrity holds in every history", "statement": "If every pushed row references live parent rows at push time and parents are only deleted via flush with a removal event, then after every step each live row's foreign_auto columns reference live rows.", "quantifier": "every sequence of pushes and delete+flush over every acyclic schema graph", "why_tests_cant": "unbounded histories over arbitrary graphs", "anchors": ["macros/output.rs: foreign_auto", "src/event.rs: Function::run"]}
{"id": "C31", "title": "flush terminates without deadlock", "statement": "With an acyclic foreign_auto graph, flush never tries to write-lock a table it already holds read-locked and recursion is bounded by the graph's depth. With a cycle at or below the flushed table (including a self-reference) no flush of a non-empty change set returns: flush(DELETE) of deleted rows deadlocks, clear()+flush(DELETE) and flush(CREATE) recurse without bound — even when no row matches.", "quantifier": "every schema graph, every state", "why_tests_cant": "termination for all graphs; non-termination cannot be tested", "anchors": ["src/event.rs: Function::run", "macros/output.rs: foreign_auto, remove_rows, flush"]}
{"id": "C32", "title": "clearing a parent clears its dependants", "statement": "clear()+flush(DELETE) on a parent empties every (transitive) foreign_auto dependant that is consistent or sorted — including rows that reference no live parent row.", "quantifier": "every acyclic graph and state", "why_tests_cant": "arbitrary graphs and contents", "anchors": ["macros/output.rs: select_*, remove_rows", "src/event.rs"]}
{"id": "C33", "title": "which rows trackers can still see in a removal", "statement": "In a removal flush the trackers of the flushed table itself are called with a non-empty selection of exactly the marked rows and can still access them. The trackers of tables reached by the cascade are called after their rows are gone, and possibly with an empty selection: none of the rows they are told about is ever accessible (contrary to the documentation of Tracker and Select).", "quantifier": "every tracker at every cascade depth", "why_tests_cant": "order of effects across recursive cascades", "anchors": ["src/tracking.rs: Tracker::handle docs, Select docs", "src/event.rs: Function::run"]}
{"id": "C34", "title": "column (de)serialisation round-trips", "statement": "Serialising a column then deserialising it yields a column with the same elements, for plain, boolean (with pending cached writes) and indexed columns — and for indexed columns the rebuilt index finds exactly those rows.", "quantifier": "every column content", "why_tests_cant": "all contents", "anchors": ["src/serial.rs", "src/map_index.rs: Serialize"]}
{"id": "C35", "title": "extract then restore into an empty table reproduces the rows", "statement": "Restoring an extraction of selection s into an empty table of the same schema yields exactly the selected rows in selection order (unsorted tables: ids 0..n-1), validate accepts it, and the flush reports exactly those ids.", "quantifier": "every table, every selection", "why_tests_cant": "all contents and selections", "anchors": ["macros/output.rs: extract_selection, restore_extract, Extraction::into_iter"]}
{"id": "C36", "title": "restored foreign keys follow the parent's remapping, except in sorted tables", "statement": "When parents are restored first and get new ids, restored children's foreign_auto columns reference the new ids of live parents with the contents they referenced when extracted; everything else in them is as extracted; a key without a new id makes the restore panic. Sorted children keep their old keys, whatever the remapping says. Restoring an extraction without rows leaves the previous remapping in force.", "quantifier": "every pair of extractions, every remapping", "why_tests_cant": "all contents", "anchors": ["macros/output.rs: restore_extract MERGE_EXTRACT", "src/tracking.rs: set_remapping, remap"]}
{"id": "C37", "title": "validate accepts exactly matching extractions", "statement": "restore_extract accepts exactly the extractions whose format, domain, name, schema version and columns (name, type, version, count) are the table's; it returns Err and leaves the table untouched otherwise, except that it panics when the header fits and the extraction has fewer columns than the table.", "quantifier": "every extraction header", "why_tests_cant": "all headers", "anchors": ["macros/output.rs: Extraction::validate"]}
{"id": "C38", "title": "what live_flush leaves behind", "statement": "After live_flush of a table without a remapping everything it acquired is released: the table can still be flushed, registered on and restored. If a remapping is set, the flush lock stays read-locked for ever, the remapping is not cleared, and in every later history the next restore_extract or register_tracker blocks.", "quantifier": "every flush state, every history of live_flushes", "why_tests_cant": "lock leak across histories", "anchors": ["macros/output.rs: live_flush", "src/tracking.rs: has_remapping, set_remapping"]}
{"id": "C39", "title": "domain registration is idempotent and ids are dense and permanent", "statement": "After any sequence of domain registrations, ids are 0..n-1 in first-registration order, distinct names have distinct ids, a name's id never changes, and re-registration changes nothing.", "quantifier": "every registration sequence", "why_tests_cant": "unbounded histories", "anchors": ["src/domain.rs: DomainName::register, get_id"]}
{"id": "C40", "title": "distinct properties never share a cell; twins always do", "statement": "In every universe created after any registration sequence, two properties with different names in the same domain read and write different cells, and all twins (same name) use the same cell, holding the value produced by the first registrant.", "quantifier": "every registration sequence with any number of twins/aliases", "why_tests_cant": "unbounded histories of (re)registration", "anchors": ["src/property.rs: Prop::init, sync_alias", "src/domain.rs: instantiate"]}
{"id": "C41", "title": "property get/set/swap are a per-universe register", "statement": "`get` returns the last value `set`/`swap`ped in the same universe on a property of the same name, else its initial value; other properties and other universes are unaffected.", "quantifier": "every sequence of operations on any number of universes and properties", "why_tests_cant": "unbounded histories", "anchors": ["src/property.rs: get, set, swap, Index"]}
{"id": "C42", "title": "a domain in use cannot grow", "statement": "Once a domain is part of a universe, registering on it a property that was not registered or used before, or any table (even one already registered), panics and changes no domain, universe or property (but the registry is dead, C62). Hence no universe ever lacks a property of a domain it has: add_properties never has anything to do and the 'added after the universe was created' panic is unreachable. Accessing a property nobody registered, or one of a domain the universe lacks, panics.", "quantifier": "every history of registrations, universe creations and accesses", "why_tests_cant": "unbounded histories", "anchors": ["src/domain.rs", "src/property.rs: Prop::init, Index", "src/tables.rs: register"]}
{"id": "C43", "title": "names are validated exactly", "statement": "check_name accepts exactly the strings matching [A-Za-z][A-Za-z0-9_]*; a property is accepted iff it is `domain/name` with both parts valid and the domain part equal to its domain.", "quantifier": "every string", "why_tests_cant": "all strings", "anchors": ["src/intern.rs: check_name", "src/property.rs: Prop::check_name"]}
{"id": "C44", "title": "table registration: same columns is a no-op, different columns panic", "statement": "On a domain no universe was asked to have, registering a table returns iff its names are valid, its column names distinct, its domain registered, and any table registered under that name has the same columns (name, type, version, in order). Registering a registered name again never changes anything: the first table's kind and trackers stay whatever the second says.", "quantifier": "every history, every table", "why_tests_cant": "all histories", "anchors": ["src/tables.rs: register, equivalent, add_column"]}
{"id": "C45", "title": "which trackers a universe's tables have", "statement": "In a universe made by Universe::new(names), the trackers of each table are exactly those declared for it by the tables of the listed domains, in order, once for every time the declaring domain is listed (so [D, D] doubles them). add_domain of a domain the universe has returns and changes nothing; of another one, if it returns, it gives the new domain's tables the trackers they declare for each other and every other table exactly the new domain's in addition; if it panics the domain is in the universe all the same and the next add_domain returns. Universe::new returns exactly if the registry is alive, the domains are registered, and every tracker declared is on a table of a listed domain and fits it; add_domain exactly if the registry is alive, the domain is registered, and it is in the universe already or each tracker it declares fits and is on a table of its own or on one whose lock is not poisoned of a domain of the universe.", "quantifier": "every history and domain list", "why_tests_cant": "all histories and lists", "anchors": ["src/lib.rs: Universe::new", "src/domain.rs: get_domains, add_domain, init_domain"]}
{"id": "C46", "title": "default event handlers follow the event's kind", "statement": "For every built-in event the default handler deletes for removal events, does nothing for creation events, and panics otherwise; the removal events are DELETE, UNLOAD, UNSYNCED and MOVE_OUT, the creation events CREATE, DESERIALIZE, SYNCED and MOVE_IN, none is both; ids are distinct and below the limit. Every other id below 32 panics by default, whatever the custom event says it is, and ids from 32 on cannot be looked up, so with the default handlers a custom removal event can never be flushed once a dependant exists. After any history of EventHandlers::add the handler of an event is the last one added under its id, or the default; add refuses exactly INVALID_EVENT and ids from 32 on and returns the handler that was in place. The Debug text of an event is the constant's name for a built-in's id and CUSTOM_<id> otherwise; events with different ids print differently. (INVALID_EVENT's handler is still replaceable, through another Event value with id 0.)", "quantifier": "all events and handler-replacement histories", "why_tests_cant": "all histories", "anchors": ["src/event.rs: EVENT_LIST, EventHandlers"]}
{"id": "C47", "title": "context transfer re-uses held locks, acquires the missing ones, leaks none", "statement": "When `Ctx::from(universe, old)` returns it holds one lock per field, of the field's type: each lock present in both is moved without unlocking, all extra ones are released before any missing one is acquired, and the thread holds exactly those locks and the ones it held outside `old`, no two of which exclude each other. It returns whenever the new context excludes neither itself nor locks held outside `old`, the old locks are flushed, and lock types with equal names are equal. It does not return if an unflushed lock has no place in the new context; and handing over a lock to a field of another type with the same name (twin properties) is undefined behaviour. `new` is `from` the empty tuple.", "quantifier": "every pair (or tuple) of contexts, every set of locks held", "why_tests_cant": "all field lists", "anchors": ["src/context.rs"]}
{"id": "C48", "title": "a flush and other threads: what happens while its lock is released", "statement": "flush releases the table's lock while the trackers run. When the flushing thread gets the lock back, the ids that were marked are removed from whatever the table is by then, and nothing else changes: if the other threads spared the marked rows (added rows, edited or deleted others) exactly the marked rows are gone and no other row, old or new, is lost; a row of a dependent table that refers to a marked row and was stored after the trackers ran is left dangling; a row another thread has stored meanwhile under a marked id is lost although nobody deleted it; if the table is shorter than a marked id by then, flush panics. That happens among threads that take their locks in order, even if the other thread keeps the parent's table locked for reading from checking that the parent is there until its child is stored. Without other threads a flush is what the single-threaded theorems say.", "quantifier": "every table, every set of marked rows, every behaviour of other threads while the lock is released", "why_tests_cant": "schedules", "anchors": ["macros/output.rs: flush"]}
{"id": "C49", "title": "what the locking functions answer after any history of a table's lock", "statement": "read_result/try_read (write_result/try_write) wait or say WouldBlock exactly while a write guard (any guard) is out; otherwise they give access to the table as it was last left, Ok or Poisoned, Poisoned exactly if at some time a write guard was dropped by a panic or dropped with unflushed changes; read() and write() then panic. A new write guard has no changes recorded. A write guard leaves the table as flush did, else as the calls made on it did, even if it ended badly. The process aborts exactly when a thread panics while it holds the write guard of a consistent table with unflushed changes (the guard's destructor panics again).", "quantifier": "every history of reads, writes, calls, flushes, drops and panics on a lock", "why_tests_cant": "all histories", "anchors": ["src/intern.rs: wrangle_lock", "macros/output.rs: convert_read_guard, convert_write_guard, read, write, Drop for Write"]}
{"id": "C50", "title": "which table! invocations compile, and what they mean", "statement": "Code is generated exactly for invocations with one kind attribute of a known name, well-formed and known attributes, at most one sort_key column and that only in sorted tables, Clone derived if saved or Copy, a domain, a name and at least one column, trackers only on consistent tables, and an index or the sort key on every foreign_auto column; the configuration is then the one written down (columns in order with their flags, trackers in order, guarantees of the kind: consistent, sorted, or secret ids for bags and lists), and the operations that exist are those the kind allows (retain and visit need Clone as well). No domain, name or columns, Copy without Clone, or trackers on another kind do not stop compilation: a message is printed and nothing is generated. Everything else is a compile error. (An add_tracker or row_derive attribute of another form is ignored.)", "quantifier": "every sequence of attributes and columns", "why_tests_cant": "all attribute sequences", "anchors": ["macros/table.rs: set_kind, validate_guarantees, validate", "macros/parse.rs: parse_table", "macros/lib.rs", "macros/output.rs: foreign_auto"]}
{"id": "C51", "title": "push_array returns a contiguous range holding the pushed rows in order", "statement": "push_array(rows) returns start..start+n with row k at start+k, where start is the old length, ignoring free ids; all other rows unchanged. It panics exactly if the new length exceeds the id type. An empty push_array returns an empty range, but one that `table.range(..)` refuses with a panic.", "quantifier": "every table and row list", "why_tests_cant": "all sizes", "anchors": ["macros/output.rs: push_array", "src/index.rs: RowRange::empty, CheckedIter::from"]}
{"id": "C52", "title": "what a flush removes from a bag when several rows are selected", "statement": "Rows selected for a removal flush of a bag are removed one after the other in selection order, each time moving the then last row into the gap, with the ids as they were selected. So exactly the selected rows go if there is one or the ids are strictly descending; in other orders rows that were not selected may go instead. It panics exactly if an id was out of range or there are more ids than rows.", "quantifier": "every bag, every selection", "why_tests_cant": "all selections", "anchors": ["macros/output.rs: flush, bag delete_raw"]}
{"id": "C53", "title": "append tables keep rows and ids under pushes and edits", "statement": "In any history of push/push_array/edit on an append table every id keeps its row, rows are in push order and ids are assigned 0,1,2,…. retain, visit and clear also exist on append tables, and remove and move rows.", "quantifier": "every history", "why_tests_cant": "unbounded histories", "anchors": ["macros/output.rs: merge functions, visit, event_cleared", "macros/table.rs: TableKind::Append"]}
{"id": "C54", "title": "skip_fast and size_hint of row iterators are exact", "statement": "`it.skip_fast(n)` yields what skipping n ids yields, also past the end (panics iff start+n exceeds the id type); on consistent tables deleted ids count as skipped. size_hint is the exact number of remaining ids unless the iterator was skipped past its end, where it underflows (panics) although nothing is left.", "quantifier": "every iterator state and n", "why_tests_cant": "boundaries", "anchors": ["src/index.rs: CheckedIter, UncheckedIter, ConsistentIter, EditIter"]}
{"id": "C55", "title": "what a checked row id guarantees", "statement": "A CheckedRowId obtained from a table reads that table's row without further checks, as get_row shows it. It is accepted by every other table of the same type as well (the guard is behind cfg!(debug), which is never set): if that table has a stored row of this id its cell is read, deleted or not; otherwise the access is undefined behaviour (a panic in bool columns).", "quantifier": "every pair of tables of one type, every id", "why_tests_cant": "all pairs of tables", "anchors": ["src/index.rs: Checkable for CheckedRowId", "src/columns.rs: Index<CheckedRowId>"]}
{"id": "C56", "title": "a sorted table is sorted in every history", "statement": "After every step of every history of public operations, with AssertSorted inputs sorted and without in-place edits of the sort key, the rows of a sorted table are ascending by its sort key. If the sort-key column is not indexed it can be edited in place, which breaks the order.", "quantifier": "every finite sequence of operations", "why_tests_cant": "unbounded histories", "anchors": ["macros/output.rs: merge_logged, remove_rows, retain, EditA (COL_MUT)", "src/assert_sorted.rs"]}
{"id": "C57", "title": "which row Deletable::delete deletes", "statement": "While iterating a bag with iter_mut, calling delete() on a Deletable deletes the row the iterator yielded last: its own row if called before the next next(), otherwise another row, because the mark is shared by all Deletables of the iterator. So however a program interleaves next() and delete() of the Deletables it has kept, a row goes exactly if delete() was called on any of them while that row was the last one yielded; all others stay, and no row is yielded twice.", "quantifier": "every bag, every sequence of calls", "why_tests_cant": "all iteration states", "anchors": ["src/index.rs: Deletable, BagIter"]}
{"id": "C58", "title": "selecting rows for removal through a read lock", "statement": "t::read(u).select_rows(u, removal event, rows) removes every row of other tables that transitively references rows, but the table itself, including those rows, is unchanged.", "quantifier": "every acyclic schema graph, every reachable universe, every selection", "why_tests_cant": "all graphs and states", "anchors": ["macros/output.rs: Read::select_rows", "src/tracking.rs: do_flush"]}
{"id": "C59", "title": "foreign_auto in tables that cannot lose rows", "statement": "If a table has a foreign_auto dependant that is append, bag or list, then no flush of it with a deleting event returns once anything is marked, even if no row matches.", "quantifier": "every graph, state, stack depth", "why_tests_cant": "all states", "anchors": ["macros/output.rs: Table::remove_rows", "src/event.rs: DeleteHandler"]}
{"id": "C60", "title": "live_flush does what flush does and keeps the lock", "statement": "Whatever is marked and whatever the event, live_flush does what flush would have done, the same panic included: the same rows in every table and the same calls of trackers; the write lock stays held, and its change list is empty and usable afterwards. The exception is that it may deadlock waiting for its own lock, which cannot happen in an acyclic graph. In particular live_flush after deletions removes exactly the rows that have to go.", "quantifier": "every graph, universe, change list and event", "why_tests_cant": "all graphs and states", "anchors": ["macros/output.rs: live_flush"]}
{"id": "C61", "title": "events nobody handles", "statement": "Flushing with an event whose handler is the panicking default panics iff something is marked and the table has a foreign_auto dependant, whatever is in it; with observers only it returns and changes nothing.", "quantifier": "every graph, state, change list", "why_tests_cant": "all states", "anchors": ["src/event.rs: PanickingHandler, Function::run", "src/tracking.rs: do_flush"]}
{"id": "C62", "title": "one panicking registration kills the registry", "statement": "If a registration of a property or table panics for a reason that is not about the table's own names, or a universe is created with an unregistered domain, or a property nobody registered is accessed, the process-wide registry is dead: every later registration, universe creation or extension, locking of any table and register_tracker panics and changes nothing, forever. Properties already used keep working in existing universes. Nothing else kills it; registering or adding a domain never does.", "quantifier": "every history with caught panics", "why_tests_cant": "unbounded histories with panics", "anchors": ["src/property.rs: Prop::init, sync_alias", "src/tables.rs: register", "src/domain.rs: get_domains", "src/intern.rs: PBox"]}
{"id": "C63", "title": "threads that take their locks in order never deadlock", "statement": "Any number of threads, each running any sequence of write, method calls, flush, live_flush, restore_extract (without foreign columns), drop, read, select, try_write, try_read, its choices depending on the rows it reads, over tables whose foreign_auto graph is acyclic: if every thread asks for tables from referenced to referencing ones (those a flush will lock included; try_write and try_read may ask for any table at any time, and go on either way), then in every schedule, whether or not waiting writers go before readers, some thread can go on until all have returned or panicked, and no schedule is infinite. Panics on the way only poison the locks the thread was writing to. Out of order there are deadlocks: two threads writing to two tables in opposite orders; a restore_extract of a child against a live_flush of its parent (each thread asks for one guard only); and, if writers go first, a restore_extract with two foreign columns of one parent against any write to that parent.", "quantifier": "every number of threads, scripts, tables, acyclic graph, schedule, and reader/writer policy", "why_tests_cant": "schedules", "anchors": ["macros/output.rs: write, read, flush, live_flush, select_rows, restore_extract", "src/tracking.rs: do_flush", "src/event.rs: Function::run"]}
{"id": "C64", "title": "threads cannot disturb each other's guards, and leave every table well formed", "statement": "In every schedule of any threads, whatever guards they ask for (waiting, or with try_write and try_read) and in whatever order, whatever they flush, select or restore, whatever foreign_auto relations there are (cyclic too): while a thread has a read or write guard on a table no other thread changes its rows or has a write guard; and at every moment every table is what some history of public operations produces, so everything proved about such tables (valid free list, indexes agreeing with the rows, …) holds in every schedule. A thread that runs alone behaves as the single-threaded theorems say.", "quantifier": "every number of threads, scripts, tables, schedule", "why_tests_cant": "schedules", "anchors": ["macros/output.rs: write, flush, live_flush, restore_extract", "src/tables.rs: GenericTable locks"]}
{"id": "C65", "title": "concurrent units of work are serialisable; no update is lost", "statement": "Any number of threads, each running any sequence of units of work (lock a table for writing, look at its rows, call methods depending on what is there, flush with an event that neither removes rows nor has the deleting handler): in every state of every schedule the tables are as if the units that have taken effect had been run one after another by one thread, each thread's in its own order, and all of them once a thread has returned. So if threads store f of what they read in a cell, k times in total, the cell ends as f applied k times and nothing else changes. (With removal events this fails: C48.)", "quantifier": "every number of threads, units of work, tables, schedule", "why_tests_cant": "schedules", "anchors": ["macros/output.rs: write, flush", "src/tracking.rs: do_flush"]}
{"id": "C66", "title": "which module gets at a universe's table, and what shuts everybody out", "statement": "mod::read/write (and the _result/try_ variants on a free lock) return exactly if the registry is alive, the universe has the module's domain, the module is the one whose registration under that domain and name came first, and the table's lock is not poisoned (for the _result variants: whether or not it is). A second table! with the same domain, name and columns registers without complaint, but reading through it always panics, and writing through it panics and poisons the lock of the first. A poisoned lock stays poisoned for good. Only these calls poison it, and only by panicking: such a write, a panic with the write guard in hand, register_tracker with a tracker that does not fit the table, add_domain of a domain whose tables declare one. Nothing that returns changes anything, and reading never does.", "quantifier": "every history of calls, universe, module", "why_tests_cant": "unbounded histories with panics", "anchors": ["macros/output.rs: read, write, convert_read_guard, convert_write_guard", "src/tables.rs: get_column, get_generic_table, equivalent", "src/intern.rs: wrangle_lock"]}
{"id": "C67", "title": "register_tracker", "statement": "Universe::register_tracker returns exactly if the registry is alive, the universe has the table's domain, the Foreign type is the module whose registration came first and is consistent, and the table's lock is not poisoned; the tracker is then the last of that table's and nothing else changed. If it panics no table's trackers change; but with a table that is there and a type that does not fit (another module's, or not consistent) the table's lock is poisoned.", "quantifier": "every history of calls, universe, tracker", "why_tests_cant": "unbounded histories with panics", "anchors": ["src/tracking.rs: Flush::register_tracker, Universe::register_tracker"]}
{"id": "C68", "title": "listing a universe", "statement": "Universe::info returns exactly if no table of the universe has a poisoned lock. get_domain_names returns the names of exactly the domains the universe has, in the order in which they were first registered, whatever the order they were listed or added in.", "quantifier": "every history of calls, universe", "why_tests_cant": "unbounded histories", "anchors": ["src/lib.rs: Universe::info", "src/domain.rs: get_domain_names"]}
{"id": "C69", "title": "several dynamic libraries and sync_globals", "statement": "Each library may have its own copy of the globals. If every library other than main calls sync_globals with main's handle before anything else, then every call, of whichever library, comes to exactly what it comes to in a process with one library, and sync_globals returns unless the shared registry is dead, however often it is called. In any process sync_globals returns exactly if neither registry is dead and they are the same or the caller's has no domain. If it panics nothing changes for anybody else, but the calling library can never register, create or find anything again. No history loses what a library has registered. clone_globals hands out the globals that the library works with, those it was last synced to, and panics after a failed sync. (Libraries that do not sync share nothing and number their domains and properties alike, so one may overwrite another's properties.)", "quantifier": "every number of libraries, history of their calls", "why_tests_cant": "unbounded histories of several libraries", "anchors": ["src/domain.rs: clone_globals, sync_globals, GlobalProperties::is_empty, V11_GLOBALS"]}
{"id": "C70", "title": "panics never lead to memory unsafety or torn rows", "statement": "Catch every panic, of the library's own or of the closures and iterators handed to it, get the table back with into_inner() and go on: however long, no call ever accesses a column out of bounds, and every id that the row-id type can hold and that is below len() is in range for every column. As long as no panic was a row-id overflow, all columns keep the same length, every row that is there can be read, and in tables that are not consistent indexed searches give exactly the rows with the value. Without panics this is the behaviour all other properties describe.", "quantifier": "every history of calls, with every closure and iterator panicking at any point", "why_tests_cant": "crash points inside calls", "anchors": ["macros/output.rs: merge0, merge_logged, push_all, push_array, remove_rows, delete_raw, swap_out_row, truncate", "src/index.rs: BagIter", "src/map_index.rs: TCol for BTreeIndex", "src/storage.rs: VecCol, BoolCol"]}
{"id": "C71", "title": "what a panic of the caller's code leaves in the table", "statement": "If the caller's code panics inside a call, the table then holds: push_all, push_array: the rows the iterator gave before; a loop over a bag: all rows but the marked ones, one marked just before the panic included; retain: the rows kept so far, then the old rows from that position on, so that no row that was kept or not yet looked at is lost; visit: the first k of the rows that came out so far if it panics at row k, then the old rows from there, so rows that came out beyond k are lost; merge: the merge of the rows given so far up to the last of them, then the old rows, of which as many as rows were given are lost; sorted tables stay sorted.", "quantifier": "every table without deleted rows, its rows, the point of the panic", "why_tests_cant": "crash points inside calls", "anchors": ["macros/output.rs: merge0, visit, retain, merge_logged, push_all, push_array", "src/index.rs: BagIter::next, drop"]}
{"id": "C72", "title": "pushing onto a full table", "statement": "A push onto a table that has as many rows as the row-id type has values panics, and the table it leaves claims to have a row more: its old rows and its indexes read as before, but iterating it panics and so does every further push, until clear_raw, which makes it a working empty table again.", "quantifier": "every full append, bag or list table left by any history, every row", "why_tests_cant": "crash points inside calls", "anchors": ["macros/output.rs: push, push_only_unchecked, clear_raw, row_range", "src/map_index.rs: push"]}
{"id": "C73", "title": "row ids as values", "statement": "== and the ordering between checked and generic ids compare the numbers only, and are a total order. next is the least greater id and prev the greatest smaller one, panicking at the ends of the type in the debug profile and wrapping around without overflow checks. from_usize and to_usize are inverse where the number fits and panic elsewhere. A serialised id reads back as itself, and a number is rejected exactly if the type cannot hold it. The default (undefined) id is the greatest one; it is nevertheless valid for exactly those tables that are full and whose last row is live.", "quantifier": "every id type, id, number, table left by any history", "why_tests_cant": "all ids and tables", "anchors": ["src/index.rs: GenericRowId, CheckedRowId, serde, Default, comparisons"]}
{"id": "C74", "title": "selections and type-erased selections", "statement": "iter_or_all yields the selected rows in selection order with repetitions, or what the caller's iterator yields for All. Pushing and sorting keep All; otherwise push appends and sort permutes into ascending order. A type-erased slice gives back exactly its elements at its own type and nothing at every other type, never touching foreign memory. The type-erased removal, selection and extraction of a table do what the typed ones do for its own rows and for All, and panic, changing nothing, when given rows of another table.", "quantifier": "every selection, iterator, element type, pair of tables, universe", "why_tests_cant": "all types and states", "anchors": ["src/tracking.rs: Select, SelectIter, SelectAny", "src/any_slice.rs: AnySliceRef", "macros/output.rs: downcast_any_selection, generic_select, get_row_remover, extract"]}
{"id": "C75", "title": "a flush with trackers of any kind", "statement": "Trackers and handlers may do anything to the universe and may panic. A flush calls those that want the event in registration order, each once, with the flushed selection (sorted from the first that asks for it on), until one panics; then no later one is called and no row is removed. If all return, a removal flush of a consistent table removes exactly the flushed ids from whatever the trackers made of the table and leaves everything else as they left it; it hangs if they kept a lock on the table, and panics at the first id that is no longer in the table, with the ids before it removed and the lock given back. Whatever property of the universe every tracker keeps, and removing rows keeps, the flush keeps, also when it panics. A tracker that removes the flushed row and adds another loses the new one. live_flush likewise; after a panic its change list is empty, so the lock can be dropped.", "quantifier": "every universe, list of trackers, handler table, tracker code, event, selection", "why_tests_cant": "arbitrary user code", "anchors": ["src/tracking.rs: Tracker, do_flush", "src/event.rs: Function, run", "macros/output.rs: flush, live_flush"]}
{"id": "C76", "title": "declarations make the universe they describe", "statement": "A program is a family of table! declarations the macro and rustc accept. Each table has the declared columns in order, stored as their types say, with an index exactly where one is declared, and the declared kind. Creating a universe with them panics exactly if one declares a tracker (foreign_auto, foreign or add_tracker) for a table that is not consistent; otherwise each table gets exactly the trackers declared for it, in the order in which their tables are initialised and their columns written, and the trackers Universe::new registers are these. With the modules registered, Universe::new returns exactly if every declared tracker is for a consistent table of a listed domain. What a foreign_auto tracker takes a row to reference is exactly what is in the declared column, and the column can be searched. If the declared references have no cycle and the dependants are consistent or sorted, deleting live rows and flushing with any built-in removal event returns and removes exactly the rows and, transitively, every row that holds the id of one in a foreign_auto column; and no foreign_auto column ever dangles after any history of sessions.", "quantifier": "every program of declarations, order of initialisation, universe contents, rows, built-in removal event, history", "why_tests_cant": "ranges over programs; joins macro, registry and cascade", "anchors": ["macros/output.rs: foreign_auto, register_foreign_trackers, COL_TYPE", "macros/parse.rs", "src/domain.rs: init_domain", "src/tracking.rs: register_tracker"]}
{"id": "C77", "title": "how often a tracker is told of one flush", "statement": "When a flush of a non-empty change set returns, every interested tracker of every table has been called once for each chain of foreign_auto columns leading from its table up to the flushed one (the table itself: once), whether or not any of its rows was selected — except after clear(), with the deleting handler: then it has been called 2^d times for each chain of d columns, so the cost of clearing a line of m+1 tables, even empty ones, is 2^m calls.", "quantifier": "every foreign_auto graph, every state, every change set", "why_tests_cant": "counts over arbitrary graphs; exponential cases cannot be run", "anchors": ["src/event.rs: Function::run", "macros/output.rs: Write::remove_rows, flush", "src/tracking.rs: do_flush"]}
{"id": "C78", "title": "column storages are vectors", "statement": "Every storage a column can have (VecCol, SegCol, BoolCol, an index over one of them) shows its caller, in any sequence of calls with positions in range, exactly what a vector of the elements would; the search of an index gives exactly the live positions holding the value, ascending, below the largest row id. So what is said of tables holds for every table made of these, whatever its columns, kind and row-id type.", "quantifier": "every storage, sequence of calls, schema", "why_tests_cant": "unbounded sequences and all element types", "anchors": ["src/storage.rs: VecCol, SegCol, BoolCol", "src/map_index.rs: BTreeIndex", "src/columns.rs: TCol"]}
{"id": "C79", "title": "a panic under a write lock", "statement": "A panic under the write lock of a table that is not consistent never ends the process. Under that of a consistent table it ends the process exactly if some call under the lock had left something to flush (a push, delete, clear, select, select_all, a non-empty push_all or push_array), or the panicking push_all or push_array had already handed out an id; otherwise the table has the ids it had when locked and, unless cells were edited in place, exactly the contents. Pushing onto a consistent table that was cleared while some of its rows were deleted ends the process.", "quantifier": "every table state, sequence of calls under the lock, and place of the panic", "why_tests_cant": "aborts kill the test process; places of a panic are unbounded", "anchors": ["macros/output.rs: Write Drop, push, push_all, push_array, delete, clear, event_add"]}
{"id": "C80", "title": "restoring a damaged extraction", "statement": "Restoring an extraction with the right header whose k-th entry lacks a value in some column, or refers to a row that was not restored before: an append, bag or list table panics and keeps the k entries before it; a sorted table panics and takes nothing if a value is missing; a consistent table is left as it was if k is 0, and otherwise the process ends. In general, when restoring into a consistent table panics once the header is accepted, the process ends exactly if the first entry is good and there is an id for it; having more entries than unused ids is one such case.", "quantifier": "every extraction with a matching header, every table state, place of the damage", "why_tests_cant": "extractions are untrusted deserialised data; aborts kill the test process", "anchors": ["macros/output.rs: restore_extract, MERGE_EXTRACT, UPDATE_ROW, Write Drop"]}
{"id": "C81", "title": "contexts among threads", "statement": "Threads that lock tables and properties through contexts (context! new, from and drop, any number of threads, any schedule, whether or not waiting writers go before readers): from releases exactly the old fields it does not move and then locks exactly the missing ones, in field order. If every lock is asked for in one global order (fields listed in that order, what from adds below all it keeps), no schedule deadlocks and all threads can finish; this includes threads that have one context at a time whose fields follow one order. Going over to a context all of whose fields one has never waits. Two threads with one context each can deadlock exactly if some prefix of each blocks the next field of the other. Defects: growing a context with from can deadlock although all contexts list their fields in one order; a context that reads one table twice can deadlock with any writer if waiting writers go first.", "quantifier": "every family of programs of new/from/drop, every field lists, schedules, reader policies", "why_tests_cant": "deadlocks depend on the schedule and on the platform's lock policy", "anchors": ["src/context.rs: context! new, from, release_fields, tuples"]}
{"id": "C82", "title": "what a tracker that panics in the middle of a flush leaves", "statement": "When a tracker panics during a flush that would otherwise have returned, the panic reaches the caller, exactly the trackers up to and including that one have been called, the universe is what that tracker saw, and no lock is left held by the thread (live_flush keeps its own lock, with nothing left to flush). For a deletion of live rows this means: the rows to be deleted are all still there, of the rows that had to go with them some are gone, no other row has changed, and the session can be run again and then completes. Rows added under a creation event are in place. If the tables that depend on the flushed one have no dependants of their own every reference stays valid and the second attempt finishes the first; if they have, references may dangle for good.", "quantifier": "Every universe of standard, acyclic foreign_auto relations (the cut itself: every universe), reachable state, set of live rows, set of trackers and every choice of the call that panics, as a function of everything that was called before.", "why_tests_cant": "Which call panics is the program's choice; a test tries one crash point of one graph.", "anchors": ["macros/output.rs: Write::flush, Write::live_flush, Table::remove_rows, Read::select_rows", "src/tracking.rs: Flush::do_flush", "src/event.rs: Function::run, DeleteHandler"]}
{"id": "C83", "title": "safe client code never reaches an unchecked access out of bounds", "statement": "Columns are read and written with get_unchecked. Whatever threads do with the write and read guards they have, waited for or tried for (calls of any public method that changes the table, flushes, live flushes, selections, restores from any extraction, in any lock order, with any foreign_auto relations, remappings and rows, whether they return, panic or deadlock), none of these accesses is ever out of bounds, in any schedule; nor when any listed ids, live or not, are extracted. A thread that runs alone and returns leaves every table well formed. (Outside this: CheckedRowIds kept while their row goes away, C55 and C57; contexts, C47; guards recovered from poisoned locks, C70–C72.)", "quantifier": "every number of threads, every script a Rust compiler accepts, every foreign_auto graph, table state, extraction, remapping, schedule", "why_tests_cant": "undefined behaviour need not show in a test; all programs, schedules and extractions are quantified over", "anchors": ["macros/output.rs: Write methods, flush, live_flush, select_rows, restore_extract, extract_selection, merge", "src/storage.rs: VecCol, SegCol", "src/map_index.rs", "src/tracking.rs: do_flush", "src/event.rs: Function::run"]}
{"id": "C84", "title": "a table used as a mutex makes everything serialisable", "statement": "Threads that do each piece of work (any guards of other tables, waiting for them or not, edits depending on what they read, flushes with any events and all they cascade into, live flushes, restores, selections) while they have the write guard of one table that they use for nothing else: in every state of every schedule the process is as if the finished pieces had been done one after another by one thread, each thread's in its order, and whenever nobody has that guard, that is exactly what the rows and remappings are. A thread panics only because its next piece would panic if done alone at that point, or because the mutex was poisoned by one that did. So every invariant each piece keeps when done alone holds whenever the mutex is free; in particular no reference dangles if each piece respects references (unlike without the mutex, C48). If the pieces also take their other locks in order, and return when done alone, all threads always finish with all the work done.", "quantifier": "every family of lists of pieces of work, number of threads, schedule, reader policy, universe, foreign_auto graph, invariant", "why_tests_cant": "schedules are unbounded; pieces are arbitrary programs", "anchors": ["macros/output.rs: write, read, flush, live_flush, restore_extract, select_rows", "src/tracking.rs: do_flush", "src/tables.rs: GenericTable lock"]}
{"id": "C85", "title": "registering trackers while threads run", "statement": "Any number of threads lock tables, flush, live_flush, select and call register_tracker, and the trackers they call do the same, whatever they compute. Every flush tells the trackers that were registered on the table when it began, in the order of registration, each once; nobody gets registered on that table until it has ended; a table always has the trackers it had at the start and those registered since, in order, and a thread that has finished has registered all it asked for. If threads and trackers ask for locks in one order (a tracker only for locks below that of its table's tracker list), registering is safe at any time: no schedule deadlocks and none is infinite; foreign_auto trackers on an acyclic graph keep such an order, and what they and the flushes take and drop is what flush, live_flush and select_rows of the other thread models do. A tracker that locks its own table, as its documentation allows, keeps one only where nobody registers on that table, live_flushes it or cascades into it: such a cascade or live_flush hangs in every schedule, and a flush can deadlock with a thread that registers a tracker. A tracker that registers another on its own table hangs the flush that calls it.", "quantifier": "every number of threads, programs, tracker code, initial trackers, lock order, schedule and reader/writer policy", "why_tests_cant": "schedules and the code of trackers are unbounded", "anchors": ["src/tracking.rs: register_tracker, do_flush, Tracker::handle", "src/event.rs: Function::run", "macros/output.rs: flush, live_flush, select_rows, foreign_auto"]}
{"id": "C86", "title": "a flush and the guards its thread has", "statement": "flush gives up the guard it is called on and no other; live_flush, select_rows and select_all give up none. A flush of a removal returns exactly if its thread has no guard at all on a table that depends, directly or through others, on the flushed one; a flush whose handler does nothing returns exactly if the thread has no write guard on one; otherwise the thread waits for itself for ever. Then the cascade is the usual one, whatever other guards the thread has. Threads that lock through contexts (new, from), work and flush, with fields listed from referenced to referencing tables and dependants flushed before parents, never deadlock and always can finish. A context that has a table and a dependant of it cannot flush deletions of the table.", "quantifier": "every set of guards the thread has, every table graph and handler; every number of threads, context programs and schedules", "why_tests_cant": "a hang shows only for the guards a test happens to hold and for the cascade it happens to trigger", "anchors": ["macros/output.rs: flush, live_flush, foreign_auto", "src/event.rs: Function::run", "src/tracking.rs: do_flush", "src/context.rs: new, from"]}
{"id": "C87", "title": "Registry, universe and property calls of several threads take effect one at a time", "statement": "After one thread has set up the registry, any number of threads can register domains, properties and tables, make universes, add domains to them, read and write properties, open tables and register trackers, in any interleaving that Rust's borrow rules allow. As long as the registry is not poisoned: every call that returns took effect exactly once, between its beginning and its end, and gave what a single thread would have been given that made the same calls one after another in the order in which they took effect; when all threads are between calls, the registry, the places of the properties and the contents of all universes are what that single thread would have left. There are two exceptions, in which a call panics without an effect: the use of a property while another thread is just setting that property's static `Prop` (a data race on a `static mut`, possible only for a property that was not registered before the threads were started), and `add_domain` of a domain that another thread has registered since the call began (a single thread would have got a panic when the call began). A call waits only for another thread to finish setting a static `Prop`; there is no deadlock, and no thread can go on for ever.", "quantifier": "every history of calls before the threads start, every number of threads, every program of each, every schedule of their steps and every value a racing read of the static can see", "why_tests_cant": "the calls take the registry's lock several times each, so what happens depends on which of unboundedly many interleavings the scheduler picks", "anchors": ["src/domain.rs: V11_GLOBALS, Universe::add_domain, get_domains, init_domain, sync_domain_list", "src/property.rs: ToPropRef::get, Prop::init, sync_alias, Universe indexing", "src/lib.rs: Universe::new", "src/tables.rs: get_generic_table, register", "src/tracking.rs: register_tracker"]}
{"id": "C88", "title": "Properties shared by threads are registers with guards", "statement": "Several threads use the properties of universes in any schedule: with get, set and swap, and with read and write guards that they keep, also of several properties at once, and may panic at any point. (1) Whoever reads a property of a name in a universe, by a call or through a guard, gets what some thread last wrote to it (through any declaration of that name), or what it was before if none did; so does who reads it later. (2) Until a read guard is dropped nobody writes the property, and everybody who reads gets the value it had when the guard was got; until a write guard is dropped nobody else reads or writes it; two guards at once are read guards. (3) Threads that each update a property by reading and writing it under one write guard lose no update, whatever the functions: the value is that of all updates one after the other, each thread's in its order. With a `get` followed by a `set` updates do get lost. (4) A thread that panics while it has a write guard makes the property unusable for good: nobody reads or writes it again and who asks for it panics; a read guard, another property or a universe's other copies are not affected; a thread panics only for that reason, for a missing property or of itself, so threads that do not panic themselves and use readable properties never do. (5) If every thread asks only for locks that come after those it has guards on, in some fixed order, some thread can always go on until all are over, also if readers queue behind waiting writers; without the order there are deadlocks; a thread that asks for a property it has a guard on waits for ever unless both are for reading. (6) Every thread ends after finitely many steps.", "quantifier": "all histories before the threads start, all numbers of threads, all scripts (the next action may depend on every value read), all schedules, all points of panic", "why_tests_cant": "schedules and points of panic are unboundedly many; a lost update, a poisoned lock or a deadlock needs one particular interleaving", "anchors": ["src/property.rs:get", "src/property.rs:set", "src/property.rs:swap", "src/property.rs:read", "src/property.rs:write", "src/property.rs:property!"]}
{"id": "C89", "title": "saving tables and loading them into another universe", "statement": "Extracting the tables of a universe, writing and reading the extractions, and restoring them, parents first, into any other universe that has room succeeds if every foreign key of the saved tables is good. Each live row of a table that is not sorted arrives exactly once, in an id that was not in use, in the order of the old ids, unchanged except that its foreign keys lead to where the rows it referenced went (unless set_identity_remap was called on that table); all other rows and tables stay as they are. The rows of a sorted table, however, are merged in with the foreign keys they had. So if all foreign keys were good in both universes, they all are good afterwards if no listed table is sorted and no ids are left alone, and otherwise exactly if the unchanged keys happen to reference a row; a row of a sorted table that references an id not below the number of the parent's live rows references nothing in an empty universe. In an empty universe the rows get the ids 0, 1, …, so tables without gaps, sorted ones too, are reproduced identically. Loading a table that has a row before a table it references (not loaded before) panics.", "quantifier": "every foreign_auto graph, every pair of universes, every order with parents first", "why_tests_cant": "tests load one small pair of tables; the composition over any graph, with gaps and rows in the way, is an invariant over the loads", "anchors": ["src/serial.rs: Serialize/Deserialize for Col", "macros/output.rs: extract_selection, restore_extract, Extraction", "src/tracking.rs: set_remapping, remap", "tests/serial.rs"]}
{"id": "C90", "title": "columns written to any serialiser and read from any input", "statement": "Serialising a column gives the serialiser its length, its cells in order of their ids and the end, and returns the serialiser's first error; it never panics or reads out of bounds. Deserialising from input that ends well gives a column of exactly its elements, whatever length the input promised; from input that ends in an error it gives that error and no column. But the promised length is believed: if it cannot be allocated, deserialising panics whatever the input holds; and an indexed column panics on more elements than there are row ids.", "quantifier": "every table and serialiser; every input, promised length and error", "why_tests_cant": "tests use serde_json, which fails nowhere and promises nothing", "anchors": ["src/serial.rs: Serialize/Deserialize/Visitor for Col", "src/storage.rs: reserve"]}
{"id": "C91", "title": "how many ids a consistent table takes", "statement": "In a history in which rows are pushed one at a time, edited and removed, a consistent table takes exactly as many ids (and as much memory per column) as the greatest number of rows it had at one time, so ids never run out while fewer rows than ids have ever been live at once. push_array, however, never uses free ids: appending one row and deleting it, over and over, takes a new id each time, and makes push_array panic in an empty table in the end.", "quantifier": "every history of pushes, edits and removals; every row and number of repetitions", "why_tests_cant": "a bound over unbounded histories; exhaustion needs as many steps as the row-id type has values", "anchors": ["macros/output.rs: push, push_array, delete, flush"]}
{"id": "C92", "title": "what a flush that panics by itself leaves", "statement": "However a flush of a write lock ends — a marked row that does not exist, a dependent table that cannot lose rows, an event nobody handles, a poisoned lock, a cycle, a tracker that panics — the thread holds the locks it held before, less the flushed one; at most one lock is newly poisoned, and none if it returned or if the event removes nothing; every table is in a state that operations lead to; and when rows were marked in a consistent table, only rows that had to go are gone. Flushes that are refused (conflicting marks, an event without a handler) have done nothing. Marking a row that does not exist and removing deletes everything that references the marked rows, then the rows before it, panics and poisons the table's lock. Once a dependent table's lock is poisoned no flush of its parent with changes returns. A flush changes and poisons only its table and tables that depend on it. A live_flush that panics also releases and poisons the lock it was called on (so poison spreads upwards), and at most one other; it too removes only rows that had to go, and with a marked row that does not exist leaves exactly what a flush leaves.", "quantifier": "every tracker graph and handlers, lock contents, event, recursion budget, panicking trackers and poisoned locks; the exact out-of-range statement for acyclic graphs", "why_tests_cant": "the panic may happen at any depth of any cascade; what it leaves must be right at each of these points", "anchors": ["macros/output.rs: flush, remove_rows, select", "src/tracking.rs: do_flush", "src/event.rs: Function::run"]}
{"id": "C93", "title": "a program that catches its panics", "statement": "A program that runs one session after another on a universe and catches every panic — of its own code under a write lock, of the library, of a tracker — holds no lock afterwards that it did not hold before. Each panic poisons at most one table's lock (at most two if live_flush or as_read().select_rows is used), and nothing else poisons one. A table whose lock is poisoned is refused by every later session and never changes again. Every other table is in a state that calls that return lead to, so everything that holds of tables holds of it. A session only ever changes its table and tables that depend on it. The program goes on after every panic but a deadlock, undefined behaviour, a stack overflow and the abort of a panic under a consistent table's lock with something to flush, in a call or in a selection through as_read. The price: once a table that refers to p is poisoned, no row of p (if p refers to nothing) is ever deleted again, whatever the program does.", "quantifier": "every list of sessions (calls, events, selections), every choice of panicking trackers, iterators and user code, every tracker graph and handlers, every starting universe", "why_tests_cant": "the panics may come anywhere in any session of any history; the statement is an invariant of all of them", "anchors": ["macros/output.rs: write, flush, live_flush, select_rows, as_read, Drop for Write", "src/tracking.rs: do_flush", "src/event.rs: Function::run"]}
{"id": "C94", "title": "initialisers of properties that do something", "statement": "The initialiser of a property! is any expression. Universe::new evaluates, for each listed domain in the order listed, one initialiser for each registration on the domain, in the order of registration: that of the first property registered under the name (so twins cost an evaluation each, and only the first's initialiser is ever used). A property of the new universe reads what the first evaluation under its name returned. add_domain does the same for its domain, leaving the universe's other properties alone; add_properties never evaluates anything. If an initialiser panics, that is the outcome, no universe or domain is made, the registry is poisoned, and what initialisers wrote to other universes stays. If one registers something, makes a universe or a domain, or opens a table, the call never returns. Initialisers that only use registered properties of other universes and do not panic always return; and then every call of the program has the outcome it would have with constants, and the processes differ only in the values of properties.", "quantifier": "every declaration of properties, every initialiser (any adaptive program over the API), every history of calls, every list of domains", "why_tests_cant": "initialisers are arbitrary programs run at a point where a lock is held; their number and order depend on the whole registration history", "anchors": ["src/domain.rs: instantiate, get_domains, add_domain, add_properties, instantiate_domain", "src/property.rs: Producer::produce, Prop::init", "src/lib.rs: Universe::new"]}
{"id": "C95", "title": "a flush that is told another universe", "statement": "flush, live_flush, select_rows and select_all are called on a lock of a table of one universe and take a universe that need not be the same one; nothing checks. Rows deleted or selected through the lock and flushed with another universe that has the same tables: no row of the lock's own universe goes, the marks are lost, and the other universe does exactly what it would do had the same row numbers been marked through its own table and flushed (so its rows of those numbers go, with everything of its own that references them), or panics if its table is shorter. live_flush so told removes the rows from the lock's own universe and nothing that references them, so that dependants dangle, while in the other universe dependants of rows of those numbers go and the rows stay. With an event that removes nothing, what was done through the lock stays done in its own universe, the other universe is unchanged, and it is the other universe's tables that the trackers are shown. Selecting through a read lock acts on the other universe as selecting through its own would, whatever the lock's universe contains.", "quantifier": "every pair of states of two universes with the same tables, every acyclic tracker graph, every list of calls under the lock, every event of the kind named", "why_tests_cant": "two universes are two arbitrary states, and the outcome depends on both contents and on the whole dependency graph of one of them", "anchors": ["macros/output.rs: flush, live_flush, select, select_rows, select_all, write", "src/tracking.rs: Flush::do_flush"]}
{"id": "C96", "title": "contexts and several universes", "statement": "Ctx::from(universe, old) fills the first field of each type with the old contexts' first lock of that type, whatever universe that lock is in, and every other field with a new lock of the universe passed. In a program that hands contexts on only within one universe, every lock of every context is in the universe the context was made for, and that universe still exists. In any program a lock comes to dangle exactly when a universe is dropped of which some context still has a lock; the compiler, which sees only the universe passed to from, accepts that as soon as no context made for that universe is left. So for every lockable type there is a program without unsafe, a context of one universe handed to from with another and the first universe dropped, that ends with a lock into a universe that no longer exists. In every program the thread holds exactly the locks in the contexts that exist, each once; dropping a context releases its locks in the order of its fields.", "quantifier": "every program that makes and drops any number of universes and contexts, with any fields and any nesting of tuples of contexts", "why_tests_cant": "lifetimes, moves and drops interleave in unboundedly many ways; a test can show one dangling lock but not that the rest of the programs are safe", "anchors": ["src/context.rs: ReleaseFields, context!, from, release_fields, new", "macros/output.rs: Lockable"]}
{"id": "C97", "title": "sync_globals and the registry calls of several threads", "statement": "Threads of several libraries call the registry and sync_globals in any interleaving. Every call works on the registry that its library had when clone_globals returned inside the call; every registry is what the calls made on it have left, one after another; a library has the registry of its last sync_globals that returned. sync_globals returns exactly if neither registry is poisoned and they are the same or nothing is registered in the caller's at that moment; otherwise it panics with the global locked and the library is shut out for good. If every library other than main calls sync_globals with main's handle once, before anything else is called in it, then everything is done on one registry and no schedule deadlocks. Otherwise: what a thread registers that was between clone_globals and the lock when another thread's sync_globals returned is lost, in a registry that no library has; and where readers wait for writers that wait, a second sync_globals with the same handle deadlocks with a thread that is just about to register something (it reads the same lock twice). Every deadlock is one of sync_globals calls each of which reads a registry that somebody waits to write and waits for another, or the same; without such preference of writers there is none.", "quantifier": "every number of libraries and threads, every sequence of calls of each, every schedule, both kinds of RwLock, anything done while the registry is locked", "why_tests_cant": "the interleavings of lock acquisitions are unbounded and depend on the scheduler; the lost registration and the deadlock need a particular one", "anchors": ["src/domain.rs: V11_GLOBALS, clone_globals, sync_globals, GlobalProperties::is_empty, GlobalProperties::id", "src/property.rs: Prop::init, Prop::sync_alias"]}
{"id": "C98", "title": "Unlocking a domain that is in use", "statement": "DomainName::set_locked returns exactly if the registry is usable and the domain is registered, and then locked says so; for an unknown domain it poisons the registry. On an unlocked domain a property can be registered although universes have the domain; reading it in them panics as late until add_properties is called on the universe. add_properties then returns, leaves everything that could be read as it was, gives what was late the initial value of the first registration of its name, and touches neither the registry nor other universes. Properties of different names never share a place, twins always do, however domains are unlocked and relocked. A table registered on an unlocked domain never gets into a universe that already has the domain, whatever is called. Universe::new, and add_domain of a domain the universe lacks, lock again; add_domain of one it has does not.", "quantifier": "every history of registrations, universes, property reads and writes, table use, panics and set_locked calls; every property, table and universe", "why_tests_cant": "the history of unlocking, registering and adding is unbounded, and add_properties does nothing in any history without set_locked, which no test calls", "anchors": ["src/domain.rs: DomainName::set_locked, DomainName::locked, map_info, map_info_mut, DomainInstance::add_properties, Universe::add_properties, check_lock", "src/property.rs: Prop::init, PropertyIndex"]}
{"id": "C99", "title": "Selecting rows through as_read of a write lock", "statement": "w.as_read().select_rows(u, event, rows) and select_all tell the table's trackers while the write lock w stays held: they do what selecting through t::read(u) would have done had w been released, the same panic included: the same rows in every table, the same calls of trackers; the table shows what w showed, and what w has marked stays marked, so that flushing w afterwards removes exactly the marked rows and what references them. The exception is that they may deadlock waiting for w, which cannot happen in an acyclic graph and always happens if the table depends on itself (after the observers registered before were called). With a cycle among the dependants they never return.", "quantifier": "every graph, universe, write lock with any pending changes, selection and event", "why_tests_cant": "it is about every graph of dependants and every nesting of tracker calls under a held lock; the documentation of as_read speaks only of calling methods, and no test selects through it", "anchors": ["macros/output.rs: Write::as_read, Read::select_rows, Read::select_all, select", "src/tracking.rs: Flush::do_flush"]}
{"id": "C100", "title": "A panic while rows are selected through as_read", "statement": "If a tracker panics, a dependant's lock is poisoned or the event is not registered, w.as_read().select_rows(u, event, rows) of a write lock w ends the process exactly if the table is consistent, w has something to flush, and the same call with nothing to flush would have panicked; t::read(u).select_rows would only have panicked. What is marked makes no other difference. If the call returns, w is as it was, still locked, and no lock is poisoned. If it panics without ending the process, w is released and its lock poisoned, and at most one other lock is, of a dependant. Either way the table is as w showed it, only rows that had to go are gone from its dependants, which are all still in a usable state, and all other tables are as before.", "quantifier": "every graph, universe with any poisoned locks, write lock with any pending changes, selection, event and panicking tracker", "why_tests_cant": "it needs every point at which a cascade may panic under a held lock, in every graph; an abort cannot be caught by a test", "anchors": ["macros/output.rs: Write::as_read, Drop for Write, Read::select_rows", "src/tracking.rs: Flush::do_flush"]}
{"id": "C101", "title": "Contexts and panics", "statement": "A context's from returns exactly if it would with no lock poisoned and none of the locks it has to take itself is poisoned; then no lock becomes poisoned. If one of them is, it ends the process exactly if a lock it takes over has something to flush; otherwise it panics, and all locks it was given or took are released: the thread is left with the locks it did not hand over. Poisoned are then those that were, and exactly the write locks taken over and the write locks taken before the poisoned one. If an unflushed lock has no place in the new context, it takes nothing, ends the process exactly if another old lock is unflushed, and otherwise panics, releasing all old locks and poisoning that lock, the write locks after it and those before it that had a place. Whatever it panics for, no lock is leaked and only locks handed over or listed for writing become poisoned. new is from nothing: it never ends the process.", "quantifier": "every list of fields, old context or tuple of contexts, set of held and poisoned locks, and set of unflushed locks", "why_tests_cant": "it needs every combination of poisoned, unflushed, kept and missing locks; an abort cannot be caught by a test", "anchors": ["src/context.rs: new, from, release_fields", "macros/output.rs: Drop for Write, read, write", "src/property.rs: lock"]}
{"id": "C102", "title": "Histories of contexts with caught panics", "statement": "Whatever a thread does with contexts and single locks (new, from with any tuple of old contexts, changing and flushing tables, dropping, its own panics), catching every panic: at any time the locks it holds are exactly those in the contexts it still has, each once; no two of them exclude each other; and none of them is poisoned. A poisoned lock stays so, and no context ever has it again, for reading or writing. A lock that becomes poisoned was one this thread had for writing, and only a call that panicked poisons. No panic stands in the way later: a context can be made at any time if its locks exclude neither each other nor those in the thread's contexts and none is poisoned, and one with nothing to flush can be dropped at any time. One forgotten flush can cost several tables: the table that was dropped unflushed, and every table listed for writing before it in a context that is made later.", "quantifier": "every run of any length, every initial set of poisoned locks", "why_tests_cant": "runs are unbounded, with any interleaving of panics; leaks show up only as a later deadlock", "anchors": ["src/context.rs: new, from, release_fields", "macros/output.rs: Drop for Write, read, write", "src/property.rs: lock"]}
