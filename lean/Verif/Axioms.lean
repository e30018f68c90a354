import Verif.Props.Access
import Verif.Props.AccessUse
import Verif.Props.Bag
import Verif.Props.Cascade
import Verif.Props.Caught
import Verif.Props.Consistent
import Verif.Props.Context
import Verif.Props.Crash
import Verif.Props.CrashPoints
import Verif.Props.CtxFlush
import Verif.Props.CtxHeld
import Verif.Props.CtxHistory
import Verif.Props.CtxPanic
import Verif.Props.CtxThreads
import Verif.Props.CtxUniverses
import Verif.Props.Custom
import Verif.Props.Cycle
import Verif.Props.Damaged
import Verif.Props.Declared
import Verif.Props.Deletable
import Verif.Props.Demo
import Verif.Props.DemoUni
import Verif.Props.Events
import Verif.Props.Flush
import Verif.Props.FlushFail
import Verif.Props.FlushPanic
import Verif.Props.Guarded
import Verif.Props.GuardsHeld
import Verif.Props.Handlers
import Verif.Props.Index
import Verif.Props.Inits
import Verif.Props.Integrity
import Verif.Props.Libs
import Verif.Props.Live
import Verif.Props.MacroConfig
import Verif.Props.Mutex
import Verif.Props.Overflow
import Verif.Props.Poison
import Verif.Props.PropLocks
import Verif.Props.Race
import Verif.Props.Ranges
import Verif.Props.Refusals
import Verif.Props.RegThreads
import Verif.Props.Registry
import Verif.Props.RegistryDemo
import Verif.Props.RegistryUse
import Verif.Props.RowId
import Verif.Props.Save
import Verif.Props.Selection
import Verif.Props.Serial
import Verif.Props.Sorted
import Verif.Props.Storage
import Verif.Props.Stream
import Verif.Props.SyncThreads
import Verif.Props.Tellings
import Verif.Props.Threads
import Verif.Props.TrackThreads
import Verif.Props.TrackTie
import Verif.Props.TwoUniverses
import Verif.Props.Unhandled
import Verif.Props.Unlocked
import Verif.Props.Unwind
import Verif.Props.Usage
import Verif.Props.View
import Verif.Props.ViewFail

/-!
# Axioms of every property theorem (generated by tools/gen_manifest.py)
-/

#print axioms V11.C01_push_fresh
#print axioms V11.C01_push_panics_only_when_full
#print axioms V11.C01_push_full_panics
#print axioms V11.C02_push_takes_lowest
#print axioms V11.C02_next_pushed_predicts
#print axioms V11.C02_next_pushed_panics_iff
#print axioms V11.C02_next_pushed_panics_where_push_succeeds
#print axioms V11.C03_ids_stable
#print axioms V11.C04_delete_defers
#print axioms V11.C04_delete_panics_iff
#print axioms V11.C05_iter_exact
#print axioms V11.C05_editing_exact
#print axioms V11.C05_range_exact
#print axioms V11.C05_iter_panics_full
#print axioms V11.C06_flush_removes_exactly
#print axioms V11.C06_other_events_remove_nothing
#print axioms V11.C06_any_event_without_dependants
#print axioms V11.C06_nothing_marked
#print axioms V11.C07_no_interleaving
#print axioms V11.C07_no_contradictory_event
#print axioms V11.C07_otherwise_accepted
#print axioms V11.C07_refused_without_effect
#print axioms V11.C07_contradiction_without_effect
#print axioms V11.C08_drop_panics_iff
#print axioms V11.C08_drop_other_kinds
#print axioms V11.C08_drop_after_live_flush
#print axioms V11.C09_clear_empties
#print axioms V11.C09_clear_then_push
#print axioms V11.C09_clear_then_push_panics
#print axioms V11.C09_clear_then_push_array_invisible
#print axioms V11.C10_columns_aligned
#print axioms V11.C10_row_gathers_cells
#print axioms V11.C11_ops_no_ub
#print axioms V11.C11_reads_no_ub
#print axioms V11.C11_iterated_rows_readable
#print axioms V11.C12_find
#print axioms V11.C12_find_exact
#print axioms V11.C12_find_misses_max
#print axioms V11.C13_range
#print axioms V11.C13_le_is_order
#print axioms V11.C13_range_exact
#print axioms V11.C14_indexed_immutable
#print axioms V11.C14_unindexed_writable
#print axioms V11.C14_write_exact
#print axioms V11.C15_merge_sorted_and_complete
#print axioms V11.C15_merge_complete_unsorted
#print axioms V11.C15_merge_vec
#print axioms V11.C15_merge_panics_iff
#print axioms V11.C16_log_final_ids
#print axioms V11.C16_single_row
#print axioms V11.C17_exact_order
#print axioms V11.C17_stable
#print axioms V11.C17_first_before_equals
#print axioms V11.C17_not_stable
#print axioms V11.C18_refused_without_effect
#print axioms V11.C18_remove_rows
#print axioms V11.C19_retain
#print axioms V11.C19_retain_rows
#print axioms V11.C19_retain_filter
#print axioms V11.C19_retain_full_panics
#print axioms V11.C20_clear
#print axioms V11.C20_sorted_clear_does_nothing
#print axioms V11.C21_visit
#print axioms V11.C21_visit_rows
#print axioms V11.C22_bag_delete
#print axioms V11.C22_bag_delete_oob
#print axioms V11.C23_bag_iter_mut
#print axioms V11.C23_bag_iter_mut_full
#print axioms V11.C23_bag_iter_mut_filter
#print axioms V11.C24_join_once
#print axioms V11.C24_join_next_once
#print axioms V11.C24_join_all
#print axioms V11.C24_join_next_all
#print axioms V11.C24_join_next_pairs
#print axioms V11.C24_iterators_use_it
#print axioms V11.C25_contains
#print axioms V11.C25_len
#print axioms V11.C25_inner_index
#print axioms V11.C25_iteration
#print axioms V11.C25_on
#print axioms V11.C25_empty
#print axioms V11.C25_offset
#print axioms V11.C25_offset_off_by_one
#print axioms V11.C25_intersects
#print axioms V11.C25_intersects_empty
#print axioms V11.C26_boolcol_is_a_vector
#print axioms V11.C27_changes_recorded
#print axioms V11.C27_trackers_told_removal
#print axioms V11.C27_trackers_told_creation
#print axioms V11.C27_trackers_told_clear
#print axioms V11.C28_register_tracker
#print axioms V11.C28_registration_histories
#print axioms V11.C29_cascade_exact
#print axioms V11.C29_double_delete_panics
#print axioms V11.C30_integrity_always
#print axioms V11.C30_integrity_from_fresh
#print axioms V11.C31_depth_needed
#print axioms V11.C31_cycle_never_returns
#print axioms V11.C31_removal_returns
#print axioms V11.C31_creation_returns
#print axioms V11.C31_self_reference_deadlocks
#print axioms V11.C31_self_reference_overflows
#print axioms V11.C31_cycle_below_never_returns
#print axioms V11.C31_cycle_deadlocks
#print axioms V11.C31_cycle_clear_overflows
#print axioms V11.C31_cycle_creation_overflows
#print axioms V11.C32_clear_cascades
#print axioms V11.C32_empty_shows_nothing
#print axioms V11.C33_first_level_sees_rows
#print axioms V11.C33_lower_levels_never_see_rows
#print axioms V11.C33_counterexample
#print axioms V11.C34_deserialise
#print axioms V11.C34_deserialise_too_long
#print axioms V11.C34_table_columns_round_trip
#print axioms V11.C35_extract_these
#print axioms V11.C35_extract_all
#print axioms V11.C35_restore_consistent
#print axioms V11.C35_round_trip
#print axioms V11.C35_restore_plain
#print axioms V11.C35_restore_sorted
#print axioms V11.C36_restored_keys_follow_remapping
#print axioms V11.C36_restored_keys_follow_remapping_plain
#print axioms V11.C36_missing_remapping_panics
#print axioms V11.C36_remapping_recorded
#print axioms V11.C36_parent_then_child
#print axioms V11.C36_sorted_tables_never_remap
#print axioms V11.C36_empty_restore_keeps_old_remapping
#print axioms V11.C37_accepts_iff
#print axioms V11.C37_panics_iff
#print axioms V11.C37_rejects_iff
#print axioms V11.C37_rejected_leaves_everything
#print axioms V11.C37_short_data_not_rejected
#print axioms V11.C38_live_flush_clean
#print axioms V11.C38_live_flush_leaks
#print axioms V11.C38_leak_is_forever
#print axioms V11.C38_leak_blocks_restore
#print axioms V11.C39_ids
#print axioms V11.C39_distinct
#print axioms V11.C39_permanent
#print axioms V11.C39_again
#print axioms V11.C39_register
#print axioms V11.C40_set
#print axioms V11.C41_value
#print axioms V11.C41_readable
#print axioms V11.C41_swap_returns
#print axioms V11.C41_persists
#print axioms V11.C42_property
#print axioms V11.C42_table
#print axioms V11.C42_unregistered
#print axioms V11.C42_missing
#print axioms V11.C42_never_late
#print axioms V11.C43_name
#print axioms V11.C43_property
#print axioms V11.C44_register
#print axioms V11.C44_again
#print axioms V11.C45_new_iff
#print axioms V11.C45_add_iff
#print axioms V11.C45_new
#print axioms V11.C45_listed
#print axioms V11.C45_add_again
#print axioms V11.C45_add_always
#print axioms V11.C45_add
#print axioms V11.C46_builtin_events
#print axioms V11.C46_builtin_kinds
#print axioms V11.C46_debug
#print axioms V11.C46_default_builtin
#print axioms V11.C46_default_custom
#print axioms V11.C46_history
#print axioms V11.C46_add
#print axioms V11.C46_invalid_replaceable
#print axioms V11.C46_custom_removal_unusable
#print axioms V11.C47_from
#print axioms V11.C47_new
#print axioms V11.C47_returns
#print axioms V11.C47_unflushed
#print axioms V11.C47_twins_ub
#print axioms V11.C48_schedule
#print axioms V11.C48_quiet
#print axioms V11.C48_window
#print axioms V11.C48_spared
#print axioms V11.C48_dangling
#print axioms V11.C48_counterexample
#print axioms V11.C49_results
#print axioms V11.C49_abort
#print axioms V11.C49_left
#print axioms V11.Macro.C50_generated
#print axioms V11.Macro.C50_silent
#print axioms V11.Macro.C50_rejected
#print axioms V11.Macro.C50_surface
#print axioms V11.C51_push_array
#print axioms V11.C51_push_array_panics_iff
#print axioms V11.C51_empty_push_array_range_panics
#print axioms V11.C52_one_selected
#print axioms V11.C52_exact
#print axioms V11.C52_descending
#print axioms V11.C52_ascending_removes_wrong_row
#print axioms V11.C53_append_history
#print axioms V11.C53_ids_are_dense
#print axioms V11.C53_retain_removes
#print axioms V11.C54_skip_fast
#print axioms V11.C54_size_hint
#print axioms V11.C54_size_hint_underflow
#print axioms V11.C54_skip_fast_live
#print axioms V11.C55_same_table
#print axioms V11.C55_other_tables
#print axioms V11.C55_accepted_by_other_tables
#print axioms V11.C56_always_sorted
#print axioms V11.C56_edit_breaks_order
#print axioms V11.C57_late_delete_hits_other_row
#print axioms V11.C57_prompt_delete
#print axioms V11.C57_any_deletable
#print axioms V11.C57_own_row
#print axioms V11.C58_read_select_spares_rows
#print axioms V11.C59_unremovable_dependant
#print axioms V11.C60_live_flush_cascades
#print axioms V11.C60_live_or_deadlock
#print axioms V11.C60_same_as_flush
#print axioms V11.C61_unhandled_event
#print axioms V11.C61_unhandled_event_harmless
#print axioms V11.C61_exact
#print axioms V11.C62_dead
#print axioms V11.C62_forever
#print axioms V11.C62_cause
#print axioms V11.C62_triggers
#print axioms V11.C63_no_deadlock
#print axioms V11.C63_no_infinite_schedule
#print axioms V11.C63_completes
#print axioms V11.C63_poison
#print axioms V11.C63_try_write
#print axioms V11.C63_try_read
#print axioms V11.C63_opposite_orders
#print axioms V11.C63_restore_deadlocks
#print axioms V11.C63_shared_parent_deadlocks
#print axioms V11.C64_isolated
#print axioms V11.C64_reachable
#print axioms V11.C64_session_alone
#print axioms V11.C64_calls_alone
#print axioms V11.C65_serialisable
#print axioms V11.C65_no_lost_update
#print axioms V11.C66_open
#print axioms V11.C66_harmless
#print axioms V11.C66_twin
#print axioms V11.C66_forever
#print axioms V11.C66_cause
#print axioms V11.C66_panic
#print axioms V11.C67_returns
#print axioms V11.C67_adds
#print axioms V11.C67_panics
#print axioms V11.C68_info
#print axioms V11.C68_domain_names
#print axioms V11.C69_as_one
#print axioms V11.C69_values
#print axioms V11.C69_joins
#print axioms V11.C69_sync_iff
#print axioms V11.C69_failed
#print axioms V11.C69_clone
#print axioms V11.C69_cut_off
#print axioms V11.C69_keeps
#print axioms V11.C69_apart
#print axioms V11.C69_unsynced
#print axioms V11.C70_no_access_out_of_bounds
#print axioms V11.C70_reads
#print axioms V11.C70_column_lengths
#print axioms V11.C70_survived
#print axioms V11.C70_index_survives
#print axioms V11.C70_agrees
#print axioms V11.C70_reach
#print axioms V11.C71_visit
#print axioms V11.C71_visit_closure_panics
#print axioms V11.C71_retain
#print axioms V11.C71_retain_predicate
#print axioms V11.C71_push_all
#print axioms V11.C71_push_array
#print axioms V11.C71_merge_iterator_panics
#print axioms V11.C71_merge_log_panics
#print axioms V11.C71_bag_loop
#print axioms V11.C72_push_onto_full
#print axioms V11.C72_every_table
#print axioms V11.C73_order
#print axioms V11.C73_next_prev
#print axioms V11.C73_wraps
#print axioms V11.C73_usize
#print axioms V11.C73_serde
#print axioms V11.C73_default
#print axioms V11.C74_iter_or_all
#print axioms V11.C74_push_sort
#print axioms V11.C74_map_unwrap
#print axioms V11.C74_downcast
#print axioms V11.C74_typed
#print axioms V11.C74_remove_rows
#print axioms V11.C74_select_extract
#print axioms V11.C75_told
#print axioms V11.C75_include_self
#print axioms V11.C75_tracker_panics
#print axioms V11.C75_not_removal
#print axioms V11.C75_removal
#print axioms V11.C75_invariant
#print axioms V11.C75_run
#print axioms V11.C75_instance
#print axioms V11.C75_live_flush
#print axioms V11.C75_structural_trouble
#print axioms V11.Program.C76_start
#print axioms V11.Program.C76_columns
#print axioms V11.Program.C76_references
#print axioms V11.Program.C76_searchable
#print axioms V11.Program.C76_standard
#print axioms V11.Program.C76_cascade
#print axioms V11.Program.C76_no_dangling
#print axioms V11.Program.C76_universe_starts
#print axioms V11.Program.C76_universe
#print axioms V11.C77_told_once_per_chain
#print axioms V11.C77_clear_doubles
#print axioms V11.C77_chains_end
#print axioms V11.C77_exponential
#print axioms V11.C78_storages_are_vectors
#print axioms V11.C78_every_table
#print axioms V11.C79_agrees
#print axioms V11.C79_other_kinds
#print axioms V11.C79_aborts_iff
#print axioms V11.C79_all_or_nothing
#print axioms V11.C79_stale_push_aborts
#print axioms V11.C80_agrees
#print axioms V11.C80_plain
#print axioms V11.C80_consistent
#print axioms V11.C80_consistent_fate
#print axioms V11.C80_too_many_rows
#print axioms V11.C80_sorted
#print axioms V11.C81_agrees
#print axioms V11.C81_no_deadlock
#print axioms V11.C81_completes
#print axioms V11.C81_no_infinite_schedule
#print axioms V11.C81_one_order
#print axioms V11.C81_shrink
#print axioms V11.C81_two_contexts
#print axioms V11.C81_growing_deadlocks
#print axioms V11.C81_reading_twice
#print axioms V11.C82_calm
#print axioms V11.C82_cut
#print axioms V11.C82_cut_read
#print axioms V11.C82_cut_live
#print axioms V11.C82_created_rows_stay
#print axioms V11.C82_what_is_left
#print axioms V11.C82_integrity_kept
#print axioms V11.C82_retry
#print axioms V11.C82_dangling
#print axioms V11.C83_no_ub
#print axioms V11.C83_alone
#print axioms V11.C83_session
#print axioms V11.C83_restore
#print axioms V11.C83_extract
#print axioms V11.C84_serial
#print axioms V11.C84_invariant
#print axioms V11.C84_integrity
#print axioms V11.C84_completes
#print axioms V11.C84_example
#print axioms V11.C85_told
#print axioms V11.C85_list
#print axioms V11.C85_registered
#print axioms V11.C85_no_deadlock
#print axioms V11.C85_no_infinite_schedule
#print axioms V11.C85_completes
#print axioms V11.C85_derived
#print axioms V11.C85_own_table
#print axioms V11.C85_own_excludes
#print axioms V11.C85_cascade_hangs
#print axioms V11.C85_live_flush_hangs
#print axioms V11.C85_registering_tracker_hangs
#print axioms V11.C85_registration_deadlocks
#print axioms V11.C85_flush_locks
#print axioms V11.C85_flush_nothing_locks
#print axioms V11.C85_live_flush_locks
#print axioms V11.C85_select_locks
#print axioms V11.C85_derived_code
#print axioms V11.C86_no_deadlock
#print axioms V11.C86_completes
#print axioms V11.C86_from_agrees
#print axioms V11.C86_context_hangs
#print axioms V11.C86_gives_up_its_guard
#print axioms V11.C86_keeps_guards
#print axioms V11.C86_needs
#print axioms V11.C86_live_needs
#print axioms V11.C86_removal_iff
#print axioms V11.C86_null_iff
#print axioms V11.C87_linearises
#print axioms V11.C87_program
#print axioms V11.C87_state
#print axioms V11.C87_lapse_kinds
#print axioms V11.C87_lapse_property
#print axioms V11.C87_lapse_domain
#print axioms V11.C87_no_lapse
#print axioms V11.C87_waits
#print axioms V11.C87_no_deadlock
#print axioms V11.C87_ends
#print axioms V11.C88_register
#print axioms V11.C88_after
#print axioms V11.C88_guarded
#print axioms V11.C88_exclusive
#print axioms V11.C88_stable
#print axioms V11.C88_no_lost_update
#print axioms V11.C88_poison
#print axioms V11.C88_poison_spreads
#print axioms V11.C88_panics
#print axioms V11.C88_steady
#print axioms V11.C88_no_deadlock
#print axioms V11.C88_ends
#print axioms V11.C88_self_wait
#print axioms V11.C89_any_tables
#print axioms V11.C89_save_load
#print axioms V11.C89_dangling
#print axioms V11.C89_keys_stay_good
#print axioms V11.C89_into_empty
#print axioms V11.C89_identical
#print axioms V11.C89_sorted_broken
#print axioms V11.C89_children_first
#print axioms V11.C90_read
#print axioms V11.C90_promise_believed
#print axioms V11.C90_read_too_long
#print axioms V11.C90_write
#print axioms V11.C91_ids_are_peak
#print axioms V11.C91_push_array_leaks
#print axioms V11.C92_only_dependants
#print axioms V11.C92_live_agrees
#print axioms V11.C92_live_left
#print axioms V11.C92_live_spreads
#print axioms V11.C92_live_partly
#print axioms V11.C92_live_out_of_range
#print axioms V11.C92_agrees
#print axioms V11.C92_agrees_tracker
#print axioms V11.C92_locks
#print axioms V11.C92_tables
#print axioms V11.C92_refused
#print axioms V11.C92_nothing_removed
#print axioms V11.C92_poisoned_dependant
#print axioms V11.C92_partly
#print axioms V11.C92_out_of_range
#print axioms V11.C93_locks
#print axioms V11.C93_frozen
#print axioms V11.C93_refused
#print axioms V11.C93_at_most_one
#print axioms V11.C93_only_dependants
#print axioms V11.C93_ends
#print axioms V11.C93_aborts
#print axioms V11.C93_salvaged
#print axioms V11.C93_agrees
#print axioms V11.C93_agrees_tell
#print axioms V11.C93_agrees_live
#print axioms V11.C93_under_lock
#print axioms V11.C93_usable
#print axioms V11.C93_stuck
#print axioms V11.C93_agrees_view
#print axioms V11.C93_aborts_parts
#print axioms V11.C94_new
#print axioms V11.C94_values
#print axioms V11.C94_unknown
#print axioms V11.C94_add
#print axioms V11.C94_idle
#print axioms V11.C94_locks
#print axioms V11.C94_panics
#print axioms V11.C94_locks_add
#print axioms V11.C94_calm
#print axioms V11.C94_shadow
#print axioms V11.C94_constant
#print axioms V11.C95_acts_on_the_other
#print axioms V11.C95_deletes_in_the_other
#print axioms V11.C95_shorter_panics
#print axioms V11.C95_other_events
#print axioms V11.C95_live_flush_splits
#print axioms V11.C95_live_flush_dangles
#print axioms V11.C95_read_select
#print axioms V11.C96_held
#print axioms V11.C96_drop
#print axioms V11.C96_fields
#print axioms V11.C96_one_universe_safe
#print axioms V11.C96_dangles_iff
#print axioms V11.C96_use_after_free
#print axioms V11.C96_safe_code_dangles
#print axioms V11.C97_state
#print axioms V11.C97_section
#print axioms V11.C97_synced
#print axioms V11.C97_refused
#print axioms V11.C97_failed
#print axioms V11.C97_shut_out
#print axioms V11.C97_kept
#print axioms V11.C97_as_one
#print axioms V11.C97_stuck
#print axioms V11.C97_no_deadlock
#print axioms V11.C97_no_deadlock_once
#print axioms V11.C97_deadlock
#print axioms V11.C97_deadlock_happens
#print axioms V11.C97_lost
#print axioms V11.C98_set_locked
#print axioms V11.C98_register
#print axioms V11.C98_get
#print axioms V11.C98_late
#print axioms V11.C98_add_properties
#print axioms V11.C98_places
#print axioms V11.C98_tables
#print axioms V11.C98_relock
#print axioms V11.C99_select_or_deadlock
#print axioms V11.C99_same_as_read
#print axioms V11.C99_cycle_never_returns
#print axioms V11.C99_self_reference_deadlocks
#print axioms V11.C99_then_flush
#print axioms V11.C100_agrees
#print axioms V11.C100_aborts_iff
#print axioms V11.C100_marks
#print axioms V11.C100_left
#print axioms V11.C100_partly
#print axioms V11.C100_poisoned_dependant
#print axioms V11.C100_unregistered_event
#print axioms V11.C101_agrees
#print axioms V11.C101_poisoned
#print axioms V11.C101_returns
#print axioms V11.C101_left
#print axioms V11.C101_new
#print axioms V11.C101_new_spreads
#print axioms V11.C101_unflushed
#print axioms V11.C102_held
#print axioms V11.C102_forever
#print axioms V11.C102_cause
#print axioms V11.C102_returns
#print axioms V11.C102_again
#print axioms V11.C102_drop
#print axioms V11.C102_mark
#print axioms V11.C102_spreads
