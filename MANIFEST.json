{
 "claims": [
  {
   "property": "C01",
   "status": "proved",
   "theorems": [
    "V11.C01_push_fresh",
    "V11.C01_push_panics_only_when_full",
    "V11.C01_push_full_panics"
   ],
   "note": ""
  },
  {
   "property": "C02",
   "status": "proved",
   "theorems": [
    "V11.C02_push_takes_lowest",
    "V11.C02_next_pushed_predicts",
    "V11.C02_next_pushed_panics_iff",
    "V11.C02_next_pushed_panics_where_push_succeeds"
   ],
   "note": "The overflow corner where next_pushed panics although push succeeds is itself proved."
  },
  {
   "property": "C03",
   "status": "proved",
   "theorems": [
    "V11.C03_ids_stable"
   ],
   "note": ""
  },
  {
   "property": "C04",
   "status": "proved",
   "theorems": [
    "V11.C04_delete_defers",
    "V11.C04_delete_panics_iff"
   ],
   "note": ""
  },
  {
   "property": "C05",
   "status": "proved",
   "theorems": [
    "V11.C05_iter_exact",
    "V11.C05_editing_exact",
    "V11.C05_range_exact",
    "V11.C05_iter_panics_full"
   ],
   "note": ""
  },
  {
   "property": "C06",
   "status": "proved",
   "theorems": [
    "V11.C06_flush_removes_exactly",
    "V11.C06_other_events_remove_nothing",
    "V11.C06_any_event_without_dependants",
    "V11.C06_nothing_marked"
   ],
   "note": ""
  },
  {
   "property": "C07",
   "status": "proved",
   "theorems": [
    "V11.C07_no_interleaving",
    "V11.C07_no_contradictory_event",
    "V11.C07_otherwise_accepted",
    "V11.C07_refused_without_effect",
    "V11.C07_contradiction_without_effect"
   ],
   "note": ""
  },
  {
   "property": "C08",
   "status": "proved",
   "theorems": [
    "V11.C08_drop_panics_iff",
    "V11.C08_drop_other_kinds",
    "V11.C08_drop_after_live_flush"
   ],
   "note": ""
  },
  {
   "property": "C09",
   "status": "proved",
   "theorems": [
    "V11.C09_clear_empties",
    "V11.C09_clear_then_push",
    "V11.C09_clear_then_push_panics",
    "V11.C09_clear_then_push_array_invisible"
   ],
   "note": ""
  },
  {
   "property": "C10",
   "status": "proved",
   "theorems": [
    "V11.C10_columns_aligned",
    "V11.C10_row_gathers_cells"
   ],
   "note": ""
  },
  {
   "property": "C11",
   "status": "proved",
   "theorems": [
    "V11.C11_ops_no_ub",
    "V11.C11_reads_no_ub",
    "V11.C11_iterated_rows_readable"
   ],
   "note": ""
  },
  {
   "property": "C12",
   "status": "proved",
   "theorems": [
    "V11.C12_find",
    "V11.C12_find_exact",
    "V11.C12_find_misses_max"
   ],
   "note": "C12_find is stated for the columns table! offers; find_spec for any lawful column. C12_find_exact/C12_find_misses_max: the two cases of the maximal id."
  },
  {
   "property": "C13",
   "status": "proved",
   "theorems": [
    "V11.C13_range",
    "V11.C13_le_is_order",
    "V11.C13_range_exact"
   ],
   "note": ""
  },
  {
   "property": "C14",
   "status": "proved",
   "theorems": [
    "V11.C14_indexed_immutable",
    "V11.C14_unindexed_writable",
    "V11.C14_write_exact"
   ],
   "note": ""
  },
  {
   "property": "C15",
   "status": "proved",
   "theorems": [
    "V11.C15_merge_sorted_and_complete",
    "V11.C15_merge_complete_unsorted",
    "V11.C15_merge_vec",
    "V11.C15_merge_panics_iff"
   ],
   "note": ""
  },
  {
   "property": "C16",
   "status": "proved",
   "theorems": [
    "V11.C16_log_final_ids",
    "V11.C16_single_row"
   ],
   "note": ""
  },
  {
   "property": "C17",
   "status": "proved",
   "theorems": [
    "V11.C17_exact_order",
    "V11.C17_stable",
    "V11.C17_first_before_equals",
    "V11.C17_not_stable"
   ],
   "note": ""
  },
  {
   "property": "C18",
   "status": "proved",
   "theorems": [
    "V11.C18_refused_without_effect",
    "V11.C18_remove_rows"
   ],
   "note": ""
  },
  {
   "property": "C19",
   "status": "proved",
   "theorems": [
    "V11.C19_retain",
    "V11.C19_retain_rows",
    "V11.C19_retain_filter",
    "V11.C19_retain_full_panics"
   ],
   "note": ""
  },
  {
   "property": "C20",
   "status": "proved",
   "theorems": [
    "V11.C20_clear",
    "V11.C20_sorted_clear_does_nothing"
   ],
   "note": ""
  },
  {
   "property": "C21",
   "status": "proved",
   "theorems": [
    "V11.C21_visit",
    "V11.C21_visit_rows"
   ],
   "note": ""
  },
  {
   "property": "C22",
   "status": "proved",
   "theorems": [
    "V11.C22_bag_delete",
    "V11.C22_bag_delete_oob"
   ],
   "note": ""
  },
  {
   "property": "C23",
   "status": "proved",
   "theorems": [
    "V11.C23_bag_iter_mut",
    "V11.C23_bag_iter_mut_full",
    "V11.C23_bag_iter_mut_filter"
   ],
   "note": ""
  },
  {
   "property": "C24",
   "status": "proved",
   "theorems": [
    "V11.C24_join_once",
    "V11.C24_join_next_once",
    "V11.C24_join_all",
    "V11.C24_join_next_all",
    "V11.C24_join_next_pairs",
    "V11.C24_iterators_use_it"
   ],
   "note": ""
  },
  {
   "property": "C25",
   "status": "proved",
   "theorems": [
    "V11.C25_contains",
    "V11.C25_len",
    "V11.C25_inner_index",
    "V11.C25_iteration",
    "V11.C25_on",
    "V11.C25_empty",
    "V11.C25_offset",
    "V11.C25_offset_off_by_one",
    "V11.C25_intersects",
    "V11.C25_intersects_empty"
   ],
   "note": ""
  },
  {
   "property": "C26",
   "status": "proved",
   "theorems": [
    "V11.C26_boolcol_is_a_vector"
   ],
   "note": ""
  },
  {
   "property": "C27",
   "status": "proved",
   "theorems": [
    "V11.C27_changes_recorded",
    "V11.C27_trackers_told_removal",
    "V11.C27_trackers_told_creation",
    "V11.C27_trackers_told_clear"
   ],
   "note": ""
  },
  {
   "property": "C28",
   "status": "proved",
   "theorems": [
    "V11.C28_register_tracker",
    "V11.C28_registration_histories"
   ],
   "note": ""
  },
  {
   "property": "C29",
   "status": "proved",
   "theorems": [
    "V11.C29_cascade_exact",
    "V11.C29_double_delete_panics"
   ],
   "note": ""
  },
  {
   "property": "C30",
   "status": "proved",
   "theorems": [
    "V11.C30_integrity_always",
    "V11.C30_integrity_from_fresh"
   ],
   "note": "Histories of add/edit/select, delete and clear sessions. Excluded, and stated in the hypotheses: clear of a table with deleted rows (C09), tables filled to the last id, duplicate ids where a sorted table is searched by an index (C29_double_delete_panics)."
  },
  {
   "property": "C31",
   "status": "proved",
   "theorems": [
    "V11.C31_depth_needed",
    "V11.C31_cycle_never_returns",
    "V11.C31_removal_returns",
    "V11.C31_creation_returns",
    "V11.C31_self_reference_deadlocks",
    "V11.C31_self_reference_overflows",
    "V11.C31_cycle_below_never_returns",
    "V11.C31_cycle_deadlocks",
    "V11.C31_cycle_clear_overflows",
    "V11.C31_cycle_creation_overflows"
   ],
   "note": ""
  },
  {
   "property": "C32",
   "status": "proved",
   "theorems": [
    "V11.C32_clear_cascades",
    "V11.C32_empty_shows_nothing"
   ],
   "note": ""
  },
  {
   "property": "C33",
   "status": "proved",
   "theorems": [
    "V11.C33_first_level_sees_rows",
    "V11.C33_lower_levels_never_see_rows",
    "V11.C33_counterexample"
   ],
   "note": ""
  },
  {
   "property": "C34",
   "status": "proved",
   "theorems": [
    "V11.C34_deserialise",
    "V11.C34_deserialise_too_long",
    "V11.C34_table_columns_round_trip"
   ],
   "note": ""
  },
  {
   "property": "C35",
   "status": "proved",
   "theorems": [
    "V11.C35_extract_these",
    "V11.C35_extract_all",
    "V11.C35_restore_consistent",
    "V11.C35_round_trip",
    "V11.C35_restore_plain",
    "V11.C35_restore_sorted"
   ],
   "note": "C35_extract_all excludes a table whose last id is in use (iteration panics there, C14); sorted tables with trackers of their own are not covered (they cannot be parents of anything but may have observers)."
  },
  {
   "property": "C36",
   "status": "proved",
   "theorems": [
    "V11.C36_restored_keys_follow_remapping",
    "V11.C36_restored_keys_follow_remapping_plain",
    "V11.C36_missing_remapping_panics",
    "V11.C36_remapping_recorded",
    "V11.C36_parent_then_child",
    "V11.C36_sorted_tables_never_remap",
    "V11.C36_empty_restore_keeps_old_remapping"
   ],
   "note": "Includes the defects the statement names: sorted children keep old keys; an empty restore leaves the previous remapping."
  },
  {
   "property": "C37",
   "status": "proved",
   "theorems": [
    "V11.C37_accepts_iff",
    "V11.C37_panics_iff",
    "V11.C37_rejects_iff",
    "V11.C37_rejected_leaves_everything",
    "V11.C37_short_data_not_rejected"
   ],
   "note": "accepts/rejects/panics characterised exactly."
  },
  {
   "property": "C38",
   "status": "proved",
   "theorems": [
    "V11.C38_live_flush_clean",
    "V11.C38_live_flush_leaks",
    "V11.C38_leak_is_forever",
    "V11.C38_leak_blocks_restore"
   ],
   "note": "Exact effect in both cases, and that the leak is permanent over every later history."
  },
  {
   "property": "C39",
   "status": "proved",
   "theorems": [
    "V11.C39_ids",
    "V11.C39_distinct",
    "V11.C39_permanent",
    "V11.C39_again",
    "V11.C39_register"
   ],
   "note": ""
  },
  {
   "property": "C40",
   "status": "proved",
   "theorems": [
    "V11.C40_set"
   ],
   "note": ""
  },
  {
   "property": "C41",
   "status": "proved",
   "theorems": [
    "V11.C41_value",
    "V11.C41_readable",
    "V11.C41_swap_returns",
    "V11.C41_persists"
   ],
   "note": "The property's INIT expression is taken to be constant. Twins of a different type panic on access (C41_readable)."
  },
  {
   "property": "C42",
   "status": "proved",
   "theorems": [
    "V11.C42_property",
    "V11.C42_table",
    "V11.C42_unregistered",
    "V11.C42_missing",
    "V11.C42_never_late"
   ],
   "note": "The registry is dead after such a panic: C62."
  },
  {
   "property": "C43",
   "status": "proved",
   "theorems": [
    "V11.C43_name",
    "V11.C43_property"
   ],
   "note": ""
  },
  {
   "property": "C44",
   "status": "proved",
   "theorems": [
    "V11.C44_register",
    "V11.C44_again"
   ],
   "note": "Kind, table version and trackers are not compared (src/tables.rs:218-228); the model compares what the code compares."
  },
  {
   "property": "C45",
   "status": "proved",
   "theorems": [
    "V11.C45_new_iff",
    "V11.C45_add_iff",
    "V11.C45_new",
    "V11.C45_listed",
    "V11.C45_add_again",
    "V11.C45_add_always",
    "V11.C45_add"
   ],
   "note": "Exact list of trackers, including the doubled ones of a domain listed twice."
  },
  {
   "property": "C46",
   "status": "proved",
   "theorems": [
    "V11.C46_builtin_events",
    "V11.C46_builtin_kinds",
    "V11.C46_debug",
    "V11.C46_default_builtin",
    "V11.C46_default_custom",
    "V11.C46_history",
    "V11.C46_add",
    "V11.C46_invalid_replaceable",
    "V11.C46_custom_removal_unusable"
   ],
   "note": ""
  },
  {
   "property": "C47",
   "status": "proved",
   "theorems": [
    "V11.C47_from",
    "V11.C47_new",
    "V11.C47_returns",
    "V11.C47_unflushed",
    "V11.C47_twins_ub"
   ],
   "note": ""
  },
  {
   "property": "C48",
   "status": "proved",
   "theorems": [
    "V11.C48_schedule",
    "V11.C48_quiet",
    "V11.C48_window",
    "V11.C48_spared",
    "V11.C48_dangling",
    "V11.C48_counterexample"
   ],
   "note": ""
  },
  {
   "property": "C49",
   "status": "proved",
   "theorems": [
    "V11.C49_results",
    "V11.C49_abort",
    "V11.C49_left"
   ],
   "note": ""
  },
  {
   "property": "C50",
   "status": "proved",
   "theorems": [
    "V11.Macro.C50_generated",
    "V11.Macro.C50_silent",
    "V11.Macro.C50_rejected",
    "V11.Macro.C50_surface"
   ],
   "note": ""
  },
  {
   "property": "C51",
   "status": "proved",
   "theorems": [
    "V11.C51_push_array",
    "V11.C51_push_array_panics_iff",
    "V11.C51_empty_push_array_range_panics"
   ],
   "note": ""
  },
  {
   "property": "C52",
   "status": "proved",
   "theorems": [
    "V11.C52_one_selected",
    "V11.C52_exact",
    "V11.C52_descending",
    "V11.C52_ascending_removes_wrong_row"
   ],
   "note": ""
  },
  {
   "property": "C53",
   "status": "proved",
   "theorems": [
    "V11.C53_append_history",
    "V11.C53_ids_are_dense",
    "V11.C53_retain_removes"
   ],
   "note": ""
  },
  {
   "property": "C54",
   "status": "proved",
   "theorems": [
    "V11.C54_skip_fast",
    "V11.C54_size_hint",
    "V11.C54_size_hint_underflow",
    "V11.C54_skip_fast_live"
   ],
   "note": ""
  },
  {
   "property": "C55",
   "status": "proved",
   "theorems": [
    "V11.C55_same_table",
    "V11.C55_other_tables",
    "V11.C55_accepted_by_other_tables"
   ],
   "note": ""
  },
  {
   "property": "C56",
   "status": "proved",
   "theorems": [
    "V11.C56_always_sorted",
    "V11.C56_edit_breaks_order"
   ],
   "note": ""
  },
  {
   "property": "C57",
   "status": "proved",
   "theorems": [
    "V11.C57_late_delete_hits_other_row",
    "V11.C57_prompt_delete",
    "V11.C57_any_deletable",
    "V11.C57_own_row"
   ],
   "note": ""
  },
  {
   "property": "C58",
   "status": "proved",
   "theorems": [
    "V11.C58_read_select_spares_rows"
   ],
   "note": ""
  },
  {
   "property": "C59",
   "status": "proved",
   "theorems": [
    "V11.C59_unremovable_dependant"
   ],
   "note": ""
  },
  {
   "property": "C60",
   "status": "proved",
   "theorems": [
    "V11.C60_live_flush_cascades",
    "V11.C60_live_or_deadlock",
    "V11.C60_same_as_flush"
   ],
   "note": ""
  },
  {
   "property": "C61",
   "status": "proved",
   "theorems": [
    "V11.C61_unhandled_event",
    "V11.C61_unhandled_event_harmless",
    "V11.C61_exact"
   ],
   "note": ""
  },
  {
   "property": "C62",
   "status": "proved",
   "theorems": [
    "V11.C62_dead",
    "V11.C62_forever",
    "V11.C62_cause",
    "V11.C62_triggers"
   ],
   "note": "Also every locking of a table, as it looks the domain up in the registry."
  },
  {
   "property": "C63",
   "status": "proved",
   "theorems": [
    "V11.C63_no_deadlock",
    "V11.C63_no_infinite_schedule",
    "V11.C63_completes",
    "V11.C63_poison",
    "V11.C63_try_write",
    "V11.C63_try_read",
    "V11.C63_opposite_orders",
    "V11.C63_restore_deadlocks",
    "V11.C63_shared_parent_deadlocks"
   ],
   "note": ""
  },
  {
   "property": "C64",
   "status": "proved",
   "theorems": [
    "V11.C64_isolated",
    "V11.C64_reachable",
    "V11.C64_session_alone",
    "V11.C64_calls_alone"
   ],
   "note": ""
  },
  {
   "property": "C65",
   "status": "proved",
   "theorems": [
    "V11.C65_serialisable",
    "V11.C65_no_lost_update"
   ],
   "note": ""
  },
  {
   "property": "C66",
   "status": "proved",
   "theorems": [
    "V11.C66_open",
    "V11.C66_harmless",
    "V11.C66_twin",
    "V11.C66_forever",
    "V11.C66_cause",
    "V11.C66_panic"
   ],
   "note": "Modules are told apart by the TypeId of their types (OwnTypes). Locks are free between calls."
  },
  {
   "property": "C67",
   "status": "proved",
   "theorems": [
    "V11.C67_returns",
    "V11.C67_adds",
    "V11.C67_panics"
   ],
   "note": ""
  },
  {
   "property": "C68",
   "status": "proved",
   "theorems": [
    "V11.C68_info",
    "V11.C68_domain_names"
   ],
   "note": "Of info only whether it returns."
  },
  {
   "property": "C69",
   "status": "proved",
   "theorems": [
    "V11.C69_as_one",
    "V11.C69_values",
    "V11.C69_joins",
    "V11.C69_sync_iff",
    "V11.C69_failed",
    "V11.C69_clone",
    "V11.C69_cut_off",
    "V11.C69_keeps",
    "V11.C69_apart",
    "V11.C69_unsynced"
   ],
   "note": "One thread at a time. Registries are told apart by number, as the code does by address."
  },
  {
   "property": "C70",
   "status": "proved",
   "theorems": [
    "V11.C70_no_access_out_of_bounds",
    "V11.C70_reads",
    "V11.C70_column_lengths",
    "V11.C70_survived",
    "V11.C70_index_survives",
    "V11.C70_agrees",
    "V11.C70_reach"
   ],
   "note": "Closures only look at the table. For consistent tables a panic while rows were added or deleted under the same lock ends the process (C49); the model goes on, so it covers more."
  },
  {
   "property": "C71",
   "status": "proved",
   "theorems": [
    "V11.C71_visit",
    "V11.C71_visit_closure_panics",
    "V11.C71_retain",
    "V11.C71_retain_predicate",
    "V11.C71_push_all",
    "V11.C71_push_array",
    "V11.C71_merge_iterator_panics",
    "V11.C71_merge_log_panics",
    "V11.C71_bag_loop"
   ],
   "note": "C71_visit also covers panicking iterators returned by the closure, exactly; C71_visit_closure_panics is the readable case. Needs len() at most the largest row id (merge: and that many with the new rows), as the calls do otherwise too (C15, C21)."
  },
  {
   "property": "C72",
   "status": "proved",
   "theorems": [
    "V11.C72_push_onto_full",
    "V11.C72_every_table"
   ],
   "note": "Other calls on the table a failed push left may mix the values of two rows (example in Props/Overflow)."
  },
  {
   "property": "C73",
   "status": "proved",
   "theorems": [
    "V11.C73_order",
    "V11.C73_next_prev",
    "V11.C73_wraps",
    "V11.C73_usize",
    "V11.C73_serde",
    "V11.C73_default"
   ],
   "note": "Id types are integer ranges with or without overflow checks. C73_wraps is the release profile."
  },
  {
   "property": "C74",
   "status": "proved",
   "theorems": [
    "V11.C74_iter_or_all",
    "V11.C74_push_sort",
    "V11.C74_map_unwrap",
    "V11.C74_downcast",
    "V11.C74_typed",
    "V11.C74_remove_rows",
    "V11.C74_select_extract"
   ],
   "note": "Memory is a partial map from addresses to typed arrays; from_raw_parts at the wrong type is UB in the model."
  },
  {
   "property": "C75",
   "status": "proved",
   "theorems": [
    "V11.C75_told",
    "V11.C75_include_self",
    "V11.C75_tracker_panics",
    "V11.C75_not_removal",
    "V11.C75_removal",
    "V11.C75_invariant",
    "V11.C75_run",
    "V11.C75_instance",
    "V11.C75_live_flush",
    "V11.C75_structural_trouble"
   ],
   "note": "consider/sort/needs_sort are taken as pure. That a panic in a tracker also poisons a lock is in C49/C66, not here."
  },
  {
   "property": "C76",
   "status": "proved",
   "theorems": [
    "V11.Program.C76_start",
    "V11.Program.C76_columns",
    "V11.Program.C76_references",
    "V11.Program.C76_searchable",
    "V11.Program.C76_standard",
    "V11.Program.C76_cascade",
    "V11.Program.C76_no_dangling",
    "V11.Program.C76_universe_starts",
    "V11.Program.C76_universe"
   ],
   "note": "Model/Declared computes schemas, trackers and handlers from declarations (Model/MacroConfig) and is connected to Model/Registry (C76_universe) and to the cascade properties (C76_cascade, C76_no_dangling). #[foreign] and #[add_tracker] trackers are observers."
  },
  {
   "property": "C77",
   "status": "proved",
   "theorems": [
    "V11.C77_told_once_per_chain",
    "V11.C77_clear_doubles",
    "V11.C77_chains_end",
    "V11.C77_exponential"
   ],
   "note": "Counts of observer calls for every graph, proved from the fact that the flush returned; C77_exponential is a family of concrete universes of every length."
  },
  {
   "property": "C78",
   "status": "proved",
   "theorems": [
    "V11.C78_storages_are_vectors",
    "V11.C78_every_table"
   ],
   "note": "Calls outside the contract (positions out of range, swapping deleted positions, pushes beyond the row-id type) are not covered here; C70 and C72 say what tables do with those. C26 also covers out-of-range calls of BoolCol."
  },
  {
   "property": "C79",
   "status": "proved",
   "theorems": [
    "V11.C79_agrees",
    "V11.C79_other_kinds",
    "V11.C79_aborts_iff",
    "V11.C79_all_or_nothing",
    "V11.C79_stale_push_aborts"
   ],
   "note": "Model/Unwind keeps the change list as well as the table through a panic; it agrees with the two earlier models. Proved from the state and the calls. Defect: pushing onto a cleared table with deleted rows ends the process."
  },
  {
   "property": "C80",
   "status": "proved",
   "theorems": [
    "V11.C80_agrees",
    "V11.C80_plain",
    "V11.C80_consistent",
    "V11.C80_consistent_fate",
    "V11.C80_too_many_rows",
    "V11.C80_sorted"
   ],
   "note": "Up to the flush. Defect: an extraction that is bad after its first entry ends the process when restored into a consistent table, although its header is accepted."
  },
  {
   "property": "C81",
   "status": "proved",
   "theorems": [
    "V11.C81_agrees",
    "V11.C81_no_deadlock",
    "V11.C81_completes",
    "V11.C81_no_infinite_schedule",
    "V11.C81_one_order",
    "V11.C81_shrink",
    "V11.C81_two_contexts",
    "V11.C81_growing_deadlocks",
    "V11.C81_reading_twice"
   ],
   "note": "Only locks: C81_agrees ties the actions to the log of Model/Context. A thread blocked by its own lock counts as blocked. The order needed is on the locks asked for, not on the contexts: C81_growing_deadlocks shows the latter is not enough."
  },
  {
   "property": "C82",
   "status": "proved",
   "theorems": [
    "V11.C82_calm",
    "V11.C82_cut",
    "V11.C82_cut_read",
    "V11.C82_cut_live",
    "V11.C82_created_rows_stay",
    "V11.C82_what_is_left",
    "V11.C82_integrity_kept",
    "V11.C82_retry",
    "V11.C82_dangling"
   ],
   "note": "The panic is that of an observing tracker; the thread's guards are released on the way (read guards and Flush guards do not poison). C82_dangling is the defect: with a tracker on a dependent table registered before its own dependants', a panic leaves dangling references that a second attempt does not repair."
  },
  {
   "property": "C83",
   "status": "proved",
   "theorems": [
    "V11.C83_no_ub",
    "V11.C83_alone",
    "V11.C83_session",
    "V11.C83_restore",
    "V11.C83_extract"
   ],
   "note": "UB in the model is get_unchecked out of bounds; the accesses of a thread's own closures (visit, merge0, retain) are inside the methods; contexts and kept CheckedRowIds are excluded (their defects are C47, C55, C57). Extraction: at most max+1 ids listed."
  },
  {
   "property": "C84",
   "status": "proved",
   "theorems": [
    "V11.C84_serial",
    "V11.C84_invariant",
    "V11.C84_integrity",
    "V11.C84_completes",
    "V11.C84_example"
   ],
   "note": "the mutex table is never asked for by the pieces themselves; that a cascade locks it is allowed (the thread then waits for itself, alone and in the process alike). Observer calls are not part of the state of the process; those of the run alone are in its log."
  },
  {
   "property": "C85",
   "status": "proved",
   "theorems": [
    "V11.C85_told",
    "V11.C85_list",
    "V11.C85_registered",
    "V11.C85_no_deadlock",
    "V11.C85_no_infinite_schedule",
    "V11.C85_completes",
    "V11.C85_derived",
    "V11.C85_own_table",
    "V11.C85_own_excludes",
    "V11.C85_cascade_hangs",
    "V11.C85_live_flush_hangs",
    "V11.C85_registering_tracker_hangs",
    "V11.C85_registration_deadlocks",
    "V11.C85_flush_locks",
    "V11.C85_flush_nothing_locks",
    "V11.C85_live_flush_locks",
    "V11.C85_select_locks",
    "V11.C85_derived_code"
   ],
   "note": "Trackers are any code that locks, flushes, selects and registers (nondeterministic choice among operation lists); rows are not part of this model (C75, C63–C65), and nothing panics."
  },
  {
   "property": "C86",
   "status": "proved",
   "theorems": [
    "V11.C86_no_deadlock",
    "V11.C86_completes",
    "V11.C86_from_agrees",
    "V11.C86_context_hangs",
    "V11.C86_gives_up_its_guard",
    "V11.C86_keeps_guards",
    "V11.C86_needs",
    "V11.C86_live_needs",
    "V11.C86_removal_iff",
    "V11.C86_null_iff"
   ],
   "note": "Needs are proved for every flush that returned, with any trackers and handlers; the converse for acyclic foreign_auto graphs with standard kinds (removal) or searchable columns (no-op handler). Contexts: properties as fields and a field type named twice are in C47/C81 only."
  },
  {
   "property": "C87",
   "status": "proved",
   "theorems": [
    "V11.C87_linearises",
    "V11.C87_program",
    "V11.C87_state",
    "V11.C87_lapse_kinds",
    "V11.C87_lapse_property",
    "V11.C87_lapse_domain",
    "V11.C87_no_lapse",
    "V11.C87_waits",
    "V11.C87_no_deadlock",
    "V11.C87_ends"
   ],
   "note": "Memory is taken to be sequentially consistent except for the static Prop, of which a racing reader can see all, nothing, or the domain without the place; property initialisers are values; guards that are kept over several calls are in C63-C65."
  },
  {
   "property": "C88",
   "status": "proved",
   "theorems": [
    "V11.C88_register",
    "V11.C88_after",
    "V11.C88_guarded",
    "V11.C88_exclusive",
    "V11.C88_stable",
    "V11.C88_no_lost_update",
    "V11.C88_poison",
    "V11.C88_poison_spreads",
    "V11.C88_panics",
    "V11.C88_steady",
    "V11.C88_no_deadlock",
    "V11.C88_ends",
    "V11.C88_self_wait"
   ],
   "note": "Finding the property's place, which may set its static Prop, is one step (C87 has its parts). Memory is sequentially consistent. `Drop` of values does not panic. Whether std lets readers pass waiting writers is left open: the no-deadlock theorem covers both. A thread that asks for a lock it has itself waits; std may panic instead."
  },
  {
   "property": "C89",
   "status": "proved",
   "theorems": [
    "V11.C89_any_tables",
    "V11.C89_save_load",
    "V11.C89_dangling",
    "V11.C89_keys_stay_good",
    "V11.C89_into_empty",
    "V11.C89_identical",
    "V11.C89_sorted_broken",
    "V11.C89_children_first"
   ],
   "note": "C89_any_tables: any tables, sorted or not, ids left alone or not; C89_dangling: exactly when a foreign key is bad afterwards; C89_sorted_broken: the defect of sorted tables; C89_save_load: every row arrives, keys follow (no sorted tables); C89_keys_stay_good: referential integrity; C89_into_empty, C89_identical: an empty target; C89_children_first: the wrong order panics."
  },
  {
   "property": "C90",
   "status": "proved",
   "theorems": [
    "V11.C90_read",
    "V11.C90_promise_believed",
    "V11.C90_read_too_long",
    "V11.C90_write"
   ],
   "note": "C90_write: any Sink; C90_read: any SeqInput; C90_promise_believed, C90_read_too_long: the panics"
  },
  {
   "property": "C91",
   "status": "proved",
   "theorems": [
    "V11.C91_ids_are_peak",
    "V11.C91_push_array_leaks"
   ],
   "note": "C91_ids_are_peak, C91_push_array_leaks"
  },
  {
   "property": "C92",
   "status": "proved",
   "theorems": [
    "V11.C92_only_dependants",
    "V11.C92_live_agrees",
    "V11.C92_live_left",
    "V11.C92_live_spreads",
    "V11.C92_live_partly",
    "V11.C92_live_out_of_range",
    "V11.C92_agrees",
    "V11.C92_agrees_tracker",
    "V11.C92_locks",
    "V11.C92_tables",
    "V11.C92_refused",
    "V11.C92_nothing_removed",
    "V11.C92_poisoned_dependant",
    "V11.C92_partly",
    "V11.C92_out_of_range"
   ],
   "note": "C92_agrees ties the model to the one of the other theorems; what a deadlock, undefined behaviour or stack overflow leaves means nothing"
  },
  {
   "property": "C93",
   "status": "proved",
   "theorems": [
    "V11.C93_locks",
    "V11.C93_frozen",
    "V11.C93_refused",
    "V11.C93_at_most_one",
    "V11.C93_only_dependants",
    "V11.C93_ends",
    "V11.C93_aborts",
    "V11.C93_salvaged",
    "V11.C93_agrees",
    "V11.C93_agrees_tell",
    "V11.C93_agrees_live",
    "V11.C93_under_lock",
    "V11.C93_usable",
    "V11.C93_stuck",
    "V11.C93_agrees_view",
    "V11.C93_aborts_parts"
   ],
   "note": "histories in which the process ends (abort, deadlock, undefined behaviour, stack overflow) have no state afterwards; C93_usable and C93_stuck assume that what the caller hands to a call does not panic inside it (it may between calls); C93_salvaged covers those too"
  },
  {
   "property": "C94",
   "status": "proved",
   "theorems": [
    "V11.C94_new",
    "V11.C94_values",
    "V11.C94_unknown",
    "V11.C94_add",
    "V11.C94_idle",
    "V11.C94_locks",
    "V11.C94_panics",
    "V11.C94_locks_add",
    "V11.C94_calm",
    "V11.C94_shadow",
    "V11.C94_constant"
   ],
   "note": "the initialisers' programs are over the calls of the registry, properties and tables of Model/Registry; one thread; a second lock of the registry by its holder is taken to wait forever (std allows a panic instead)"
  },
  {
   "property": "C95",
   "status": "proved",
   "theorems": [
    "V11.C95_acts_on_the_other",
    "V11.C95_deletes_in_the_other",
    "V11.C95_shorter_panics",
    "V11.C95_other_events",
    "V11.C95_live_flush_splits",
    "V11.C95_live_flush_dangles",
    "V11.C95_read_select"
   ],
   "note": "both universes have the same tables and tracker lists; not modelled: another universe that lacks the table's domain (indexing panics), and its remapping of deserialised ids"
  },
  {
   "property": "C96",
   "status": "proved",
   "theorems": [
    "V11.C96_held",
    "V11.C96_drop",
    "V11.C96_fields",
    "V11.C96_one_universe_safe",
    "V11.C96_dangles_iff",
    "V11.C96_use_after_free",
    "V11.C96_safe_code_dangles"
   ],
   "note": "the borrow checker is modelled as: a context borrows the universe passed to make it, a moved context cannot be used, a borrowed universe cannot be dropped; one thread; what is done through the locks is not modelled here"
  },
  {
   "property": "C97",
   "status": "proved",
   "theorems": [
    "V11.C97_state",
    "V11.C97_section",
    "V11.C97_synced",
    "V11.C97_refused",
    "V11.C97_failed",
    "V11.C97_shut_out",
    "V11.C97_kept",
    "V11.C97_as_one",
    "V11.C97_stuck",
    "V11.C97_no_deadlock",
    "V11.C97_no_deadlock_once",
    "V11.C97_deadlock",
    "V11.C97_deadlock_happens",
    "V11.C97_lost"
   ],
   "note": "what a call does with the locked registry is an arbitrary function, done in one step; handles are numbers of registries and can be used by anybody; memory is sequentially consistent"
  },
  {
   "property": "C98",
   "status": "proved",
   "theorems": [
    "V11.C98_set_locked",
    "V11.C98_register",
    "V11.C98_get",
    "V11.C98_late",
    "V11.C98_add_properties",
    "V11.C98_places",
    "V11.C98_tables",
    "V11.C98_relock"
   ],
   "note": "one thread (threads: C87); initial values as in Model/Registry"
  },
  {
   "property": "C99",
   "status": "proved",
   "theorems": [
    "V11.C99_select_or_deadlock",
    "V11.C99_same_as_read",
    "V11.C99_cycle_never_returns",
    "V11.C99_self_reference_deadlocks",
    "V11.C99_then_flush"
   ],
   "note": "observers are trackers that only look; trackers that lock tables themselves: C75"
  },
  {
   "property": "C100",
   "status": "proved",
   "theorems": [
    "V11.C100_agrees",
    "V11.C100_aborts_iff",
    "V11.C100_marks",
    "V11.C100_left",
    "V11.C100_partly",
    "V11.C100_poisoned_dependant",
    "V11.C100_unregistered_event"
   ],
   "note": "what is left by undefined behaviour, a deadlock or a stack overflow is not stated"
  },
  {
   "property": "C101",
   "status": "proved",
   "theorems": [
    "V11.C101_agrees",
    "V11.C101_poisoned",
    "V11.C101_returns",
    "V11.C101_left",
    "V11.C101_new",
    "V11.C101_new_spreads",
    "V11.C101_unflushed"
   ],
   "note": "what is left by undefined behaviour (two lock types of one name) and deadlocks is not stated"
  },
  {
   "property": "C102",
   "status": "proved",
   "theorems": [
    "V11.C102_held",
    "V11.C102_forever",
    "V11.C102_cause",
    "V11.C102_returns",
    "V11.C102_again",
    "V11.C102_drop",
    "V11.C102_mark",
    "V11.C102_spreads"
   ],
   "note": "one thread; deadlocks, undefined behaviour and aborts end the run"
  }
 ]
}