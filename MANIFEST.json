{
 "claims": [
  {
   "property": "C01",
   "status": "proved",
   "theorems": [
    "Verif.Cache.C01_get_is_latest_write",
    "Verif.Cache.C01_latest_write_unique",
    "Verif.Cache.C01_mget_is_pointwise_get",
    "Verif.Cache.C01_length_mismatch"
   ],
   "note": "Sequential histories of any length."
  },
  {
   "property": "C02",
   "status": "partial",
   "theorems": [
    "Verif.Cache.C02_lost_update_refuted",
    "Verif.Cache.C02_nonoverlapping_incr_partial",
    "Verif.Cache.C02_returned_numbers_distinct_partial",
    "Verif.Cache.C02_counter_bounds_partial",
    "Verif.Cache.C02_non_counter_untouched",
    "Verif.Cache.C02_sequential_incr"
   ],
   "note": "The full property is false of the code (lost update, proved); it is proved for calls on a key that do not overlap, with bounds for all schedules."
  },
  {
   "property": "C03",
   "status": "proved",
   "theorems": [
    "Verif.Queue.C03_fifo_no_loss_bounded",
    "Verif.Queue.C03_each_item_once",
    "Verif.Queue.C03_accepts_what_was_pushed",
    "Verif.Queue.C03_pop_takes_oldest",
    "Verif.Queue.C03_mismatched_pop_loses_item_refuted"
   ],
   "note": "Every schedule of concurrent Push/Pop/cancel. The _refuted theorem records a boundary: a Pop into an incompatible destination removes the item although delivery fails."
  },
  {
   "property": "C04",
   "status": "proved",
   "theorems": [
    "Verif.Queue.C04_push_false",
    "Verif.Queue.C04_pop_false",
    "Verif.Queue.C04_push_with_room_succeeds",
    "Verif.Queue.C04_pop_with_item_succeeds",
    "Verif.Queue.C04_cancelled_waiter_can_return"
   ],
   "note": "Every schedule and every time of cancellation."
  },
  {
   "property": "C05",
   "status": "proved",
   "theorems": [
    "Verif.ClientPool.C05_capacity",
    "Verif.ClientPool.C05_exclusive",
    "Verif.ClientPool.C05_push_never_blocks",
    "Verif.ClientPool.C05_available",
    "Verif.ClientPool.C05_pop_returns",
    "Verif.ClientPool.C05_cancelled_pop_returns"
   ],
   "note": "All schedules of Pop, Push and builds that fail or succeed."
  },
  {
   "property": "C06",
   "status": "partial",
   "theorems": [
    "Verif.ClientPool.C06_waiter_served_partial",
    "Verif.ClientPool.C06_waiter_served_if_any_client_partial",
    "Verif.ClientPool.C06_stranded_waiter_refuted"
   ],
   "note": "Refuted when builds fail while a caller waits; holds when no build fails, or when some client exists."
  },
  {
   "property": "C07",
   "status": "partial",
   "theorems": [
    "Verif.Registry.C07_built_at_most_once_and_cached",
    "Verif.Registry.C07_builds_at_most_one",
    "Verif.Registry.C07_first_get_builds_default",
    "Verif.Registry.C07_early_set_default_ignored_refuted"
   ],
   "note": "Everything is proved except that a SetDefault made before the first Register is overridden by it (proved as a refutation); C07_first_get_builds_default gives the exact default."
  },
  {
   "property": "C08",
   "status": "partial",
   "theorems": [
    "Verif.Workload.C08_draws_match_proportions_partial",
    "Verif.Workload.C08_every_draw_selects_an_api",
    "Verif.Workload.C08_negative_proportions_refuted"
   ],
   "note": "Holds for nonnegative proportions; IsValid also accepts negative proportions, for which the property is refuted."
  },
  {
   "property": "C09",
   "status": "proved",
   "theorems": [
    "Verif.Workload.C09_one_record_per_request",
    "Verif.Workload.C09_report_counts",
    "Verif.Workload.C09_no_record_invented",
    "Verif.Workload.C09_no_panic",
    "Verif.Workload.C09_run_ends",
    "Verif.Workload.C09_report_latency"
   ],
   "note": "All schedules of the open-loop engine."
  },
  {
   "property": "C10",
   "status": "partial",
   "theorems": [
    "Verif.RtNs.C10_built_once",
    "Verif.RtNs.C10_same_instance",
    "Verif.RtNs.C10_dependency_first",
    "Verif.RtNs.C10_failure_retried",
    "Verif.RtNs.C10_instantiate",
    "Verif.RtNs.C10_cycle_refuted",
    "Verif.RtNs.Race.C10_callers_in_turn",
    "Verif.RtNs.Race.C10_concurrent_refuted"
   ],
   "note": "Proved for all sequential histories that follow no dependency cycle. Refuted with witnesses: dependency cycles, and concurrent callers (Namespace has no lock)."
  },
  {
   "property": "C11",
   "status": "partial",
   "theorems": [
    "Verif.RtNs.C11_build",
    "Verif.RtNs.C11_optional_never_missing",
    "Verif.RtNs.C11_build_again",
    "Verif.RtNs.C11_with_parent",
    "Verif.RtNs.C11_redeclared_panics",
    "Verif.RtNs.C11_shared_variable_refuted",
    "Verif.RtNs.C11_child_argument_refuted"
   ],
   "note": "Precedence and missing-argument reporting proved for all builders, flags, environments and map orders. Refuted: names that differ in punctuation share an environment variable; a child cannot require an argument its parent declares (panic)."
  },
  {
   "property": "C12",
   "status": "proved",
   "theorems": [
    "Verif.RtNs.C12_nearest",
    "Verif.RtNs.C12_like_definer",
    "Verif.RtNs.C12_unknown",
    "Verif.RtNs.C12_shared",
    "Verif.RtNs.C12_has",
    "Verif.RtNs.C12_child"
   ],
   "note": "Sharing is stated for histories that follow no dependency cycle."
  },
  {
   "property": "C13",
   "status": "partial",
   "theorems": [
    "Verif.RtNs.Wait.C13_await_partial",
    "Verif.RtNs.Wait.C13_failure_cancels",
    "Verif.RtNs.Wait.C13_done_stays",
    "Verif.RtNs.Wait.C13_await_returns",
    "Verif.RtNs.Wait.C13_not_stuck",
    "Verif.RtNs.Wait.C13_grandchild_refuted",
    "Verif.RtNs.Wait.C13_parent_not_cancelled_refuted"
   ],
   "note": "Proved for a namespace and its direct children. Refuted for grandchildren: their Runnables are not counted by the grandparent."
  },
  {
   "property": "C14",
   "status": "partial",
   "theorems": [
    "Verif.Wiring.C14_kind",
    "Verif.Wiring.C14_content",
    "Verif.Wiring.C14_getDef",
    "Verif.Wiring.C14_getDef_ends",
    "Verif.Wiring.C14_alias_cycle_refuted",
    "Verif.Wiring.C14_property_on_alias_refuted"
   ],
   "note": "Kind, content and resolution for every call sequence. GetDef ends if the aliases have no cycle; with a cycle it does not end, and setting a property on an alias turns the alias into an empty definition (both refuted with witnesses)."
  },
  {
   "property": "C15",
   "status": "proved",
   "theorems": [
    "Verif.Wiring.C15_properties",
    "Verif.Wiring.C15_no_leak"
   ],
   "note": "Value lists for every sequence of calls."
  },
  {
   "property": "C16",
   "status": "partial",
   "theorems": [
    "Verif.Wiring.Ns.C16_same_node",
    "Verif.Wiring.Ns.C16_built_once",
    "Verif.Wiring.Ns.C16_told_once",
    "Verif.Wiring.Ns.C16_failed_alias_refuted",
    "Verif.Wiring.Ns.C16_cyclic_refuted",
    "Verif.Wiring.Ns.C16_same_name_refuted"
   ],
   "note": "Proved for every wiring without dependency cycles (handler told at most once: for every wiring). Refuted with witnesses: a failed Get of an alias makes the next Get panic, cyclic wiring builds twice, different nodes of one name are reported once."
  },
  {
   "property": "C17",
   "status": "partial",
   "theorems": [
    "Verif.Wiring.Ns.C17_placed_somewhere",
    "Verif.Wiring.Ns.C17_built_where_accepted",
    "Verif.Wiring.Ns.C17_built_by",
    "Verif.Wiring.Ns.C17_nearest",
    "Verif.Wiring.Ns.C17_shared",
    "Verif.Wiring.Ns.C17_comes_from_nearest",
    "Verif.Wiring.Ns.C17_instantiate_first_refuted",
    "Verif.Wiring.Ns.C17_derived"
   ],
   "note": "Placement proved for every wiring without dependency cycles and every nesting. Edges: a node first Instantiated and then Got never becomes an edge (refuted with witness)."
  },
  {
   "property": "C18",
   "status": "partial",
   "theorems": [
    "Verif.Wiring.Ns.C18_each_once",
    "Verif.Wiring.Ns.C18_back_in_order",
    "Verif.Wiring.Ns.C18_front_first",
    "Verif.Wiring.Ns.C18_result",
    "Verif.Wiring.Ns.C18_nodes_reversed",
    "Verif.Wiring.Ns.C18_nodes_built",
    "Verif.Wiring.Ns.C18_swallowed_error_refuted"
   ],
   "note": "Queue order, completeness and stop at the first error proved for all deferral patterns. Refuted: the pointer's deferred function drops the error of Instantiate, so a compilation can succeed without the server."
  },
  {
   "property": "C19",
   "status": "partial",
   "theorems": [
    "Verif.Wiring.C19_client_side",
    "Verif.Wiring.C19_server_side",
    "Verif.Wiring.C19_returned",
    "Verif.Wiring.C19_uniqueness_alias",
    "Verif.Wiring.C19_address_bypassed_refuted",
    "Verif.Wiring.C19_added_twice_refuted"
   ],
   "note": "Proved for all sequences in which the reserved names are not used by others and no modifier is added twice. Refuted: a server-side modifier added after the address makes clients bypass the address; a modifier added twice is visited once."
  },
  {
   "property": "C20",
   "status": "proved",
   "theorems": [
    "Verif.Wiring.Ns.C20_unique",
    "Verif.Wiring.Ns.C20_second_rejected"
   ],
   "note": "For every wiring without dependency cycles and every compilation history."
  },
  {
   "property": "C21",
   "status": "partial",
   "theorems": [
    "Verif.Address.C21_distinct_ports",
    "Verif.Address.C21_fails_iff_conflict",
    "Verif.Address.C21_terminates",
    "Verif.Address.C21_no_zero_port_partial",
    "Verif.Address.C21_port_zero_refuted",
    "Verif.Address.C21_first_free",
    "Verif.Address.C21_kept",
    "Verif.Address.C21_order_matters"
   ],
   "note": "Distinctness, fixed ports, reporting, conflicts and termination proved; 'no port is 0' is refuted at the top of the port range and proved when preferred ports leave room."
  },
  {
   "property": "C22",
   "status": "proved",
   "theorems": [
    "Verif.Address.C22_bind_differs_from_dial",
    "Verif.Address.C22_names_injective",
    "Verif.Address.C22_conventional_names",
    "Verif.Address.C22_unconventional_names_clash"
   ],
   "note": "For every address name."
  },
  {
   "property": "C23",
   "status": "partial",
   "theorems": [
    "Verif.Strings.C23_identifier_partial",
    "Verif.Strings.C23_identifier_or_space",
    "Verif.Strings.C23_space_refuted",
    "Verif.Strings.C23_empty_refuted",
    "Verif.Strings.C23_idempotent",
    "Verif.Strings.C23_clean_names_unchanged_partial",
    "Verif.Strings.C23_double_underscore_refuted",
    "Verif.Strings.C23_letters_survive",
    "Verif.Strings.C23_different_letters_stay_different",
    "Verif.Strings.C23_env_var",
    "Verif.Strings.C23_exact",
    "Verif.Strings.C23_capitalize"
   ],
   "note": "Refuted for names with spaces (kept), names made of digits (empty result) and repeated underscores; the rest proved for all names. C23_exact gives the cleaned name of every name outright."
  },
  {
   "property": "C24",
   "status": "partial",
   "theorems": [
    "Verif.Strings.C24_lines",
    "Verif.Strings.C24_lines_unique",
    "Verif.Strings.C24_indent",
    "Verif.Strings.C24_reindent_partial",
    "Verif.Strings.C24_inner_tab_refuted",
    "Verif.Strings.C24_deep_indentation_refuted"
   ],
   "note": "Indent proved; Reindent proved up to tab expansion and indentation at most 10000, outside of which it is refuted."
  },
  {
   "property": "C25",
   "status": "proved",
   "theorems": [
    "Verif.IR.C25_complete_traversal",
    "Verif.IR.C25_lists_exactly_the_tree",
    "Verif.IR.C25_filter_exact"
   ],
   "note": "All trees."
  },
  {
   "property": "C26",
   "status": "proved",
   "theorems": [
    "Verif.IR.C26_every_node_built_once",
    "Verif.IR.C26_unbuildable_node_fails"
   ],
   "note": "All registries, iteration orders, node lists and failures."
  },
  {
   "property": "C27",
   "status": "proved",
   "theorems": [
    "Verif.IR.C27_fires_once"
   ],
   "note": "All call sequences."
  },
  {
   "property": "C28",
   "status": "proved",
   "theorems": [
    "Verif.GoCode.C28_names_unique_and_stable",
    "Verif.GoCode.C28_declarations",
    "Verif.GoCode.C28_default_name"
   ],
   "note": "All sequences of AddPackage/AddType calls, for the package path given to NewImports."
  },
  {
   "property": "C29",
   "status": "proved",
   "theorems": [
    "Verif.GoCode.C29_equals_iff_same",
    "Verif.GoCode.C29_equivalence",
    "Verif.GoCode.C29_printing_not_injective"
   ],
   "note": "All type names."
  },
  {
   "property": "C30",
   "status": "proved",
   "theorems": [
    "Verif.GoCode.C30_contains_iff",
    "Verif.GoCode.C30_preorder"
   ],
   "note": "All interfaces."
  },
  {
   "property": "C31",
   "status": "partial",
   "theorems": [
    "Verif.NoSQL.C31_and",
    "Verif.NoSQL.C31_or_partial",
    "Verif.NoSQL.C31_nor_partial",
    "Verif.NoSQL.C31_not",
    "Verif.NoSQL.C31_several_conditions",
    "Verif.NoSQL.C31_no_conditions",
    "Verif.NoSQL.C31_order_irrelevant",
    "Verif.NoSQL.C31_nesting_irrelevant",
    "Verif.NoSQL.C31_empty_or_refuted",
    "Verif.NoSQL.C31_empty_nor_refuted"
   ],
   "note": "All laws hold except for an $or or $nor without parts, which is refuted."
  },
  {
   "property": "C32",
   "status": "partial",
   "theorems": [
    "Verif.NoSQL.C32_int_literal_partial",
    "Verif.NoSQL.C32_float_literal",
    "Verif.NoSQL.C32_int_field",
    "Verif.NoSQL.C32_not_a_number",
    "Verif.NoSQL.C32_range",
    "Verif.NoSQL.C32_float_field_int_literal_refuted"
   ],
   "note": "Refuted for floating point fields compared with integer literals; proved for the rest."
  },
  {
   "property": "C33",
   "status": "partial",
   "theorems": [
    "Verif.NoSQL.C33_exists_true_refuted",
    "Verif.NoSQL.C33_exists_false_refuted"
   ],
   "note": "Refuted: $exists true is always rejected, and $exists false ignores the named field; both behaviours are characterised exactly."
  },
  {
   "property": "C34",
   "status": "partial",
   "theorems": [
    "Verif.NoSQL.C34_literal_partial",
    "Verif.NoSQL.C34_field_partial",
    "Verif.NoSQL.C34_same_documents",
    "Verif.NoSQL.C34_array_literal_prefix",
    "Verif.NoSQL.C34_array_literal_refuted"
   ],
   "note": "Proved for values without arrays; for array values the code tests for a prefix, which is characterised exactly and refutes the property."
  },
  {
   "property": "C35",
   "status": "proved",
   "theorems": [
    "Verif.NoSQL.C35_find_many",
    "Verif.NoSQL.C35_find_one",
    "Verif.NoSQL.C35_rejection_uniform"
   ],
   "note": "That the collection is unchanged is in the types of the model: find functions return no new collection. The code's cursors share memory with the collection, which is not modelled here."
  },
  {
   "property": "C36",
   "status": "proved",
   "theorems": [
    "Verif.NoSQL.C36_delete_many",
    "Verif.NoSQL.C36_delete_one",
    "Verif.NoSQL.C36_delete_idempotent"
   ],
   "note": "For every query that is accepted and does not panic on the documents."
  },
  {
   "property": "C37",
   "status": "proved",
   "theorems": [
    "Verif.NoSQL.C37_insert_one",
    "Verif.NoSQL.C37_insert_error",
    "Verif.NoSQL.C37_insert_many"
   ],
   "note": ""
  },
  {
   "property": "C38",
   "status": "partial",
   "theorems": [
    "Verif.NoSQL.C38_update_one",
    "Verif.NoSQL.C38_update_many",
    "Verif.NoSQL.C38_put",
    "Verif.NoSQL.C38_set_partial",
    "Verif.NoSQL.C38_set_then_find",
    "Verif.NoSQL.C38_stored_integer",
    "Verif.NoSQL.C38_set_null_refuted"
   ],
   "note": "$set to null panics (refuted); the rest is proved."
  },
  {
   "property": "C39",
   "status": "partial",
   "theorems": [
    "Verif.NoSQL.C39_set_last_partial",
    "Verif.NoSQL.C39_truncates_refuted",
    "Verif.NoSQL.C39_stale_elements_refuted"
   ],
   "note": "Refuted for every position but the last: the code cuts the array after the element it sets."
  },
  {
   "property": "C40",
   "status": "partial",
   "theorems": [
    "Verif.NoSQL.C40_push",
    "Verif.NoSQL.C40_add_to_set",
    "Verif.NoSQL.C40_add_to_set_idempotent",
    "Verif.NoSQL.C40_pull_value",
    "Verif.NoSQL.C40_pull_matching",
    "Verif.NoSQL.C40_add_to_set_refuted",
    "Verif.NoSQL.C40_pull_missing_refuted"
   ],
   "note": "$addToSet compares Go types, so it can add an equal number again, and $pull creates a missing field (both refuted); the rest is proved."
  },
  {
   "property": "C41",
   "status": "proved",
   "theorems": [
    "Verif.NoSQL.C41_inc",
    "Verif.NoSQL.C41_wrap",
    "Verif.NoSQL.C41_inc_twice",
    "Verif.NoSQL.C41_unset",
    "Verif.NoSQL.C41_unset_field"
   ],
   "note": "Integers wrap in the type of the field, as in Go."
  },
  {
   "property": "C42",
   "status": "partial",
   "theorems": [
    "Verif.NoSQL.C42_single_entry_partial",
    "Verif.NoSQL.C42_malformed",
    "Verif.NoSQL.C42_several_entries_refuted",
    "Verif.NoSQL.C42_update_many_refuted",
    "Verif.NoSQL.C42_replace_refuted"
   ],
   "note": "Refuted for updates with several entries, UpdateMany and ReplaceOne; proved for UpdateOne with one operator on one path of any depth and for malformed arguments."
  },
  {
   "property": "C43",
   "status": "partial",
   "theorems": [
    "Verif.NoSQL.C43_upsert",
    "Verif.NoSQL.C43_one_document_per_id_partial",
    "Verif.NoSQL.C43_upsert_id_refuted"
   ],
   "note": "UpsertID with documents that do not carry the identifier inserts a new document every time (refuted); proved for documents that do."
  },
  {
   "property": "C44",
   "status": "partial",
   "theorems": [
    "Verif.Wrappers.C44_retries_partial",
    "Verif.Wrappers.C44_zero_tries_refuted",
    "Verif.Wrappers.C44_sleeps",
    "Verif.Wrappers.C44_rate_limited_partial",
    "Verif.Wrappers.C44_rate_limited_numbering_refuted"
   ],
   "note": "Full statement for max >= 1 (plain and fixed delay). Refuted for max <= 0 (never calls, reports success) and numbering refuted for the rate-limited client."
  },
  {
   "property": "C45",
   "status": "partial",
   "theorems": [
    "Verif.Wrappers.C45_backoff_partial",
    "Verif.Wrappers.C45_schedule",
    "Verif.Wrappers.C45_zero_delay_refuted",
    "Verif.Wrappers.C45_overflow_refuted",
    "Verif.Wrappers.C45_jitter_panics_refuted"
   ],
   "note": "Holds for a positive delay and limit <= 2^62 ns. Refuted for delay 0 (endless retries), for delays that overflow int64, and for jitter on a 1ns delay (panic)."
  },
  {
   "property": "C46",
   "status": "partial",
   "theorems": [
    "Verif.Wrappers.C46_bucket_partial",
    "Verif.Wrappers.C46_retry_decision",
    "Verif.Wrappers.C46_drained_forever_refuted",
    "Verif.Wrappers.C46_concurrent_refuted",
    "Verif.Wrappers.C46_rate_limit",
    "Verif.Wrappers.C46_rate_liveness",
    "Verif.Wrappers.C46_zero_rate"
   ],
   "note": "Holds for calls that do not overlap, with exact arithmetic. Refuted for overlapping calls (lost updates); a drained bucket never recovers."
  },
  {
   "property": "C47",
   "status": "proved",
   "theorems": [
    "Verif.Wrappers.C47_round_robin",
    "Verif.Wrappers.C47_fair",
    "Verif.Wrappers.C47_exclusive",
    "Verif.Wrappers.C47_no_clients_refuted"
   ],
   "note": "For every schedule and every n >= 1; with no clients a call panics."
  },
  {
   "property": "C48",
   "status": "partial",
   "theorems": [
    "Verif.Wrappers.C48_result_partial",
    "Verif.Wrappers.C48_returns",
    "Verif.Wrappers.C48_no_leak_on_completion",
    "Verif.Wrappers.C48_helper_leaks_refuted",
    "Verif.Wrappers.C48_leak_reached_refuted",
    "Verif.Wrappers.C48_torn_result_refuted"
   ],
   "note": "The error is always the timeout error after the deadline or the call's own; refuted: the helper goroutine leaks after every timeout, and a racing call can report success with a zero value."
  },
  {
   "property": "C49",
   "status": "partial",
   "theorems": [
    "Verif.Deploy.Compose.C49_servers",
    "Verif.Deploy.Compose.C49_local_dial",
    "Verif.Deploy.Compose.C49_passed_through",
    "Verif.Deploy.Compose.C49_nothing_else",
    "Verif.Deploy.Compose.C49_redeclared",
    "Verif.Deploy.Compose.C49_set_env",
    "Verif.Deploy.Compose.C49_any_order",
    "Verif.Deploy.Compose.C49_clash_refuted",
    "Verif.Deploy.Compose.C49_two_servers_refuted",
    "Verif.Deploy.Compose.C49_generates",
    "Verif.Deploy.Compose.C49_servers_reachable_partial"
   ],
   "note": "Proved for all containers, arguments and map orders, provided that no two arguments of a container share an environment variable. Refuted without that: clashing variables (C49_clash_refuted) and one address bound twice (C49_two_servers_refuted), where the map order decides. The text of the file is not modelled."
  },
  {
   "property": "C50",
   "status": "partial",
   "theorems": [
    "Verif.Deploy.Env.C50_one_port",
    "Verif.Deploy.Env.C50_files_agree",
    "Verif.Deploy.Env.C50_variables",
    "Verif.Deploy.Env.C50_any_order",
    "Verif.Deploy.Env.C50_service_name",
    "Verif.Deploy.Env.C50_clash_refuted",
    "Verif.Deploy.Env.C50_port_zero_refuted"
   ],
   "note": "Proved for all nodes and start ports with one bind and one dial config per address and different variable names. Refuted: variables that differ only in punctuation clash, and ports wrap around to 0."
  },
  {
   "property": "C51",
   "status": "partial",
   "theorems": [
    "Verif.Grpc.C51_generates",
    "Verif.Grpc.C51_declares",
    "Verif.Grpc.C51_compiles",
    "Verif.Grpc.C51_arguments_partial",
    "Verif.Grpc.C51_results_partial",
    "Verif.Grpc.C51_maps_are_lost",
    "Verif.Grpc.C51_pointers_crash",
    "Verif.Grpc.C51_map_refuted",
    "Verif.Grpc.C51_map_of_structs_refuted",
    "Verif.Grpc.C51_pointer_refuted",
    "Verif.Grpc.C51_nil_refuted",
    "Verif.Grpc.C51_embedded_refuted",
    "Verif.Grpc.C51_several_names_refuted",
    "Verif.Grpc.C51_int_slice_refuted",
    "Verif.Grpc.C51_int_map_refuted",
    "Verif.Grpc.C51_byte_refuted",
    "Verif.Grpc.C51_pointer_to_basic_refuted",
    "Verif.Grpc.C51_name_refuted",
    "Verif.Grpc.C51_msg_refuted",
    "Verif.Grpc.C51_same_name_refuted"
   ],
   "note": "Generation succeeds exactly for supported types, declares every reachable struct once, and its output compiles for clean names and compilable types. Arguments and results round-trip for faithful types: no maps, pointers, embedded structs or several fields on one line, at any depth. Outside those the property is refuted: maps arrive empty, pointers crash, and so on."
  },
  {
   "property": "C52",
   "status": "proved",
   "theorems": [
    "Verif.Wrappers.C52_rate",
    "Verif.Wrappers.C52_effect",
    "Verif.Wrappers.C52_delay",
    "Verif.Wrappers.C52_negative_delay_refuted"
   ],
   "note": "All draws and probabilities; delay for maxima between 0 and 9e12 ms, a negative maximum panics."
  },
  {
   "property": "C53",
   "status": "partial",
   "theorems": [
    "Verif.GoGen.C53_separate_directories_partial",
    "Verif.GoGen.C53_local_modules_partial",
    "Verif.GoGen.C53_create_twice_fails",
    "Verif.GoGen.C53_created_modules_share_directory_refuted",
    "Verif.GoGen.C53_retry_after_error_refuted"
   ],
   "note": "Refuted for generated modules with the same last path element and for retries after an error; proved for the rest."
  },
  {
   "property": "C54",
   "status": "proved",
   "theorems": [
    "Verif.GoGen.C54_each_declared_node_once",
    "Verif.GoGen.C54_redeclaration_fails",
    "Verif.GoGen.C54_each_instantiation_once"
   ],
   "note": "All call sequences."
  },
  {
   "property": "C55",
   "status": "partial",
   "theorems": [
    "Verif.GoValue.C55_delivers_same_value",
    "Verif.GoValue.C55_failure_leaves_destination",
    "Verif.GoValue.C55_succeeds_iff_fits",
    "Verif.GoValue.C55_assigns_or_errors_partial",
    "Verif.GoValue.C55_nil_source_refuted",
    "Verif.GoValue.C55_read_back",
    "Verif.GoValue.C55_clear",
    "Verif.GoValue.C55_read",
    "Verif.GoValue.C55_read_nil_refuted"
   ],
   "note": "Proved for every value without nil inside; a nil source panics (refuted)."
  },
  {
   "property": "C56",
   "status": "partial",
   "theorems": [
    "Verif.GoCode.C56_type_names_refer_to_imports_partial",
    "Verif.GoCode.C56_variadic_type_not_imported_refuted"
   ],
   "note": "Proved for types without variadic or generic parts; refuted for those."
  },
  {
   "property": "C57",
   "status": "partial",
   "theorems": [
    "Verif.GoGen.C57_constructor_arguments_partial",
    "Verif.GoGen.C57_rejected_iff",
    "Verif.GoGen.C57_parameter_called_n_refuted"
   ],
   "note": "Proved for constructors with distinct parameter names other than n and err; refuted for a parameter called n."
  },
  {
   "property": "C58",
   "status": "partial",
   "theorems": [
    "Verif.NoSQL.C58_subdocument_field",
    "Verif.NoSQL.C58_array_position",
    "Verif.NoSQL.C58_negative_position_refuted",
    "Verif.NoSQL.C58_number",
    "Verif.NoSQL.C58_pieces"
   ],
   "note": "Negative positions panic (refuted)."
  },
  {
   "property": "C59",
   "status": "partial",
   "theorems": [
    "Verif.NoSQL.C59_in",
    "Verif.NoSQL.C59_ne_partial",
    "Verif.NoSQL.C59_ne_refuted",
    "Verif.NoSQL.C59_all",
    "Verif.NoSQL.C59_elem_match"
   ],
   "note": "$ne does not match documents without the field and matches arrays that contain the value (refuted)."
  },
  {
   "property": "C60",
   "status": "proved",
   "theorems": [
    "Verif.NoSQL.Store.C60_collections"
   ],
   "note": "Sequential histories; GetCollection is not synchronised in the code."
  },
  {
   "property": "C61",
   "status": "partial",
   "theorems": [
    "Verif.NoSQL.C61_replace_many",
    "Verif.NoSQL.C61_replace_one",
    "Verif.NoSQL.C61_malformed_query_refuted"
   ],
   "note": "ReplaceMany reports success for a malformed query (refuted); the rest is proved."
  },
  {
   "property": "C62",
   "status": "partial",
   "theorems": [
    "Verif.Deploy.Kube.C62_servers",
    "Verif.Deploy.Kube.C62_local_dial",
    "Verif.Deploy.Kube.C62_remote_dial_partial",
    "Verif.Deploy.Kube.C62_containers",
    "Verif.Deploy.Kube.C62_complete",
    "Verif.Deploy.Kube.C62_set_env",
    "Verif.Deploy.Kube.C62_names",
    "Verif.Deploy.Kube.C62_no_env_refuted",
    "Verif.Deploy.Kube.C62_order_refuted",
    "Verif.Deploy.Kube.C62_clash_refuted",
    "Verif.Deploy.Kube.C62_same_file_refuted"
   ],
   "note": "Servers, local dials, containers, names and plugin-set variables are proved; remote dials are proved for containers that have a variable of their own, and refuted for the others. Refuted: ports depend on Go's map order; variable names that clash across pods share a config map entry; pods whose names differ in punctuation share files. YAML syntax and indentation are not modelled."
  },
  {
   "property": "C63",
   "status": "partial",
   "theorems": [
    "Verif.Deploy.Run.C63_generates",
    "Verif.Deploy.Run.C63_function_required",
    "Verif.Deploy.Run.C63_missing",
    "Verif.Deploy.Run.C63_ends",
    "Verif.Deploy.Run.C63_failures_do_not_spread",
    "Verif.Deploy.Run.C63_started_partial",
    "Verif.Deploy.Run.C63_once_partial",
    "Verif.Deploy.Run.C63_failed_dependency_partial",
    "Verif.Deploy.Run.C63_directory_partial",
    "Verif.Deploy.Run.C63_twice_refuted",
    "Verif.Deploy.Run.C63_status_refuted",
    "Verif.Deploy.Run.C63_failed_dependency_refuted",
    "Verif.Deploy.Run.C63_directory_refuted",
    "Verif.Deploy.Run.C63_system_variable_refuted",
    "Verif.Deploy.Run.C63_cycle_refuted",
    "Verif.Deploy.Run.C63_environment"
   ],
   "note": "Missing variables, termination, and dependencies set before every start are proved; 'exactly once' is proved for processes named after their dependencies, and at most twice otherwise. Refuted: started twice, success reported although nothing started, started without a failed dependency, started in another process's directory, variables set by the system, cyclic dependencies."
  },
  {
   "property": "C64",
   "status": "partial",
   "theorems": [
    "Verif.Grpc.C64_call_partial",
    "Verif.Grpc.C64_at_most_once",
    "Verif.Grpc.C64_maps_refuted",
    "Verif.Grpc.C64_pointers_refuted",
    "Verif.Grpc.C64_happens_refuted"
   ],
   "note": "Proved for faithful types as in C51; the call runs at most once for all types. Refuted for methods with maps (the implementation never sees an entry) and with pointers to structs (no call ever reaches the implementation; the server's process ends). The text of errors is not modelled."
  },
  {
   "property": "C65",
   "status": "partial",
   "theorems": [
    "Verif.Tracing.Ot.C65_trace",
    "Verif.Tracing.Ot.C65_context",
    "Verif.Tracing.Ot.C65_transparent",
    "Verif.Tracing.Ot.C65_unsampled",
    "Verif.Tracing.Ot.C65_server_panics_refuted",
    "Verif.Tracing.Ot.C65_server_partial"
   ],
   "note": "proved except that a trace context with empty flags makes the server wrapper panic (refuted; guarded theorem for all others)"
  },
  {
   "property": "C66",
   "status": "partial",
   "theorems": [
    "Verif.Tracing.Xt.C66_events",
    "Verif.Tracing.Xt.C66_task",
    "Verif.Tracing.Xt.C66_call",
    "Verif.Tracing.Xt.C66_transparent",
    "Verif.Tracing.Xt.C66_after_call_refuted",
    "Verif.Tracing.Xt.C66_nested_refuted",
    "Verif.Tracing.Xt.C66_error_refuted"
   ],
   "note": "events, task and order within a call proved; order between a call and what follows it, and for calls that return errors over the network, refuted"
  },
  {
   "property": "C67",
   "status": "proved",
   "theorems": [
    "Verif.Tracing.C67_clocks",
    "Verif.Tracing.C67_call",
    "Verif.Tracing.C67_same_name_refuted"
   ],
   "note": "proved for loggers with different names; without that the converse is refuted"
  },
  {
   "property": "C68",
   "status": "partial",
   "theorems": [
    "Verif.Http.C68_arguments",
    "Verif.Http.C68_results",
    "Verif.Http.C68_unexported_refuted",
    "Verif.Http.C68_invalid_utf8_refuted",
    "Verif.Http.C68_nan_refuted",
    "Verif.Http.C68_pointer_to_nil_refuted",
    "Verif.Http.C68_legal_target"
   ],
   "note": "The two iff theorems cover all values; values outside are refuted by witnesses. The text form of JSON is a parameter with laws (parse after print), shown satisfiable by exampleLib."
  },
  {
   "property": "C69",
   "status": "partial",
   "theorems": [
    "Verif.Http.C69_success",
    "Verif.Http.C69_error",
    "Verif.Http.C69_executions",
    "Verif.Http.C69_at_most_once_partial",
    "Verif.Http.C69_status",
    "Verif.Http.C69_context",
    "Verif.Http.C69_at_most_once_refuted",
    "Verif.Http.C69_deadline_refuted",
    "Verif.Http.C69_error_text_refuted"
   ],
   "note": "At most once fails when a reused connection breaks, because net/http repeats GET requests."
  },
  {
   "property": "C70",
   "status": "partial",
   "theorems": [
    "Verif.ModGen.C70_own_parameters_partial",
    "Verif.ModGen.C70_last_wins",
    "Verif.ModGen.C70_second_retrier_refuted",
    "Verif.ModGen.C70_leftover_refuted",
    "Verif.ModGen.C70_second_pool_refuted"
   ],
   "note": "Proved for nodes kept apart (different plugins or interface names, or same parameters); refuted for two retriers or two pools of the same interface in one process."
  },
  {
   "property": "C71",
   "status": "partial",
   "theorems": [
    "Verif.ModGen.C71_constructor_exists_partial",
    "Verif.ModGen.C71_thrift_client_refuted",
    "Verif.ModGen.C71_one_definition_partial",
    "Verif.ModGen.C71_one_definition_refuted"
   ],
   "note": "Refuted for a Thrift client beside a gRPC client of the same interface and for gRPC servers of a plain and a wrapped interface; proved otherwise."
  },
  {
   "property": "C72",
   "status": "partial",
   "theorems": [
    "Verif.ModGen.C72_copied_partial",
    "Verif.ModGen.C72_only_asked",
    "Verif.ModGen.C72_copied_refuted",
    "Verif.ModGen.C72_required"
   ],
   "note": "Requiring is proved in full; copying is refuted for a service whose interface and implementation are in different local modules."
  },
  {
   "property": "C73",
   "status": "partial",
   "theorems": [
    "Verif.Stack.C73_interface_partial",
    "Verif.Stack.C73_panics_iff",
    "Verif.Stack.C73_health_after_tracing_refuted",
    "Verif.Stack.C73_client_fits_server",
    "Verif.Stack.C73_struct_implements",
    "Verif.Stack.C73_call_typechecks",
    "Verif.Stack.C73_call_transparent",
    "Verif.Stack.C73_health_answers",
    "Verif.Stack.C73_health_twice_refuted"
   ],
   "note": "Holds for every stack in which no tracing plugin precedes a health checker; with one, compilation panics (C73_panics_iff is exact). Clashes of argument names with generated local names are not modelled."
  },
  {
   "property": "C74",
   "status": "partial",
   "theorems": [
    "Verif.Backends.C74_redis_partial",
    "Verif.Backends.C74_memcached_partial",
    "Verif.Backends.C74_redis_mget_missing_refuted",
    "Verif.Backends.C74_lengths_refuted",
    "Verif.Backends.C74_delete_missing_refuted",
    "Verif.Backends.C74_incr_missing_refuted",
    "Verif.Backends.C74_negative_counter_refuted",
    "Verif.Backends.C74_key_refuted",
    "Verif.Backends.C74_any_refuted",
    "Verif.Backends.C74_duplicate_key_refuted",
    "Verif.Backends.C74_redis_failed",
    "Verif.Backends.C74_memcached_failed",
    "Verif.Backends.C74_unwritable",
    "Verif.Backends.C74_partial_mset_refuted",
    "Verif.Backends.C74_no_keys_refuted",
    "Verif.Backends.C74_illegal_key_refuted",
    "Verif.Backends.C74_memcached_counter",
    "Verif.Backends.C74_overflow_refuted"
   ],
   "note": "Holds for well-typed programs that stay clear of the refuted cases; the conditions are listed in Typed, RedisOk, MemcachedOk. The servers are modelled after their documentation; JSON is a parameter with laws for integers."
  },
  {
   "property": "C75",
   "status": "partial",
   "theorems": [
    "Verif.Backends.C75_one_client_partial",
    "Verif.Backends.C75_share",
    "Verif.Backends.C75_two_processes_refuted",
    "Verif.Backends.C75_integer_refuted",
    "Verif.Backends.C75_early_partial",
    "Verif.Backends.C75_push_fails"
   ],
   "note": "Holds for one client and values that JSON carries through an any; with several clients every client is a consumer and takes its share (C75_share is exact), so items are stranded in processes that only push. The broker is modelled after its documentation."
  },
  {
   "property": "C76",
   "status": "partial",
   "theorems": [
    "Verif.Cart.C76_cart_partial",
    "Verif.Cart.C76_cart_without_merges",
    "Verif.Cart.C76_concurrent_partial",
    "Verif.Cart.C76_concurrent_refuted",
    "Verif.Cart.C76_never_fails"
   ],
   "note": "Histories whose merges are of two different carts with the session's known items first; other merges are refuted under C77. Concurrent AddItem calls for one customer may lose an item (refuted)."
  },
  {
   "property": "C77",
   "status": "partial",
   "theorems": [
    "Verif.Cart.C77_merge_partial",
    "Verif.Cart.C77_stale_refuted",
    "Verif.Cart.C77_self_refuted"
   ],
   "note": "Refuted in general: an item both carts have is lost when it comes after a new item that made append reallocate, and merging a cart with itself deletes it. Proved for two different carts whose common items come before the session's new ones or where the array has room."
  },
  {
   "property": "C78",
   "status": "partial",
   "theorems": [
    "Verif.Users.C78_users_partial",
    "Verif.Users.C78_login_sound",
    "Verif.Users.C78_cards_hidden",
    "Verif.Users.C78_unknown_refuted"
   ],
   "note": "Histories without double usernames, short card numbers and look-ups of unknown identifiers, where the code does something else (refuted). Soundness of logins and masking of cards hold in every history."
  },
  {
   "property": "C79",
   "status": "partial",
   "theorems": [
    "Verif.Users.C79_login_partial",
    "Verif.Users.C79_duplicate_refuted",
    "Verif.Users.C79_short_card_refuted"
   ],
   "note": "Refuted in general: a username can be registered twice and the second account is locked out; a card number under four digits makes Login panic."
  },
  {
   "property": "C80",
   "status": "partial",
   "theorems": [
    "Verif.Orders.C80_accepted_iff",
    "Verif.Orders.C80_placed",
    "Verif.Orders.C80_refused_partial",
    "Verif.Orders.C80_unpaid",
    "Verif.Orders.C80_other_cart_refuted",
    "Verif.Orders.C80_unknown_refuted",
    "Verif.Orders.C80_shipped_without_order_refuted",
    "Verif.Orders.C80_late_item_refuted"
   ],
   "note": "Refuted: NewOrder empties the customer's cart rather than the ordered one; unknown customers, addresses and cards are accepted; a failing order insert leaves a shipment; items added meanwhile are deleted."
  },
  {
   "property": "C81",
   "status": "partial",
   "theorems": [
    "Verif.Orders.C81_orders_of_customer",
    "Verif.Orders.C81_order_by_id",
    "Verif.Orders.C81_status_refuted",
    "Verif.Orders.C81_shipped_refuted"
   ],
   "note": "The contents are proved; the shipping status in an order never changes (refuted). Identifiers (uuids) are assumed to be drawn only once."
  },
  {
   "property": "C82",
   "status": "partial",
   "theorems": [
    "Verif.Shipping.C82_status",
    "Verif.Shipping.C82_all_shipped_partial",
    "Verif.Shipping.C82_stuck_refuted"
   ],
   "note": "Refuted in general: if the insert of a queued shipment fails the queue master retries it for ever and nothing later is shipped. Progress is proved for schedules without failing inserts."
  },
  {
   "property": "C83",
   "status": "partial",
   "theorems": [
    "Verif.GoParse.C83_resolved_partial",
    "Verif.GoParse.C83_same_type_partial",
    "Verif.GoParse.C83_array_refuted",
    "Verif.GoParse.C83_generic_refuted",
    "Verif.GoParse.C83_alias_refuted",
    "Verif.GoParse.C83_shadow_refuted",
    "Verif.GoParse.C83_import_name_refuted",
    "Verif.GoParse.C83_unknown_part_refuted"
   ],
   "note": "Proved for files without name clashes and all types except arrays, generic types, type literals, byte, rune, uintptr; there the code is wrong (refuted theorems)."
  },
  {
   "property": "C84",
   "status": "partial",
   "theorems": [
    "Verif.GoParse.C84_signature",
    "Verif.GoParse.C84_fields_partial",
    "Verif.GoParse.C84_fields_refuted",
    "Verif.GoParse.C84_loaded_partial",
    "Verif.GoParse.C84_embedded_refuted",
    "Verif.GoParse.C84_order_refuted",
    "Verif.GoParse.C84_first_field_refuted",
    "Verif.GoParse.C84_generic_method_refuted",
    "Verif.GoParse.C84_parsed"
   ],
   "note": "Refuted: fields that share a type are dropped; one embedded interface loses all functions of the package silently; a method on a non-struct type makes the result depend on map order."
  },
  {
   "property": "C85",
   "status": "partial",
   "theorems": [
    "Verif.GoParse.C85_interface_partial",
    "Verif.GoParse.C85_struct_partial",
    "Verif.GoParse.C85_order_partial",
    "Verif.GoParse.C85_methods",
    "Verif.GoParse.C85_workspace_partial",
    "Verif.GoParse.C85_choice_refuted",
    "Verif.GoParse.C85_panic_refuted",
    "Verif.GoParse.C85_workspace_refuted",
    "Verif.GoParse.C85_workspace_local",
    "Verif.GoParse.C85_struct_panic_refuted"
   ],
   "note": "Proved for types the parser understands. Refuted: with several constructors the choice depends on map order; generic types panic; only one of two local modules is added to the workspace."
  },
  {
   "property": "C86",
   "status": "partial",
   "theorems": [
    "Verif.GoParse.C86_added",
    "Verif.GoParse.C86_parsed_once",
    "Verif.GoParse.C86_redeclared_partial",
    "Verif.GoParse.C86_redeclared_refuted",
    "Verif.GoParse.C86_add_partial",
    "Verif.GoParse.C86_add_refuted",
    "Verif.GoParse.C86_package_partial",
    "Verif.GoParse.C86_nested_refuted"
   ],
   "note": "Refuted: redeclared modules are refused only once; Add panics for unclean paths; nested modules are found twice, in map order. The search for modules with the go tool is modelled under C131."
  },
  {
   "property": "C87",
   "status": "partial",
   "theorems": [
    "Verif.Hotel.C87_reservations_partial",
    "Verif.Hotel.C87_availability_refuted",
    "Verif.Hotel.C87_cache_lost_refuted",
    "Verif.Hotel.C87_concurrent_refuted",
    "Verif.Hotel.C87_negative_refuted",
    "Verif.Hotel.C87_no_nights_refuted"
   ],
   "note": "Proved for sequential histories with a reliable cache and without certain availability checks. Refuted otherwise: a check over a reserved night, a lost cache entry or two concurrent calls lead to overbooking; negative and empty reservations are accepted."
  },
  {
   "property": "C88",
   "status": "partial",
   "theorems": [
    "Verif.Hotel.C88_rates_partial",
    "Verif.Hotel.C88_profiles",
    "Verif.Hotel.C88_dates_refuted"
   ],
   "note": "The dates are ignored by the code (refuted); unknown hotels get an empty profile."
  },
  {
   "property": "C89",
   "status": "partial",
   "theorems": [
    "Verif.Social.C89_unique_partial",
    "Verif.Social.C89_window_refuted",
    "Verif.Social.C89_counter_refuted"
   ],
   "note": "Different in different windows of 16 milliseconds and for the first 16 calls of one millisecond. Refuted otherwise: two milliseconds of one window give the same identifier, and so do the 2nd and 17th call of a millisecond."
  },
  {
   "property": "C90",
   "status": "partial",
   "theorems": [
    "Verif.Social.C90_followers_partial",
    "Verif.Social.C90_followees_partial",
    "Verif.Social.C90_symmetric_partial",
    "Verif.Social.C90_cache_lost_refuted",
    "Verif.Social.C90_forgotten_refuted",
    "Verif.Social.C90_unknown_refuted",
    "Verif.Social.C90_twice_refuted"
   ],
   "note": "Proved while the cache keeps the entry of the user. Refuted after a loss (identifiers 0, earlier followers disappear), for users never inserted, and for following twice."
  },
  {
   "property": "C91",
   "status": "partial",
   "theorems": [
    "Verif.Social.C91_user_timeline_partial",
    "Verif.Social.C91_range_refuted",
    "Verif.Social.C91_order_refuted",
    "Verif.Social.C91_no_posts_refuted",
    "Verif.Social.C91_broken_refuted",
    "Verif.Social.C91_failed_post_refuted",
    "Verif.Social.C91_after_loss_partial"
   ],
   "note": "Exactly the posts of the user, but all of them and the oldest first. Refuted: range, order, users without posts; after a lost cache entry one read breaks the timeline for good."
  },
  {
   "property": "C92",
   "status": "partial",
   "theorems": [
    "Verif.Social.C92_home_timeline_partial",
    "Verif.Social.C92_past_end_refuted",
    "Verif.Social.C92_own_posts_refuted",
    "Verif.Social.C92_lost_refuted"
   ],
   "note": "Exactly the posts of followed authors and mentions. Refuted: own posts are missing, a range behind the end returns everything, a lost cache entry is not recovered."
  },
  {
   "property": "C93",
   "status": "partial",
   "theorems": [
    "Verif.Social.C93_read_post_partial",
    "Verif.Social.C93_read_posts_partial",
    "Verif.Social.C93_timeline_posts",
    "Verif.Social.C93_same_id_refuted"
   ],
   "note": "Assumes different identifiers of posts, which C89 refutes in general."
  },
  {
   "property": "C94",
   "status": "partial",
   "theorems": [
    "Verif.Social.Accounts.C94_login",
    "Verif.Social.Accounts.C94_register_partial",
    "Verif.Social.Accounts.C94_same_id_refuted",
    "Verif.Social.Accounts.C94_user_id",
    "Verif.Social.Accounts.C94_mentions_partial",
    "Verif.Social.Accounts.C94_mentions_refuted",
    "Verif.Social.Accounts.C94_in_graph"
   ],
   "note": "Refuted: the same identifier can be registered twice; unknown names in mentions are no error."
  },
  {
   "property": "C95",
   "status": "partial",
   "theorems": [
    "Verif.Thrift.C95_generates",
    "Verif.Thrift.C95_declares",
    "Verif.Thrift.C95_positions",
    "Verif.Thrift.C95_compiles",
    "Verif.Thrift.C95_compiled_types",
    "Verif.Thrift.C95_arguments_partial",
    "Verif.Thrift.C95_results_partial",
    "Verif.Thrift.C95_maps_are_lost",
    "Verif.Thrift.C95_pointers_crash",
    "Verif.Thrift.C95_fields_are_lost",
    "Verif.Thrift.C95_int_refuted",
    "Verif.Thrift.C95_types_refuted",
    "Verif.Thrift.C95_map_refuted",
    "Verif.Thrift.C95_pointer_refuted",
    "Verif.Thrift.C95_numbers_partial",
    "Verif.Thrift.C95_names"
   ],
   "note": "Generation ends and its success is characterised exactly; values of types without pointers and maps survive if their ints fit into 32 bits. Refuted: ints are truncated to 32 bits silently, maps arrive empty, pointers crash the server, embedded fields and second fields of a line are lost, and int8, byte, rune, []int and others generate code that does not compile."
  },
  {
   "property": "C96",
   "status": "partial",
   "theorems": [
    "Verif.Thrift.C96_call_partial",
    "Verif.Thrift.C96_history_partial",
    "Verif.Thrift.C96_at_most_once",
    "Verif.Thrift.C96_error_refuted",
    "Verif.Thrift.C96_error_text",
    "Verif.Thrift.C96_late_refuted",
    "Verif.Thrift.C96_broken_refuted"
   ],
   "note": "Any history of calls answered in time behaves as direct calls, apart from the text of errors. Refuted: all errors of a service become 'Response object is nil'; after one late reply every later call fails although it is executed; after a lost connection no call is made any more. The behaviour of the thrift library (one connection, replies matched by sequence number) is an assumption of the model."
  },
  {
   "property": "C97",
   "status": "partial",
   "theorems": [
    "Verif.Scope.C97_names_ok",
    "Verif.Scope.C97_names_break",
    "Verif.Scope.C97_names_iff",
    "Verif.Scope.C97_any_name_refuted",
    "Verif.Scope.C97_attempt_number_refuted",
    "Verif.Scope.C97_thrift_service_refuted"
   ],
   "note": "For 21 of the 25 templates the set of names that arguments must avoid is proved exactly; for the gRPC and thrift servers and the HTTP client and server, up to names listed in the specification as doubtful. Refuted as stated: arguments called ctx break every plugin; an int argument called i compiles in a retrier but the attempt's number is sent instead; thrift services called Client or Handler never compile. Types are compared by name only, and a name of the template's that is captured by an argument counts as broken."
  },
  {
   "property": "C98",
   "status": "partial",
   "theorems": [
    "Verif.Catalogue.C98_added_partial",
    "Verif.Catalogue.C98_deleted",
    "Verif.Catalogue.C98_others_kept",
    "Verif.Catalogue.C98_tags",
    "Verif.Catalogue.C98_list_partial",
    "Verif.Catalogue.C98_pages",
    "Verif.Catalogue.C98_no_tags_refuted",
    "Verif.Catalogue.C98_order_refuted",
    "Verif.Catalogue.C98_page_panic_refuted",
    "Verif.Catalogue.C98_images_refuted",
    "Verif.Catalogue.C98_comma_refuted",
    "Verif.Catalogue.C98_lost_refuted",
    "Verif.Catalogue.C98_half_added_refuted",
    "Verif.Catalogue.C98_concurrent_refuted"
   ],
   "note": "Proved for socks with at least one tag and tags without commas, for pages whose end is below 2^63, after any calls with any failed statements. Refuted as stated: a sock without tags is never found; List does not sort; negative or huge page numbers panic; images given as a list are dropped; a tag with a comma comes back as two; a failed update loses the sock and a failed addition leaves half of it; concurrent AddTags duplicates a tag. SQL is modelled as SQLite executes these statements, with the order of unordered results left open."
  },
  {
   "property": "C99",
   "status": "partial",
   "theorems": [
    "Verif.Frontend.C99_add",
    "Verif.Frontend.C99_add_refused",
    "Verif.Frontend.C99_update",
    "Verif.Frontend.C99_update_refused",
    "Verif.Frontend.C99_remove",
    "Verif.Frontend.C99_login_sound",
    "Verif.Frontend.C99_login_merge_partial",
    "Verif.Frontend.C99_register",
    "Verif.Frontend.C99_post_address",
    "Verif.Frontend.C99_post_card",
    "Verif.Frontend.C99_visitor",
    "Verif.Frontend.C99_purchase",
    "Verif.Frontend.C99_load",
    "Verif.Frontend.C99_relogin_refuted",
    "Verif.Frontend.C99_switch_refuted",
    "Verif.Frontend.C99_register_refuted",
    "Verif.Frontend.C99_update_refuted",
    "Verif.Frontend.C99_unknown_refuted",
    "Verif.Frontend.C99_price_refuted",
    "Verif.Frontend.C99_stock_refuted",
    "Verif.Frontend.C99_reads",
    "Verif.Frontend.C99_load_socks",
    "Verif.Frontend.C99_load_twice_refuted",
    "Verif.Frontend.C99_load_half_refuted"
   ],
   "note": "Proved: adding, updating, removing, registering, and the whole purchase from the first item to the stored order, in every reachable state; logging in for session carts that the cart service merges right. Refuted as stated: logging in again empties the cart; logging in to a second account takes the first one's cart along; Register can report an error although the account was made; UpdateItem without a session loses the item; unknown users, addresses and cards are shown as blank ones; the price of an item already in the cart is never updated by AddItem; the stock is neither checked nor reduced; LoadCatalogue that fails halfway leaves the socks added so far, and calling it again adds them twice."
  },
  {
   "property": "C100",
   "status": "proved",
   "theorems": [
    "Verif.Trains.Configs.C100_find",
    "Verif.Trains.Configs.C100_create",
    "Verif.Trains.Configs.C100_update",
    "Verif.Trains.Configs.C100_delete",
    "Verif.Trains.Configs.C100_find_all"
   ],
   "note": "Proved for every history. Database calls do not fail and calls come one at a time."
  },
  {
   "property": "C101",
   "status": "partial",
   "theorems": [
    "Verif.Trains.Stations.C101_find",
    "Verif.Trains.Stations.C101_create",
    "Verif.Trains.Stations.C101_update",
    "Verif.Trains.Stations.C101_delete",
    "Verif.Trains.Stations.C101_exists",
    "Verif.Trains.Stations.C101_find_id",
    "Verif.Trains.Stations.C101_find_ids_partial",
    "Verif.Trains.Stations.C101_find_ids_refuted",
    "Verif.Trains.Stations.C101_find_by_ids_partial",
    "Verif.Trains.Stations.C101_find_by_ids_refuted"
   ],
   "note": "Proved for single stations and for lists in which everything is there. Refuted for other lists: for each entry that is not there the result has two empty ones, so all that follow are at the wrong place. Database calls do not fail and calls come one at a time."
  },
  {
   "property": "C102",
   "status": "partial",
   "theorems": [
    "Verif.Trains.Trains.C102_retrieve",
    "Verif.Trains.Trains.C102_retrieve_by_names",
    "Verif.Trains.Trains.C102_write",
    "Verif.Trains.Trains.C102_all",
    "Verif.Trains.Trains.C102_delete_partial",
    "Verif.Trains.Trains.C102_delete_refuted",
    "Verif.Trains.Trains.C102_names_refuted"
   ],
   "note": "Proved: what every call returns in terms of the list of types stored. Refuted: Create checks names but not ids, so an id can be there twice and is still there after Delete; Update can give two types one name. AllTrains reports an error if there are none. Database calls do not fail and calls come one at a time."
  },
  {
   "property": "C103",
   "status": "partial",
   "theorems": [
    "Verif.Trains.Prices.C103_find",
    "Verif.Trains.Prices.C103_write",
    "Verif.Trains.Prices.C103_get_all",
    "Verif.Trains.Prices.C103_find_by_route_and_type",
    "Verif.Trains.Prices.C103_find_by_routes_and_types_partial",
    "Verif.Trains.Prices.C103_find_by_routes_and_types_refuted"
   ],
   "note": "Proved for every history, for lists whose entries have a colon. Refuted for others: an entry without a colon makes the call panic. Database calls do not fail and calls come one at a time."
  },
  {
   "property": "C104",
   "status": "proved",
   "theorems": [
    "Verif.Trains.TrainFoods.C104_by_trip",
    "Verif.Trains.TrainFoods.C104_train_write",
    "Verif.Trains.TrainFoods.C104_list_trains",
    "Verif.Trains.FoodStores.C104_store",
    "Verif.Trains.FoodStores.C104_store_write",
    "Verif.Trains.FoodStores.C104_list_stores"
   ],
   "note": "Proved for every history. Database calls do not fail and calls come one at a time."
  },
  {
   "property": "C105",
   "status": "partial",
   "theorems": [
    "Verif.Trains.Routes.C105_get",
    "Verif.Trains.Routes.C105_create_and_modify",
    "Verif.Trains.Routes.C105_refused",
    "Verif.Trains.Routes.C105_get_many",
    "Verif.Trains.Routes.C105_start_and_end",
    "Verif.Trains.Routes.C105_get_all",
    "Verif.Trains.Routes.C105_short_id_refuted"
   ],
   "note": "Proved for every history in which generated ids are fresh. Refuted: a route cannot be stored under an id of fewer than 32 characters. Lengths count characters instead of bytes. Database calls do not fail and calls come one at a time."
  },
  {
   "property": "C106",
   "status": "partial",
   "theorems": [
    "Verif.Trains.Payments.C106_query",
    "Verif.Trains.Payments.C106_write",
    "Verif.Trains.Payments.C106_pay",
    "Verif.Trains.Payments.C106_pay_refuted",
    "Verif.Trains.Payments.C106_cleanup_partial",
    "Verif.Trains.Payments.C106_cleanup_refuted"
   ],
   "note": "Proved for orders with a payment, and for Cleanup if both databases are the same. Refuted: Pay for an unknown order reports an error but records the payment; Cleanup empties the money database's collection of payments instead of the payments if the databases are two. Database calls do not fail and calls come one at a time."
  },
  {
   "property": "C107",
   "status": "partial",
   "theorems": [
    "Verif.Trains.Consign.C107_get",
    "Verif.Trains.Consign.C107_price",
    "Verif.Trains.Consign.C107_set",
    "Verif.Trains.Consign.C107_grows_refuted"
   ],
   "note": "Proved for every history. Refuted: the collection does not hold one configuration: each call adds another document. Database calls do not fail and calls come one at a time."
  },
  {
   "property": "C108",
   "status": "partial",
   "theorems": [
    "Verif.Trains.Assurances.C108_read",
    "Verif.Trains.Assurances.C108_write",
    "Verif.Trains.Assurances.C108_delete_by_order_partial",
    "Verif.Trains.Assurances.C108_delete_by_order_refuted"
   ],
   "note": "Proved: what every call returns in terms of the list of assurances stored. Refuted: an order that has two assurances still has one after DeleteByOrderId. Database calls do not fail and calls come one at a time."
  },
  {
   "property": "C109",
   "status": "partial",
   "theorems": [
    "Verif.Trains.Users.C109_users_read",
    "Verif.Trains.Users.C109_users_write",
    "Verif.Trains.Users.C109_update_then_find",
    "Verif.Trains.Users.C109_delete_user_partial",
    "Verif.Trains.Users.C109_delete_user_refuted",
    "Verif.Trains.Contacts.C109_contacts_read",
    "Verif.Trains.Contacts.C109_contacts_write",
    "Verif.Trains.Contacts.C109_modify_then_find",
    "Verif.Trains.Contacts.C109_delete_contact_partial",
    "Verif.Trains.Contacts.C109_delete_contact_refuted",
    "Verif.Trains.Contacts.C109_documents_refuted"
   ],
   "note": "Proved: what every call returns in terms of the lists stored. Refuted: a user saved twice, or a second contact with the same id, is still there after it was deleted; Modify can give two contacts one document. Database calls do not fail and calls come one at a time."
  },
  {
   "property": "C110",
   "status": "partial",
   "theorems": [
    "Verif.Trains.Deliver.C110_in_order",
    "Verif.Trains.Deliver.C110_delivered_partial",
    "Verif.Trains.Deliver.C110_iteration",
    "Verif.Trains.Deliver.C110_lost_refuted",
    "Verif.Trains.Deliver.C110_stopped_refuted"
   ],
   "note": "Proved: nothing is invented, stored twice or overtaken, whatever fails; nothing is lost if no insertion fails. Refuted: a delivery whose insertion fails is lost; a missing collection stops the service with a panic."
  },
  {
   "property": "C111",
   "status": "partial",
   "theorems": [
    "Verif.GoTests.C111_found",
    "Verif.GoTests.C111_alias_refuted",
    "Verif.GoTests.C111_clients",
    "Verif.GoTests.C111_uses_client_partial",
    "Verif.GoTests.C111_others_unchanged",
    "Verif.GoTests.C111_generates_partial",
    "Verif.GoTests.C111_same_subdir_refuted",
    "Verif.GoTests.C111_two_services_refuted",
    "Verif.GoTests.C111_local_name_refuted",
    "Verif.GoTests.C111_early_file_refuted"
   ],
   "note": "Proved: which registries are found, which clients are registered, and that the first of them is used if no earlier file mentions the registry, no default is set and no registration of the test's own has the service's name. Refuted without these: a package imported under another name is not found; with two fitting services map order decides; a service named local, or a registration in a file that is no test and sorts early, makes the tests run against their own instance; two test modules in directories of the same name make compilation fail."
  },
  {
   "property": "C112",
   "status": "proved",
   "theorems": [
    "Verif.Compile.C112_whole",
    "Verif.Compile.C112_order",
    "Verif.Compile.C112_once",
    "Verif.Compile.C112_shared_refuted",
    "Verif.Compile.C112_no_rpc_refuted",
    "Verif.Compile.C112_late_wrapper_refuted",
    "Verif.Compile.C112_early_process_refuted",
    "Verif.Compile.C112_string_refuted",
    "Verif.Compile.C112_mixed_refuted",
    "Verif.Compile.C112_cycle_refuted",
    "Verif.Compile.C112_names"
   ],
   "note": "Proved for all applications whose services have gRPC, HTTP or Thrift, or one place where they are used, with every process at a fixed place in the nesting, and with prebuilt backends; the exceptions named in the statement are refuted one by one. A process's default logger and metric collector, and plugins other than workflow services, wrappers, gRPC, HTTP, Thrift, processes, containers and backends, are not in this model."
  },
  {
   "property": "C113",
   "status": "partial",
   "theorems": [
    "Verif.Live.C113_starts",
    "Verif.Live.C113_missing",
    "Verif.Live.C113_connected",
    "Verif.Live.C113_run_once_partial",
    "Verif.Live.C113_run_twice_refuted"
   ],
   "note": "Everything but the count of Run is proved without exception for deployments whose processes, containers and addresses have different environment variable names; Run is called twice or more when a client of the service is in its own process. Services that are not deployed over gRPC, HTTP or Thrift are objects in the process; what runs inside a backend's image is not modelled."
  },
  {
   "property": "C114",
   "status": "partial",
   "theorems": [
    "Verif.Mongo.C114_portable_partial",
    "Verif.Mongo.C114_upsert_merges_refuted",
    "Verif.Mongo.C114_count_refuted",
    "Verif.Mongo.C114_unimplemented_refuted",
    "Verif.Mongo.C114_projection_refuted",
    "Verif.Mongo.C114_duplicate_refuted",
    "Verif.Mongo.C114_replace_id_refuted"
   ],
   "note": "Holds for programs whose calls are portable (condition stated per call). Upsert merges on MongoDB instead of replacing, updates that change nothing are not counted, ReplaceMany and reading a cursor in the other way fail, projections are ignored in memory, duplicate identifiers are accepted in memory, and a replacement without identifier loses it in memory. The server's behaviour is taken from MongoDB's manual."
  },
  {
   "property": "C115",
   "status": "partial",
   "theorems": [
    "Verif.Races.C115_cache_partial",
    "Verif.Races.C115_writers_never_race",
    "Verif.Races.C115_readers_never_race",
    "Verif.Races.C115_writers_finish",
    "Verif.Races.C115_get_refuted",
    "Verif.Races.C115_insert_refuted",
    "Verif.Races.C115_insert_partial",
    "Verif.Races.C115_insert_invents_nothing",
    "Verif.Races.C115_get_collection_refuted",
    "Verif.Races.C115_get_collection_partial"
   ],
   "note": "Holds for the cache in every schedule without a map access during a write, in particular for any number of Put and Delete calls, or of Get calls. Get takes no lock: with a Put in progress the runtime stops the program. The NoSQL database takes no locks: concurrent inserts lose documents, concurrent GetCollection calls return different collections."
  },
  {
   "property": "C116",
   "status": "partial",
   "theorems": [
    "Verif.Hotel.C116_recommendations",
    "Verif.Hotel.C116_negative_refuted",
    "Verif.Hotel.C116_other"
   ],
   "note": "For finite distances and prices, and ratings that are not negative; if all ratings are negative nothing is recommended."
  },
  {
   "property": "C117",
   "status": "partial",
   "theorems": [
    "Verif.Hotel.C117_dates",
    "Verif.Hotel.C117_login",
    "Verif.Hotel.C117_unauthorised",
    "Verif.Hotel.C117_reservation",
    "Verif.Hotel.C117_search",
    "Verif.Hotel.C117_search_error_refuted",
    "Verif.Hotel.C117_bad_date_refuted"
   ],
   "note": "Dates that have the right format but are no dates, or are in the wrong order, are reported as successfully reserved although nothing is reserved; a failure of the reservation service is reported as an empty search result."
  },
  {
   "property": "C118",
   "status": "partial",
   "theorems": [
    "Verif.Hotel.C118_users",
    "Verif.Hotel.C118_recommendations",
    "Verif.Hotel.C118_reviews_refuted",
    "Verif.Hotel.C118_reservations_refuted",
    "Verif.Hotel.C118_rates_refuted"
   ],
   "note": "Holds for users and recommendations. Reviews, rate plans and the initial reservation are inserted again on every start: reviews and search results are repeated, and rooms vanish."
  },
  {
   "property": "C119",
   "status": "partial",
   "theorems": [
    "Verif.Social.Text.C119_mentions",
    "Verif.Social.Text.C119_links_partial",
    "Verif.Social.Text.C119_prefix_refuted",
    "Verif.Social.Text.C119_path_refuted",
    "Verif.Social.Text.C119_expand_refuted"
   ],
   "note": "Mentions: proved outright. Links: for texts of words separated by spaces in which no link is the beginning of a different one; otherwise both become the short form of the first. Paths are not part of recorded links, and short links cannot be expanded."
  },
  {
   "property": "C120",
   "status": "partial",
   "theorems": [
    "Verif.Social.Text.C120_media",
    "Verif.Social.Text.C120_nothing",
    "Verif.Social.Text.C120_stored_partial",
    "Verif.Social.Text.C120_dangling_refuted",
    "Verif.Social.Text.C120_timestamp_refuted",
    "Verif.Social.Text.C120_gateway",
    "Verif.Social.Text.C120_zero_refuted"
   ],
   "note": "If storing the post fails the timelines are written all the same; the time of the post is never stored; a user with identifier 0 cannot post."
  },
  {
   "property": "C121",
   "status": "proved",
   "theorems": [
    "Verif.Compile.C121_names",
    "Verif.Compile.C121_replicas",
    "Verif.Compile.C121_calls"
   ],
   "note": "The node of the balancer's client is named as those of other services."
  },
  {
   "property": "C122",
   "status": "partial",
   "theorems": [
    "Verif.Cmd.C122_refused",
    "Verif.Cmd.C122_compiles",
    "Verif.Cmd.C122_ports_partial",
    "Verif.Cmd.C122_port_refuted",
    "Verif.Cmd.C122_duplicate_refuted"
   ],
   "note": "A port of 65536 or more is silently replaced by another one, and of two specs with the same name the first is silently lost."
  },
  {
   "property": "C123",
   "status": "partial",
   "theorems": [
    "Verif.Image.C123_built_iff",
    "Verif.Image.C123_image_partial",
    "Verif.Image.C123_reserved_refuted",
    "Verif.Image.C123_same_directory_refuted"
   ],
   "note": "Fails for process names that clean to the same name and for names reserved in the Go image; environment variables and ports are in C49 and C113."
  },
  {
   "property": "C124",
   "status": "partial",
   "theorems": [
    "Verif.Image.Scripts.C124_scripts_run_once",
    "Verif.Image.Scripts.C124_failure_refuted",
    "Verif.Image.Scripts.C124_outside_refuted",
    "Verif.Image.Scripts.C124_relative_refuted",
    "Verif.Image.Scripts.C124_missing_directory_refuted"
   ],
   "note": "Running once in the right place is proved; refusal of outside scripts and reporting of failures are refuted."
  },
  {
   "property": "C125",
   "status": "partial",
   "theorems": [
    "Verif.Social.C125_compose",
    "Verif.Social.C125_follow",
    "Verif.Social.C125_unfollow",
    "Verif.Social.C125_home_partial",
    "Verif.Social.C125_user_timeline_partial",
    "Verif.Social.C125_home_lost_refuted",
    "Verif.Social.C125_follow_lost_refuted",
    "Verif.Social.C125_first_posts_refuted",
    "Verif.Social.C125_timeline_cache_refuted",
    "Verif.Interleave.C125_isolation",
    "Verif.Interleave.C125_finishes"
   ],
   "note": "The goroutines inside one method are settled. Of posts made at the same time for one user at least one is in the home timeline, none twice, but some can be lost; user timelines in the database are complete except for first posts."
  },
  {
   "property": "C126",
   "status": "proved",
   "theorems": [
    "Verif.Compile.C126_container",
    "Verif.Compile.C126_client",
    "Verif.Live.C113_connected",
    "Verif.Compile.C126_two_deployments_refuted",
    "Verif.Compile.C126_in_container_refuted",
    "Verif.Compile.C126_wrapped_refuted"
   ],
   "note": "The part about the docker-compose file and running processes is Verif.Live.C113_connected. Refuted are three readings that the statement leaves out: that the place of a backend in no deployment is independent of the order of requests, that a backend can be put into a linux container, and that clients of a backend can be wrapped. Other constructor arguments of backend clients (names of queues and databases, passwords) are not in the model."
  },
  {
   "property": "C127",
   "status": "partial",
   "theorems": [
    "Verif.NoSQL.C127_nested",
    "Verif.NoSQL.C127_element",
    "Verif.NoSQL.C127_in_last_partial",
    "Verif.NoSQL.C127_truncates_refuted"
   ],
   "note": "Paths of field names of any length: C138_unset. Unsetting a field of an array's element cuts the array after that element (refuted); it is right for the last element and for positions past the end."
  },
  {
   "property": "C128",
   "status": "proved",
   "theorems": [
    "Verif.NoSQL.C128_logical",
    "Verif.NoSQL.C128_all",
    "Verif.NoSQL.C128_elem_match"
   ],
   "note": "Applied repeatedly the equivalences reach any nesting of these operators."
  },
  {
   "property": "C129",
   "status": "partial",
   "theorems": [
    "Verif.Hotel.C129_alone",
    "Verif.Hotel.C129_different_hotels_partial",
    "Verif.Hotel.C129_ends",
    "Verif.Hotel.C129_same_hotel_refuted"
   ],
   "note": "Proved for calls about different hotels. Two overlapping calls for the last rooms of one hotel both succeed (refuted). Restrictions of C87 apply."
  },
  {
   "property": "C130",
   "status": "partial",
   "theorems": [
    "Verif.GoGen.C130_go_work_partial",
    "Verif.GoGen.C130_redirects_partial",
    "Verif.GoGen.C130_outside_refuted",
    "Verif.GoGen.C130_shared_directory_refuted"
   ],
   "note": "Proved for successful calls and generated modules with directories of their own. Copied modules keep relative directories outside the workspace, which do not exist there (refuted)."
  },
  {
   "property": "C131",
   "status": "partial",
   "theorems": [
    "Verif.GoParse.C131_module_partial",
    "Verif.GoParse.C131_local",
    "Verif.GoParse.C131_service_partial",
    "Verif.GoParse.C131_named",
    "Verif.GoParse.C131_nil_refuted",
    "Verif.GoParse.C131_search_path_refuted",
    "Verif.GoParse.C131_ambiguous_refuted"
   ],
   "note": "Refuted: a nil service without an error for the path of a module without a root package; an implementation in another module is found only after that module was looked up; a path that is a module and also a package of another module."
  },
  {
   "property": "C132",
   "status": "partial",
   "theorems": [
    "Verif.Hotel.Geo.C132_hotels_partial",
    "Verif.Hotel.Geo.C132_attractions",
    "Verif.Hotel.Geo.C132_nil_refuted",
    "Verif.Hotel.Geo.C132_empty_refuted",
    "Verif.Hotel.Geo.C132_moved_refuted"
   ],
   "note": "Attractions without exception. Hotels: the constructor ignores errors when it reads the hotels back, and the service then panics or finds nothing (refuted). A hotel that was moved in the database is moved back by every start (refuted). What geoindex's KNearest does is a hypothesis; a sorting search is shown to meet it."
  },
  {
   "property": "C133",
   "status": "partial",
   "theorems": [
    "Verif.Logs.C133_chosen",
    "Verif.Logs.C133_first",
    "Verif.Logs.C133_statements_partial",
    "Verif.Logs.C133_tags",
    "Verif.Logs.C133_running",
    "Verif.Logs.C133_meters",
    "Verif.Logs.C133_whole_partial",
    "Verif.Logs.C133_logf_refuted",
    "Verif.Logs.C133_floating_refuted",
    "Verif.Logs.C133_early_refuted"
   ],
   "note": "Logf on the console writes wrong levels (refuted); processes that CreateProcess did not make have no logger and end at the first log statement (refuted); a logger chosen before CreateProcess is lost (refuted). At compile time X-Trace's logger, which needs the address of its server, is not covered by C133_first."
  },
  {
   "property": "C134",
   "status": "partial",
   "theorems": [
    "Verif.Balance.C134_calls",
    "Verif.Balance.C134_remote_partial",
    "Verif.Balance.C134_server_partial",
    "Verif.Balance.C134_replicas",
    "Verif.Balance.C134_local_refuted",
    "Verif.Balance.C134_loop_refuted"
   ],
   "note": "Handler and client of a balancer have the same instance name. With both in one process modifiers are bypassed (refuted for all balancers), or, if it was deployed with RPC and the caller is built first, requests go round in circles (refuted for all balancers). Proved for processes that have only one of the two."
  },
  {
   "property": "C135",
   "status": "partial",
   "theorems": [
    "Verif.Output.C135_output_partial",
    "Verif.Output.C135_order_partial",
    "Verif.Output.C135_new_directory",
    "Verif.Output.C135_workload_partial",
    "Verif.Output.C135_same_name_refuted",
    "Verif.Output.C135_lost_files_refuted",
    "Verif.Output.C135_docker_refuted",
    "Verif.Output.C135_digits_refuted",
    "Verif.Output.C135_documented_refuted"
   ],
   "note": "Proved as an equivalence if the names of parts differ after cleaning, are not empty and are not docker, linux or golang. Otherwise refuted: parts overwrite each other's files without an error. The executable of a workload generator is not where the documentation says."
  },
  {
   "property": "C136",
   "status": "partial",
   "theorems": [
    "Verif.Trains.Configs.C136_configs",
    "Verif.Trains.Configs.C136_configs_history",
    "Verif.Trains.Stations.C136_stations",
    "Verif.Trains.Stations.C136_stations_history",
    "Verif.Trains.Trains.C136_trains",
    "Verif.Trains.Trains.C136_trains_history",
    "Verif.Trains.TrainFoods.C136_train_food",
    "Verif.Trains.TrainFoods.C136_train_food_history",
    "Verif.Trains.FoodStores.C136_food_stores",
    "Verif.Trains.FoodStores.C136_food_stores_history",
    "Verif.Trains.Routes.C136_routes",
    "Verif.Trains.Assurances.C136_assurances",
    "Verif.Trains.Assurances.C136_assurances_history",
    "Verif.Trains.Users.C136_users",
    "Verif.Trains.Users.C136_users_history",
    "Verif.Trains.Contacts.C136_contacts",
    "Verif.Trains.Contacts.C136_contacts_history",
    "Verif.Trains.Prices.C136_prices_partial",
    "Verif.Trains.Payments.C136_payments_partial",
    "Verif.Trains.Consign.C136_consign_partial",
    "Verif.Trains.Prices.C136_create_price_partial",
    "Verif.Trains.Prices.C136_create_price_refuted",
    "Verif.Trains.Consign.C136_set_consign_partial",
    "Verif.Trains.Consign.C136_set_consign_refuted",
    "Verif.Trains.Payments.C136_cleanup_refuted",
    "Verif.Trains.Stations.C136_lookups_partial",
    "Verif.Trains.Stations.C136_find_ids_refuted",
    "Verif.Trains.Stations.C136_find_by_ids_refuted",
    "Verif.Trains.Trains.C136_lookups_partial",
    "Verif.Trains.Trains.C136_retrieve_by_names_refuted",
    "Verif.Trains.Routes.C136_lookups_partial",
    "Verif.Trains.Routes.C136_get_by_ids_refuted",
    "Verif.Trains.Prices.C136_lookups_partial",
    "Verif.Trains.Prices.C136_find_by_routes_and_types_refuted"
   ],
   "note": "Holds for all methods but eight. Refuted for CreateNewPriceConfig (a failed lookup leads to a second entry that is never found, and success is returned), CreateAndModifyPriceConfig and Cleanup of payments (half of the change), and for the lookups of many keys, which report an outage as absence without an error."
  },
  {
   "property": "C137",
   "status": "partial",
   "theorems": [
    "Verif.Trains.C137_single_partial",
    "Verif.Trains.C137_payments_partial",
    "Verif.Trains.Configs.C137_create_partial",
    "Verif.Trains.Stations.C137_create_partial",
    "Verif.Trains.FoodStores.C137_create_partial",
    "Verif.Trains.Configs.C137_create_refuted",
    "Verif.Trains.Stations.C137_create_refuted",
    "Verif.Trains.FoodStores.C137_create_refuted",
    "Verif.Trains.TrainFoods.C137_create_refuted",
    "Verif.Trains.Prices.C137_create_refuted",
    "Verif.Trains.Trains.C137_create_refuted",
    "Verif.Trains.Contacts.C137_create_refuted",
    "Verif.Trains.Stations.C137_lookup_refuted",
    "Verif.Trains.Stations.C137_lookup_alone",
    "Verif.Trains.Payments.C137_init_refuted",
    "Verif.Trains.Consign.C137_set_refuted",
    "Verif.Trains.Assurances.C137_modify_refuted",
    "Verif.Trains.Assurances.C137_modify_alone",
    "Verif.Trains.Routes.C137_create_refuted"
   ],
   "note": "Proved for the methods that use the data once (all but the creating methods and the lookups of many keys) and for creating different new keys. Refuted for creating the same key (also InitPayment, CreateAndModify of routes and the first CreateAndModifyPriceConfig): both calls may succeed, and there are two entries of that key. Refuted for lookups of several keys: FindByIDs may return what was stored at different times, here two different stations for one id. Refuted for Modify and DeleteById of one assurance: Modify returns an error and the deleted assurance is stored again."
  },
  {
   "property": "C138",
   "status": "partial",
   "theorems": [
    "Verif.NoSQL.C138_inside",
    "Verif.NoSQL.C138_at",
    "Verif.NoSQL.C138_at_fails",
    "Verif.NoSQL.C138_blocked",
    "Verif.NoSQL.C138_unset",
    "Verif.NoSQL.C138_set_partial",
    "Verif.NoSQL.C138_inc",
    "Verif.NoSQL.C138_push",
    "Verif.NoSQL.C138_query",
    "Verif.NoSQL.C138_set_then_find",
    "Verif.NoSQL.C138_set_null_refuted"
   ],
   "note": "$set to null panics, as for plain fields (C38_set_null_refuted, C138_set_null_refuted); the rest is proved. Paths with array positions: C39, C127."
  },
  {
   "property": "C139",
   "status": "partial",
   "theorems": [
    "Verif.Cart.C139_carts_partial",
    "Verif.Cart.C139_history_partial",
    "Verif.Cart.C139_merge_partial",
    "Verif.Cart.C139_merge_refuted"
   ],
   "note": "Holds for all methods but MergeCarts. If its last call, the delete, fails, the session's items are in both carts and repeating the call adds them again (C139_merge_refuted)."
  },
  {
   "property": "C140",
   "status": "partial",
   "theorems": [
    "Verif.Cart.C140_carts_partial",
    "Verif.Cart.C140_merge_refuted"
   ],
   "note": "All methods but MergeCarts. Calls for the same customer lose updates (C76_concurrent_refuted). An item put into a session's cart while that is merged may be lost (C140_merge_refuted)."
  },
  {
   "property": "C141",
   "status": "partial",
   "theorems": [
    "Verif.Users.C141_simple_partial",
    "Verif.Users.C141_history_partial",
    "Verif.Users.C141_login_partial",
    "Verif.Users.C141_login_refuted",
    "Verif.Users.C141_post_partial",
    "Verif.Users.C141_post_refuted",
    "Verif.Users.C141_delete_again",
    "Verif.Users.C141_delete_error",
    "Verif.Users.C141_login_sound",
    "Verif.Users.C141_cleanup",
    "Verif.Users.C141_user_refuted",
    "Verif.Users.C141_leftover_refuted"
   ],
   "note": "Deletions and logins are proved in full, except that Login panics for a user with cards when their data cannot be read. Posting for a user may leave the card or address without the user; PostUser may leave cards, or an account without them."
  },
  {
   "property": "C142",
   "status": "partial",
   "theorems": [
    "Verif.Users.C142_posts_partial",
    "Verif.Users.C142_login_refuted"
   ],
   "note": "Posts are proved in full for well-formed user identifiers and distinct new ObjectIDs. A login at the same time as the deletion of the user may succeed and return the user without their cards."
  },
  {
   "property": "C143",
   "status": "partial",
   "theorems": [
    "Verif.Orders.C143_orders_partial",
    "Verif.Orders.C143_twice_refuted"
   ],
   "note": "Proved for different customers who order their own carts. Two calls for the same cart at the same time may both order all of its items."
  },
  {
   "property": "C144",
   "status": "partial",
   "theorems": [
    "Verif.Catalogue.C144_together_partial",
    "Verif.Catalogue.C144_others",
    "Verif.Catalogue.C144_same_refuted",
    "Verif.Catalogue.C144_replaced_refuted"
   ],
   "note": "Proved for calls about different socks (a tag may be listed more than once, see C98). Of two additions for the same identifier one can end with an error. While a sock is replaced, Get does not find it."
  },
  {
   "property": "C145",
   "status": "partial",
   "theorems": [
    "Verif.Shipping.Many.C145_status",
    "Verif.Shipping.Many.C145_accounted",
    "Verif.Shipping.Many.C145_all_shipped_partial",
    "Verif.Shipping.Many.C145_stop_refuted",
    "Verif.Shipping.Many.one_master"
   ],
   "note": "A shipment that a queue master holds when it stops is never shipped; at most one shipment is lost for every stop. Without stops, everything that was inserted is shipped."
  },
  {
   "property": "C146",
   "status": "partial",
   "theorems": [
    "Verif.Leaf.C146_in_turn",
    "Verif.Leaf.C146_counted_partial",
    "Verif.Leaf.C146_later",
    "Verif.Leaf.C146_lost_replies",
    "Verif.Leaf.C146_uncounted_refuted",
    "Verif.Leaf.C146_wraps_refuted",
    "Verif.Leaf.C146_twice_refuted"
   ],
   "note": "Calls in turn return 0, 1, 2 and so on, up to the 32 bits with which the count is stored: call number 2^31 + 1 returns a negative number. With calls at the same time the count of the first object misses none, and a call that starts after others have returned returns at least their number, but two calls at the same time can return the same number, and two objects can be inserted. Each database call is one step. With lost replies, the calls in turn that return a number return 0, 1, 2 and so on; but the error of the update is ignored, so that a call whose update fails returns a number and is not counted (Leaf/Fail.lean)."
  },
  {
   "property": "C147",
   "status": "partial",
   "theorems": [
    "Verif.Shipping.Run.C147_order",
    "Verif.Shipping.Run.C147_returns",
    "Verif.Shipping.Run.C147_stops_partial",
    "Verif.Shipping.Run.C147_never_refuted",
    "Verif.Shipping.Run.C147_retries"
   ],
   "note": "If the context is cancelled while a shipment is in hand and UpdateStatus fails from then on, as calls with a cancelled context do, Run never returns. If the shipping service works it returns within three steps. The documentation of the interface also says that Run returns when an error is encountered; C147_returns shows that it does not."
  }
 ]
}