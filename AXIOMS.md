# Axioms of the theorems in MANIFEST.json

Output of `#print axioms`, grouped.

## `Classical.choice, Quot.sound, propext`

* `Verif.Address.C21_distinct_ports`
* `Verif.Address.C21_first_free`
* `Verif.Address.C21_kept`
* `Verif.Address.C21_no_zero_port_partial`
* `Verif.Address.C21_terminates`
* `Verif.Address.C22_bind_differs_from_dial`
* `Verif.Address.C22_conventional_names`
* `Verif.Address.C22_names_injective`
* `Verif.Address.C22_unconventional_names_clash`
* `Verif.Backends.C74_delete_missing_refuted`
* `Verif.Backends.C74_duplicate_key_refuted`
* `Verif.Backends.C74_illegal_key_refuted`
* `Verif.Backends.C74_incr_missing_refuted`
* `Verif.Backends.C74_key_refuted`
* `Verif.Backends.C74_lengths_refuted`
* `Verif.Backends.C74_memcached_counter`
* `Verif.Backends.C74_memcached_failed`
* `Verif.Backends.C74_memcached_partial`
* `Verif.Backends.C74_negative_counter_refuted`
* `Verif.Backends.C74_no_keys_refuted`
* `Verif.Backends.C74_overflow_refuted`
* `Verif.Backends.C74_partial_mset_refuted`
* `Verif.Backends.C74_redis_mget_missing_refuted`
* `Verif.Backends.C74_unwritable`
* `Verif.Backends.C75_integer_refuted`
* `Verif.Balance.C134_local_refuted`
* `Verif.Balance.C134_loop_refuted`
* `Verif.Balance.C134_remote_partial`
* `Verif.Balance.C134_replicas`
* `Verif.Balance.C134_server_partial`
* `Verif.Cache.C01_get_is_latest_write`
* `Verif.Cache.C01_latest_write_unique`
* `Verif.Cache.C01_mget_is_pointwise_get`
* `Verif.Cache.C02_counter_bounds_partial`
* `Verif.Cache.C02_returned_numbers_distinct_partial`
* `Verif.Cart.C139_history_partial`
* `Verif.Cart.C139_merge_refuted`
* `Verif.Cart.C140_carts_partial`
* `Verif.Cart.C140_merge_refuted`
* `Verif.Cart.C76_cart_partial`
* `Verif.Cart.C76_cart_without_merges`
* `Verif.Cart.C76_concurrent_partial`
* `Verif.Cart.C76_concurrent_refuted`
* `Verif.Cart.C76_never_fails`
* `Verif.Cart.C77_merge_partial`
* `Verif.Cart.C77_self_refuted`
* `Verif.Cart.C77_stale_refuted`
* `Verif.Catalogue.C144_others`
* `Verif.Catalogue.C144_replaced_refuted`
* `Verif.Catalogue.C144_same_refuted`
* `Verif.Catalogue.C144_together_partial`
* `Verif.Catalogue.C98_added_partial`
* `Verif.Catalogue.C98_comma_refuted`
* `Verif.Catalogue.C98_deleted`
* `Verif.Catalogue.C98_half_added_refuted`
* `Verif.Catalogue.C98_images_refuted`
* `Verif.Catalogue.C98_list_partial`
* `Verif.Catalogue.C98_lost_refuted`
* `Verif.Catalogue.C98_no_tags_refuted`
* `Verif.Catalogue.C98_others_kept`
* `Verif.Catalogue.C98_pages`
* `Verif.Catalogue.C98_tags`
* `Verif.ClientPool.C05_available`
* `Verif.ClientPool.C05_capacity`
* `Verif.ClientPool.C05_exclusive`
* `Verif.ClientPool.C05_pop_returns`
* `Verif.ClientPool.C05_push_never_blocks`
* `Verif.ClientPool.C06_waiter_served_if_any_client_partial`
* `Verif.ClientPool.C06_waiter_served_partial`
* `Verif.Cmd.C122_compiles`
* `Verif.Cmd.C122_port_refuted`
* `Verif.Cmd.C122_ports_partial`
* `Verif.Cmd.C122_refused`
* `Verif.Compile.C112_cycle_refuted`
* `Verif.Compile.C112_early_process_refuted`
* `Verif.Compile.C112_late_wrapper_refuted`
* `Verif.Compile.C112_mixed_refuted`
* `Verif.Compile.C112_names`
* `Verif.Compile.C112_no_rpc_refuted`
* `Verif.Compile.C112_once`
* `Verif.Compile.C112_order`
* `Verif.Compile.C112_shared_refuted`
* `Verif.Compile.C112_string_refuted`
* `Verif.Compile.C112_whole`
* `Verif.Compile.C121_names`
* `Verif.Compile.C121_replicas`
* `Verif.Compile.C126_client`
* `Verif.Compile.C126_container`
* `Verif.Compile.C126_in_container_refuted`
* `Verif.Compile.C126_two_deployments_refuted`
* `Verif.Compile.C126_wrapped_refuted`
* `Verif.Deploy.Compose.C49_any_order`
* `Verif.Deploy.Compose.C49_clash_refuted`
* `Verif.Deploy.Compose.C49_generates`
* `Verif.Deploy.Compose.C49_local_dial`
* `Verif.Deploy.Compose.C49_nothing_else`
* `Verif.Deploy.Compose.C49_passed_through`
* `Verif.Deploy.Compose.C49_servers`
* `Verif.Deploy.Compose.C49_servers_reachable_partial`
* `Verif.Deploy.Compose.C49_set_env`
* `Verif.Deploy.Compose.C49_two_servers_refuted`
* `Verif.Deploy.Env.C50_any_order`
* `Verif.Deploy.Env.C50_clash_refuted`
* `Verif.Deploy.Env.C50_files_agree`
* `Verif.Deploy.Env.C50_one_port`
* `Verif.Deploy.Env.C50_port_zero_refuted`
* `Verif.Deploy.Env.C50_variables`
* `Verif.Deploy.Kube.C62_clash_refuted`
* `Verif.Deploy.Kube.C62_complete`
* `Verif.Deploy.Kube.C62_containers`
* `Verif.Deploy.Kube.C62_local_dial`
* `Verif.Deploy.Kube.C62_no_env_refuted`
* `Verif.Deploy.Kube.C62_order_refuted`
* `Verif.Deploy.Kube.C62_remote_dial_partial`
* `Verif.Deploy.Kube.C62_same_file_refuted`
* `Verif.Deploy.Kube.C62_servers`
* `Verif.Deploy.Kube.C62_set_env`
* `Verif.Deploy.Run.C63_cycle_refuted`
* `Verif.Deploy.Run.C63_directory_partial`
* `Verif.Deploy.Run.C63_directory_refuted`
* `Verif.Deploy.Run.C63_ends`
* `Verif.Deploy.Run.C63_environment`
* `Verif.Deploy.Run.C63_failed_dependency_partial`
* `Verif.Deploy.Run.C63_failed_dependency_refuted`
* `Verif.Deploy.Run.C63_failures_do_not_spread`
* `Verif.Deploy.Run.C63_missing`
* `Verif.Deploy.Run.C63_once_partial`
* `Verif.Deploy.Run.C63_started_partial`
* `Verif.Deploy.Run.C63_status_refuted`
* `Verif.Deploy.Run.C63_system_variable_refuted`
* `Verif.Deploy.Run.C63_twice_refuted`
* `Verif.Frontend.C99_add`
* `Verif.Frontend.C99_add_refused`
* `Verif.Frontend.C99_load`
* `Verif.Frontend.C99_load_half_refuted`
* `Verif.Frontend.C99_load_socks`
* `Verif.Frontend.C99_load_twice_refuted`
* `Verif.Frontend.C99_login_merge_partial`
* `Verif.Frontend.C99_login_sound`
* `Verif.Frontend.C99_post_address`
* `Verif.Frontend.C99_post_card`
* `Verif.Frontend.C99_price_refuted`
* `Verif.Frontend.C99_purchase`
* `Verif.Frontend.C99_register`
* `Verif.Frontend.C99_register_refuted`
* `Verif.Frontend.C99_relogin_refuted`
* `Verif.Frontend.C99_remove`
* `Verif.Frontend.C99_stock_refuted`
* `Verif.Frontend.C99_switch_refuted`
* `Verif.Frontend.C99_update`
* `Verif.Frontend.C99_update_refused`
* `Verif.Frontend.C99_update_refuted`
* `Verif.Frontend.C99_visitor`
* `Verif.GoCode.C28_declarations`
* `Verif.GoCode.C28_names_unique_and_stable`
* `Verif.GoCode.C29_equivalence`
* `Verif.GoCode.C29_printing_not_injective`
* `Verif.GoCode.C30_contains_iff`
* `Verif.GoCode.C30_preorder`
* `Verif.GoCode.C56_type_names_refer_to_imports_partial`
* `Verif.GoCode.C56_variadic_type_not_imported_refuted`
* `Verif.GoGen.C130_go_work_partial`
* `Verif.GoGen.C130_outside_refuted`
* `Verif.GoGen.C130_redirects_partial`
* `Verif.GoGen.C130_shared_directory_refuted`
* `Verif.GoGen.C53_create_twice_fails`
* `Verif.GoGen.C53_local_modules_partial`
* `Verif.GoGen.C53_separate_directories_partial`
* `Verif.GoGen.C54_each_declared_node_once`
* `Verif.GoGen.C54_each_instantiation_once`
* `Verif.GoGen.C54_redeclaration_fails`
* `Verif.GoGen.C57_constructor_arguments_partial`
* `Verif.GoGen.C57_rejected_iff`
* `Verif.GoParse.C131_ambiguous_refuted`
* `Verif.GoParse.C131_local`
* `Verif.GoParse.C131_module_partial`
* `Verif.GoParse.C131_named`
* `Verif.GoParse.C131_nil_refuted`
* `Verif.GoParse.C131_search_path_refuted`
* `Verif.GoParse.C131_service_partial`
* `Verif.GoParse.C83_alias_refuted`
* `Verif.GoParse.C83_array_refuted`
* `Verif.GoParse.C83_generic_refuted`
* `Verif.GoParse.C83_import_name_refuted`
* `Verif.GoParse.C83_resolved_partial`
* `Verif.GoParse.C83_same_type_partial`
* `Verif.GoParse.C83_shadow_refuted`
* `Verif.GoParse.C83_unknown_part_refuted`
* `Verif.GoParse.C84_generic_method_refuted`
* `Verif.GoParse.C84_loaded_partial`
* `Verif.GoParse.C84_order_refuted`
* `Verif.GoParse.C84_parsed`
* `Verif.GoParse.C85_choice_refuted`
* `Verif.GoParse.C85_interface_partial`
* `Verif.GoParse.C85_methods`
* `Verif.GoParse.C85_order_partial`
* `Verif.GoParse.C85_panic_refuted`
* `Verif.GoParse.C85_struct_panic_refuted`
* `Verif.GoParse.C85_struct_partial`
* `Verif.GoParse.C86_add_partial`
* `Verif.GoParse.C86_added`
* `Verif.GoParse.C86_parsed_once`
* `Verif.GoParse.C86_redeclared_refuted`
* `Verif.GoTests.C111_alias_refuted`
* `Verif.GoTests.C111_clients`
* `Verif.GoTests.C111_early_file_refuted`
* `Verif.GoTests.C111_found`
* `Verif.GoTests.C111_generates_partial`
* `Verif.GoTests.C111_local_name_refuted`
* `Verif.GoTests.C111_others_unchanged`
* `Verif.GoTests.C111_same_subdir_refuted`
* `Verif.GoTests.C111_two_services_refuted`
* `Verif.GoTests.C111_uses_client_partial`
* `Verif.Grpc.C51_arguments_partial`
* `Verif.Grpc.C51_byte_refuted`
* `Verif.Grpc.C51_compiles`
* `Verif.Grpc.C51_declares`
* `Verif.Grpc.C51_embedded_refuted`
* `Verif.Grpc.C51_generates`
* `Verif.Grpc.C51_int_map_refuted`
* `Verif.Grpc.C51_int_slice_refuted`
* `Verif.Grpc.C51_map_of_structs_refuted`
* `Verif.Grpc.C51_map_refuted`
* `Verif.Grpc.C51_maps_are_lost`
* `Verif.Grpc.C51_msg_refuted`
* `Verif.Grpc.C51_name_refuted`
* `Verif.Grpc.C51_nil_refuted`
* `Verif.Grpc.C51_pointer_refuted`
* `Verif.Grpc.C51_pointer_to_basic_refuted`
* `Verif.Grpc.C51_pointers_crash`
* `Verif.Grpc.C51_results_partial`
* `Verif.Grpc.C51_same_name_refuted`
* `Verif.Grpc.C51_several_names_refuted`
* `Verif.Grpc.C64_call_partial`
* `Verif.Grpc.C64_happens_refuted`
* `Verif.Grpc.C64_maps_refuted`
* `Verif.Grpc.C64_pointers_refuted`
* `Verif.Hotel.C116_negative_refuted`
* `Verif.Hotel.C116_recommendations`
* `Verif.Hotel.C117_bad_date_refuted`
* `Verif.Hotel.C117_dates`
* `Verif.Hotel.C117_reservation`
* `Verif.Hotel.C117_search`
* `Verif.Hotel.C118_reservations_refuted`
* `Verif.Hotel.C118_reviews_refuted`
* `Verif.Hotel.C118_users`
* `Verif.Hotel.C129_different_hotels_partial`
* `Verif.Hotel.C129_ends`
* `Verif.Hotel.C129_same_hotel_refuted`
* `Verif.Hotel.C87_availability_refuted`
* `Verif.Hotel.C87_cache_lost_refuted`
* `Verif.Hotel.C87_concurrent_refuted`
* `Verif.Hotel.C87_negative_refuted`
* `Verif.Hotel.C87_reservations_partial`
* `Verif.Hotel.C88_profiles`
* `Verif.Hotel.C88_rates_partial`
* `Verif.Hotel.Geo.C132_attractions`
* `Verif.Hotel.Geo.C132_empty_refuted`
* `Verif.Hotel.Geo.C132_hotels_partial`
* `Verif.Hotel.Geo.C132_moved_refuted`
* `Verif.Http.C68_arguments`
* `Verif.Http.C68_invalid_utf8_refuted`
* `Verif.Http.C68_nan_refuted`
* `Verif.Http.C68_pointer_to_nil_refuted`
* `Verif.Http.C68_results`
* `Verif.Http.C68_unexported_refuted`
* `Verif.Http.C69_at_most_once_partial`
* `Verif.Http.C69_at_most_once_refuted`
* `Verif.Http.C69_context`
* `Verif.Http.C69_deadline_refuted`
* `Verif.Http.C69_error`
* `Verif.Http.C69_error_text_refuted`
* `Verif.Http.C69_executions`
* `Verif.Http.C69_status`
* `Verif.Http.C69_success`
* `Verif.Image.C123_built_iff`
* `Verif.Image.C123_image_partial`
* `Verif.Image.C123_reserved_refuted`
* `Verif.Image.C123_same_directory_refuted`
* `Verif.Image.Scripts.C124_failure_refuted`
* `Verif.Image.Scripts.C124_missing_directory_refuted`
* `Verif.Image.Scripts.C124_outside_refuted`
* `Verif.Image.Scripts.C124_relative_refuted`
* `Verif.Image.Scripts.C124_scripts_run_once`
* `Verif.Leaf.C146_uncounted_refuted`
* `Verif.Live.C113_connected`
* `Verif.Live.C113_missing`
* `Verif.Live.C113_run_once_partial`
* `Verif.Live.C113_run_twice_refuted`
* `Verif.Live.C113_starts`
* `Verif.Logs.C133_chosen`
* `Verif.Logs.C133_early_refuted`
* `Verif.Logs.C133_first`
* `Verif.Logs.C133_whole_partial`
* `Verif.ModGen.C70_last_wins`
* `Verif.ModGen.C70_leftover_refuted`
* `Verif.ModGen.C70_own_parameters_partial`
* `Verif.ModGen.C70_second_pool_refuted`
* `Verif.ModGen.C70_second_retrier_refuted`
* `Verif.ModGen.C71_constructor_exists_partial`
* `Verif.ModGen.C71_one_definition_partial`
* `Verif.ModGen.C71_one_definition_refuted`
* `Verif.ModGen.C71_thrift_client_refuted`
* `Verif.ModGen.C72_copied_refuted`
* `Verif.Mongo.C114_count_refuted`
* `Verif.Mongo.C114_duplicate_refuted`
* `Verif.Mongo.C114_portable_partial`
* `Verif.Mongo.C114_replace_id_refuted`
* `Verif.Mongo.C114_upsert_merges_refuted`
* `Verif.NoSQL.C127_in_last_partial`
* `Verif.NoSQL.C127_nested`
* `Verif.NoSQL.C127_truncates_refuted`
* `Verif.NoSQL.C138_set_then_find`
* `Verif.NoSQL.C138_unset`
* `Verif.NoSQL.C31_nesting_irrelevant`
* `Verif.NoSQL.C31_nor_partial`
* `Verif.NoSQL.C31_or_partial`
* `Verif.NoSQL.C31_order_irrelevant`
* `Verif.NoSQL.C32_int_field`
* `Verif.NoSQL.C34_array_literal_prefix`
* `Verif.NoSQL.C34_array_literal_refuted`
* `Verif.NoSQL.C36_delete_idempotent`
* `Verif.NoSQL.C37_insert_many`
* `Verif.NoSQL.C37_insert_one`
* `Verif.NoSQL.C38_set_then_find`
* `Verif.NoSQL.C38_stored_integer`
* `Verif.NoSQL.C38_update_one`
* `Verif.NoSQL.C40_add_to_set_idempotent`
* `Verif.NoSQL.C40_add_to_set_refuted`
* `Verif.NoSQL.C41_unset`
* `Verif.NoSQL.C41_unset_field`
* `Verif.NoSQL.C43_one_document_per_id_partial`
* `Verif.NoSQL.C43_upsert`
* `Verif.NoSQL.C43_upsert_id_refuted`
* `Verif.NoSQL.C59_in`
* `Verif.NoSQL.C61_replace_one`
* `Verif.Orders.C143_orders_partial`
* `Verif.Orders.C143_twice_refuted`
* `Verif.Orders.C80_accepted_iff`
* `Verif.Orders.C80_late_item_refuted`
* `Verif.Orders.C80_other_cart_refuted`
* `Verif.Orders.C80_placed`
* `Verif.Orders.C80_refused_partial`
* `Verif.Orders.C80_shipped_without_order_refuted`
* `Verif.Orders.C80_unknown_refuted`
* `Verif.Orders.C80_unpaid`
* `Verif.Orders.C81_order_by_id`
* `Verif.Orders.C81_orders_of_customer`
* `Verif.Orders.C81_shipped_refuted`
* `Verif.Orders.C81_status_refuted`
* `Verif.Output.C135_docker_refuted`
* `Verif.Output.C135_documented_refuted`
* `Verif.Output.C135_lost_files_refuted`
* `Verif.Output.C135_order_partial`
* `Verif.Output.C135_output_partial`
* `Verif.Output.C135_same_name_refuted`
* `Verif.Output.C135_workload_partial`
* `Verif.Queue.C03_accepts_what_was_pushed`
* `Verif.Queue.C03_each_item_once`
* `Verif.Queue.C03_fifo_no_loss_bounded`
* `Verif.Queue.C03_mismatched_pop_loses_item_refuted`
* `Verif.Queue.C03_pop_takes_oldest`
* `Verif.Queue.C04_cancelled_waiter_can_return`
* `Verif.Queue.C04_pop_false`
* `Verif.Queue.C04_pop_with_item_succeeds`
* `Verif.Queue.C04_push_false`
* `Verif.Queue.C04_push_with_room_succeeds`
* `Verif.Races.C115_writers_finish`
* `Verif.RtNs.C10_built_once`
* `Verif.RtNs.C10_dependency_first`
* `Verif.RtNs.C10_failure_retried`
* `Verif.RtNs.C10_instantiate`
* `Verif.RtNs.C10_same_instance`
* `Verif.RtNs.C11_build`
* `Verif.RtNs.C11_build_again`
* `Verif.RtNs.C11_optional_never_missing`
* `Verif.RtNs.C11_redeclared_panics`
* `Verif.RtNs.C11_shared_variable_refuted`
* `Verif.RtNs.C11_with_parent`
* `Verif.RtNs.C12_child`
* `Verif.RtNs.C12_has`
* `Verif.RtNs.C12_like_definer`
* `Verif.RtNs.C12_nearest`
* `Verif.RtNs.C12_shared`
* `Verif.RtNs.C12_unknown`
* `Verif.RtNs.Wait.C13_await_partial`
* `Verif.RtNs.Wait.C13_await_returns`
* `Verif.RtNs.Wait.C13_done_stays`
* `Verif.RtNs.Wait.C13_failure_cancels`
* `Verif.RtNs.Wait.C13_not_stuck`
* `Verif.Scope.C97_any_name_refuted`
* `Verif.Scope.C97_attempt_number_refuted`
* `Verif.Scope.C97_names_break`
* `Verif.Scope.C97_names_iff`
* `Verif.Scope.C97_names_ok`
* `Verif.Scope.C97_thrift_service_refuted`
* `Verif.Social.C125_compose`
* `Verif.Social.C125_home_partial`
* `Verif.Social.C89_unique_partial`
* `Verif.Social.C89_window_refuted`
* `Verif.Social.C90_followees_partial`
* `Verif.Social.C90_followers_partial`
* `Verif.Social.C90_symmetric_partial`
* `Verif.Social.C91_broken_refuted`
* `Verif.Social.C91_failed_post_refuted`
* `Verif.Social.C91_no_posts_refuted`
* `Verif.Social.C91_order_refuted`
* `Verif.Social.C91_range_refuted`
* `Verif.Social.C91_user_timeline_partial`
* `Verif.Social.C92_home_timeline_partial`
* `Verif.Social.C92_own_posts_refuted`
* `Verif.Social.C92_past_end_refuted`
* `Verif.Social.Text.C119_links_partial`
* `Verif.Social.Text.C119_mentions`
* `Verif.Social.Text.C119_path_refuted`
* `Verif.Social.Text.C119_prefix_refuted`
* `Verif.Stack.C73_call_typechecks`
* `Verif.Stack.C73_client_fits_server`
* `Verif.Stack.C73_health_after_tracing_refuted`
* `Verif.Stack.C73_health_twice_refuted`
* `Verif.Stack.C73_interface_partial`
* `Verif.Stack.C73_panics_iff`
* `Verif.Stack.C73_struct_implements`
* `Verif.Strings.C24_deep_indentation_refuted`
* `Verif.Strings.C24_reindent_partial`
* `Verif.Thrift.C95_arguments_partial`
* `Verif.Thrift.C95_compiled_types`
* `Verif.Thrift.C95_compiles`
* `Verif.Thrift.C95_declares`
* `Verif.Thrift.C95_fields_are_lost`
* `Verif.Thrift.C95_generates`
* `Verif.Thrift.C95_int_refuted`
* `Verif.Thrift.C95_map_refuted`
* `Verif.Thrift.C95_maps_are_lost`
* `Verif.Thrift.C95_names`
* `Verif.Thrift.C95_numbers_partial`
* `Verif.Thrift.C95_pointer_refuted`
* `Verif.Thrift.C95_pointers_crash`
* `Verif.Thrift.C95_positions`
* `Verif.Thrift.C95_results_partial`
* `Verif.Thrift.C95_types_refuted`
* `Verif.Thrift.C96_at_most_once`
* `Verif.Thrift.C96_broken_refuted`
* `Verif.Thrift.C96_call_partial`
* `Verif.Thrift.C96_error_refuted`
* `Verif.Thrift.C96_error_text`
* `Verif.Thrift.C96_history_partial`
* `Verif.Thrift.C96_late_refuted`
* `Verif.Tracing.C67_call`
* `Verif.Tracing.C67_clocks`
* `Verif.Tracing.Ot.C65_server_panics_refuted`
* `Verif.Tracing.Ot.C65_trace`
* `Verif.Tracing.Ot.C65_transparent`
* `Verif.Tracing.Ot.C65_unsampled`
* `Verif.Tracing.Xt.C66_after_call_refuted`
* `Verif.Tracing.Xt.C66_call`
* `Verif.Tracing.Xt.C66_error_refuted`
* `Verif.Tracing.Xt.C66_events`
* `Verif.Tracing.Xt.C66_nested_refuted`
* `Verif.Tracing.Xt.C66_task`
* `Verif.Tracing.Xt.C66_transparent`
* `Verif.Trains.Assurances.C108_delete_by_order_partial`
* `Verif.Trains.Assurances.C108_delete_by_order_refuted`
* `Verif.Trains.Assurances.C108_read`
* `Verif.Trains.Assurances.C108_write`
* `Verif.Trains.Assurances.C136_assurances_history`
* `Verif.Trains.Assurances.C137_modify_alone`
* `Verif.Trains.Assurances.C137_modify_refuted`
* `Verif.Trains.Configs.C100_create`
* `Verif.Trains.Configs.C100_delete`
* `Verif.Trains.Configs.C100_find`
* `Verif.Trains.Configs.C100_find_all`
* `Verif.Trains.Configs.C100_update`
* `Verif.Trains.Configs.C136_configs_history`
* `Verif.Trains.Configs.C137_create_partial`
* `Verif.Trains.Configs.C137_create_refuted`
* `Verif.Trains.Consign.C107_get`
* `Verif.Trains.Consign.C107_grows_refuted`
* `Verif.Trains.Consign.C107_price`
* `Verif.Trains.Consign.C107_set`
* `Verif.Trains.Consign.C136_set_consign_partial`
* `Verif.Trains.Consign.C136_set_consign_refuted`
* `Verif.Trains.Consign.C137_set_refuted`
* `Verif.Trains.Contacts.C109_contacts_read`
* `Verif.Trains.Contacts.C109_contacts_write`
* `Verif.Trains.Contacts.C109_delete_contact_partial`
* `Verif.Trains.Contacts.C109_delete_contact_refuted`
* `Verif.Trains.Contacts.C109_modify_then_find`
* `Verif.Trains.Contacts.C136_contacts_history`
* `Verif.Trains.Contacts.C137_create_refuted`
* `Verif.Trains.Deliver.C110_delivered_partial`
* `Verif.Trains.Deliver.C110_in_order`
* `Verif.Trains.Deliver.C110_iteration`
* `Verif.Trains.Deliver.C110_lost_refuted`
* `Verif.Trains.Deliver.C110_stopped_refuted`
* `Verif.Trains.FoodStores.C104_list_stores`
* `Verif.Trains.FoodStores.C104_store`
* `Verif.Trains.FoodStores.C104_store_write`
* `Verif.Trains.FoodStores.C136_food_stores_history`
* `Verif.Trains.FoodStores.C137_create_partial`
* `Verif.Trains.FoodStores.C137_create_refuted`
* `Verif.Trains.Payments.C106_cleanup_partial`
* `Verif.Trains.Payments.C106_cleanup_refuted`
* `Verif.Trains.Payments.C106_pay`
* `Verif.Trains.Payments.C106_pay_refuted`
* `Verif.Trains.Payments.C106_query`
* `Verif.Trains.Payments.C106_write`
* `Verif.Trains.Payments.C136_cleanup_refuted`
* `Verif.Trains.Payments.C137_init_refuted`
* `Verif.Trains.Prices.C103_find`
* `Verif.Trains.Prices.C103_find_by_route_and_type`
* `Verif.Trains.Prices.C103_find_by_routes_and_types_partial`
* `Verif.Trains.Prices.C103_find_by_routes_and_types_refuted`
* `Verif.Trains.Prices.C103_get_all`
* `Verif.Trains.Prices.C103_write`
* `Verif.Trains.Prices.C136_create_price_refuted`
* `Verif.Trains.Prices.C137_create_refuted`
* `Verif.Trains.Routes.C105_create_and_modify`
* `Verif.Trains.Routes.C105_get`
* `Verif.Trains.Routes.C105_get_all`
* `Verif.Trains.Routes.C105_get_many`
* `Verif.Trains.Routes.C105_refused`
* `Verif.Trains.Routes.C105_short_id_refuted`
* `Verif.Trains.Routes.C105_start_and_end`
* `Verif.Trains.Routes.C137_create_refuted`
* `Verif.Trains.Stations.C101_create`
* `Verif.Trains.Stations.C101_delete`
* `Verif.Trains.Stations.C101_exists`
* `Verif.Trains.Stations.C101_find`
* `Verif.Trains.Stations.C101_find_by_ids_partial`
* `Verif.Trains.Stations.C101_find_by_ids_refuted`
* `Verif.Trains.Stations.C101_find_id`
* `Verif.Trains.Stations.C101_find_ids_partial`
* `Verif.Trains.Stations.C101_find_ids_refuted`
* `Verif.Trains.Stations.C101_update`
* `Verif.Trains.Stations.C136_stations_history`
* `Verif.Trains.Stations.C137_create_partial`
* `Verif.Trains.Stations.C137_create_refuted`
* `Verif.Trains.Stations.C137_lookup_refuted`
* `Verif.Trains.TrainFoods.C104_by_trip`
* `Verif.Trains.TrainFoods.C104_list_trains`
* `Verif.Trains.TrainFoods.C104_train_write`
* `Verif.Trains.TrainFoods.C136_train_food_history`
* `Verif.Trains.TrainFoods.C137_create_refuted`
* `Verif.Trains.Trains.C102_all`
* `Verif.Trains.Trains.C102_delete_partial`
* `Verif.Trains.Trains.C102_delete_refuted`
* `Verif.Trains.Trains.C102_retrieve`
* `Verif.Trains.Trains.C102_retrieve_by_names`
* `Verif.Trains.Trains.C102_write`
* `Verif.Trains.Trains.C136_trains_history`
* `Verif.Trains.Trains.C137_create_refuted`
* `Verif.Trains.Users.C109_delete_user_partial`
* `Verif.Trains.Users.C109_delete_user_refuted`
* `Verif.Trains.Users.C109_update_then_find`
* `Verif.Trains.Users.C109_users_read`
* `Verif.Trains.Users.C109_users_write`
* `Verif.Trains.Users.C136_users_history`
* `Verif.Users.C141_cleanup`
* `Verif.Users.C141_history_partial`
* `Verif.Users.C141_login_partial`
* `Verif.Users.C141_login_refuted`
* `Verif.Users.C141_user_refuted`
* `Verif.Users.C142_posts_partial`
* `Verif.Users.C78_cards_hidden`
* `Verif.Users.C78_login_sound`
* `Verif.Users.C78_unknown_refuted`
* `Verif.Users.C78_users_partial`
* `Verif.Users.C79_duplicate_refuted`
* `Verif.Users.C79_login_partial`
* `Verif.Users.C79_short_card_refuted`
* `Verif.Wiring.C14_alias_cycle_refuted`
* `Verif.Wiring.C14_content`
* `Verif.Wiring.C14_getDef_ends`
* `Verif.Wiring.C14_kind`
* `Verif.Wiring.C14_property_on_alias_refuted`
* `Verif.Wiring.C15_no_leak`
* `Verif.Wiring.C15_properties`
* `Verif.Wiring.C19_client_side`
* `Verif.Wiring.C19_returned`
* `Verif.Wiring.C19_server_side`
* `Verif.Wiring.C19_uniqueness_alias`
* `Verif.Wiring.Ns.C16_built_once`
* `Verif.Wiring.Ns.C16_same_node`
* `Verif.Wiring.Ns.C16_told_once`
* `Verif.Wiring.Ns.C17_built_where_accepted`
* `Verif.Wiring.Ns.C17_comes_from_nearest`
* `Verif.Wiring.Ns.C17_derived`
* `Verif.Wiring.Ns.C17_nearest`
* `Verif.Wiring.Ns.C17_placed_somewhere`
* `Verif.Wiring.Ns.C18_back_in_order`
* `Verif.Wiring.Ns.C18_each_once`
* `Verif.Wiring.Ns.C18_front_first`
* `Verif.Wiring.Ns.C18_nodes_built`
* `Verif.Wiring.Ns.C18_nodes_reversed`
* `Verif.Wiring.Ns.C20_second_rejected`
* `Verif.Wiring.Ns.C20_unique`
* `Verif.Workload.C08_draws_match_proportions_partial`
* `Verif.Workload.C08_every_draw_selects_an_api`
* `Verif.Workload.C08_negative_proportions_refuted`
* `Verif.Workload.C09_no_panic`
* `Verif.Workload.C09_no_record_invented`
* `Verif.Workload.C09_one_record_per_request`
* `Verif.Workload.C09_report_counts`
* `Verif.Workload.C09_report_latency`
* `Verif.Workload.C09_run_ends`
* `Verif.Wrappers.C44_rate_limited_partial`
* `Verif.Wrappers.C44_retries_partial`
* `Verif.Wrappers.C45_backoff_partial`
* `Verif.Wrappers.C45_schedule`
* `Verif.Wrappers.C46_rate_limit`
* `Verif.Wrappers.C47_fair`

## `Quot.sound, propext`

* `Verif.Address.C21_fails_iff_conflict`
* `Verif.Address.C21_order_matters`
* `Verif.Address.C21_port_zero_refuted`
* `Verif.Backends.C74_any_refuted`
* `Verif.Backends.C74_redis_partial`
* `Verif.Backends.C75_early_partial`
* `Verif.Backends.C75_one_client_partial`
* `Verif.Backends.C75_share`
* `Verif.Backends.C75_two_processes_refuted`
* `Verif.Balance.C134_calls`
* `Verif.Cache.C02_lost_update_refuted`
* `Verif.Cache.C02_non_counter_untouched`
* `Verif.Cache.C02_nonoverlapping_incr_partial`
* `Verif.Cache.C02_sequential_incr`
* `Verif.Cart.C139_carts_partial`
* `Verif.Cart.C139_merge_partial`
* `Verif.Catalogue.C98_concurrent_refuted`
* `Verif.Catalogue.C98_page_panic_refuted`
* `Verif.ClientPool.C05_cancelled_pop_returns`
* `Verif.ClientPool.C06_stranded_waiter_refuted`
* `Verif.Cmd.C122_duplicate_refuted`
* `Verif.Compile.C121_calls`
* `Verif.Deploy.Compose.C49_redeclared`
* `Verif.Deploy.Kube.C62_names`
* `Verif.Frontend.C99_reads`
* `Verif.Frontend.C99_unknown_refuted`
* `Verif.GoParse.C84_embedded_refuted`
* `Verif.GoParse.C84_fields_refuted`
* `Verif.GoParse.C84_first_field_refuted`
* `Verif.GoParse.C84_signature`
* `Verif.GoParse.C86_nested_refuted`
* `Verif.GoParse.C86_package_partial`
* `Verif.GoValue.C55_assigns_or_errors_partial`
* `Verif.GoValue.C55_delivers_same_value`
* `Verif.GoValue.C55_read`
* `Verif.GoValue.C55_read_back`
* `Verif.GoValue.C55_succeeds_iff_fits`
* `Verif.Grpc.C64_at_most_once`
* `Verif.Hotel.C117_unauthorised`
* `Verif.Hotel.C118_recommendations`
* `Verif.Hotel.C87_no_nights_refuted`
* `Verif.Hotel.Geo.C132_nil_refuted`
* `Verif.Http.C68_legal_target`
* `Verif.IR.C25_complete_traversal`
* `Verif.IR.C25_filter_exact`
* `Verif.IR.C25_lists_exactly_the_tree`
* `Verif.IR.C26_every_node_built_once`
* `Verif.IR.C26_unbuildable_node_fails`
* `Verif.Interleave.C125_finishes`
* `Verif.Interleave.C125_isolation`
* `Verif.Leaf.C146_counted_partial`
* `Verif.Leaf.C146_in_turn`
* `Verif.Leaf.C146_later`
* `Verif.Leaf.C146_lost_replies`
* `Verif.Leaf.C146_wraps_refuted`
* `Verif.Logs.C133_logf_refuted`
* `Verif.Logs.C133_meters`
* `Verif.Logs.C133_running`
* `Verif.Logs.C133_statements_partial`
* `Verif.ModGen.C72_only_asked`
* `Verif.ModGen.C72_required`
* `Verif.Mongo.C114_unimplemented_refuted`
* `Verif.NoSQL.C127_element`
* `Verif.NoSQL.C128_all`
* `Verif.NoSQL.C128_elem_match`
* `Verif.NoSQL.C128_logical`
* `Verif.NoSQL.C138_at`
* `Verif.NoSQL.C138_at_fails`
* `Verif.NoSQL.C138_blocked`
* `Verif.NoSQL.C138_inc`
* `Verif.NoSQL.C138_inside`
* `Verif.NoSQL.C138_push`
* `Verif.NoSQL.C138_query`
* `Verif.NoSQL.C138_set_null_refuted`
* `Verif.NoSQL.C138_set_partial`
* `Verif.NoSQL.C31_and`
* `Verif.NoSQL.C31_several_conditions`
* `Verif.NoSQL.C32_float_field_int_literal_refuted`
* `Verif.NoSQL.C32_float_literal`
* `Verif.NoSQL.C32_int_literal_partial`
* `Verif.NoSQL.C32_not_a_number`
* `Verif.NoSQL.C32_range`
* `Verif.NoSQL.C34_field_partial`
* `Verif.NoSQL.C34_literal_partial`
* `Verif.NoSQL.C34_same_documents`
* `Verif.NoSQL.C35_find_one`
* `Verif.NoSQL.C36_delete_many`
* `Verif.NoSQL.C36_delete_one`
* `Verif.NoSQL.C38_put`
* `Verif.NoSQL.C38_set_null_refuted`
* `Verif.NoSQL.C38_set_partial`
* `Verif.NoSQL.C38_update_many`
* `Verif.NoSQL.C39_set_last_partial`
* `Verif.NoSQL.C39_stale_elements_refuted`
* `Verif.NoSQL.C39_truncates_refuted`
* `Verif.NoSQL.C40_add_to_set`
* `Verif.NoSQL.C40_pull_matching`
* `Verif.NoSQL.C40_pull_missing_refuted`
* `Verif.NoSQL.C40_pull_value`
* `Verif.NoSQL.C40_push`
* `Verif.NoSQL.C41_inc`
* `Verif.NoSQL.C41_inc_twice`
* `Verif.NoSQL.C41_wrap`
* `Verif.NoSQL.C42_single_entry_partial`
* `Verif.NoSQL.C58_array_position`
* `Verif.NoSQL.C58_negative_position_refuted`
* `Verif.NoSQL.C58_number`
* `Verif.NoSQL.C58_pieces`
* `Verif.NoSQL.C58_subdocument_field`
* `Verif.NoSQL.C59_all`
* `Verif.NoSQL.C59_ne_partial`
* `Verif.NoSQL.C59_ne_refuted`
* `Verif.NoSQL.C61_replace_many`
* `Verif.Output.C135_digits_refuted`
* `Verif.Races.C115_cache_partial`
* `Verif.Races.C115_insert_invents_nothing`
* `Verif.Races.C115_readers_never_race`
* `Verif.Races.C115_writers_never_race`
* `Verif.Registry.C07_builds_at_most_one`
* `Verif.Registry.C07_built_at_most_once_and_cached`
* `Verif.Registry.C07_first_get_builds_default`
* `Verif.RtNs.Wait.C13_parent_not_cancelled_refuted`
* `Verif.Shipping.C82_all_shipped_partial`
* `Verif.Shipping.C82_status`
* `Verif.Shipping.C82_stuck_refuted`
* `Verif.Shipping.Many.C145_accounted`
* `Verif.Shipping.Many.C145_all_shipped_partial`
* `Verif.Shipping.Many.C145_status`
* `Verif.Shipping.Many.C145_stop_refuted`
* `Verif.Shipping.Run.C147_never_refuted`
* `Verif.Shipping.Run.C147_order`
* `Verif.Shipping.Run.C147_retries`
* `Verif.Shipping.Run.C147_returns`
* `Verif.Shipping.Run.C147_stops_partial`
* `Verif.Social.Accounts.C94_in_graph`
* `Verif.Social.Accounts.C94_login`
* `Verif.Social.Accounts.C94_mentions_partial`
* `Verif.Social.Accounts.C94_mentions_refuted`
* `Verif.Social.Accounts.C94_register_partial`
* `Verif.Social.Accounts.C94_same_id_refuted`
* `Verif.Social.Accounts.C94_user_id`
* `Verif.Social.C125_first_posts_refuted`
* `Verif.Social.C125_follow`
* `Verif.Social.C125_follow_lost_refuted`
* `Verif.Social.C125_timeline_cache_refuted`
* `Verif.Social.C125_unfollow`
* `Verif.Social.C125_user_timeline_partial`
* `Verif.Social.C89_counter_refuted`
* `Verif.Social.C91_after_loss_partial`
* `Verif.Social.C93_read_post_partial`
* `Verif.Social.C93_read_posts_partial`
* `Verif.Social.C93_timeline_posts`
* `Verif.Social.Text.C120_media`
* `Verif.Strings.C23_capitalize`
* `Verif.Strings.C23_clean_names_unchanged_partial`
* `Verif.Strings.C23_different_letters_stay_different`
* `Verif.Strings.C23_env_var`
* `Verif.Strings.C23_exact`
* `Verif.Strings.C23_idempotent`
* `Verif.Strings.C23_identifier_or_space`
* `Verif.Strings.C23_identifier_partial`
* `Verif.Strings.C23_letters_survive`
* `Verif.Strings.C24_indent`
* `Verif.Strings.C24_lines`
* `Verif.Tracing.C67_same_name_refuted`
* `Verif.Tracing.Ot.C65_context`
* `Verif.Trains.Payments.C136_payments_partial`
* `Verif.Trains.Prices.C136_create_price_partial`
* `Verif.Trains.Routes.C136_routes`
* `Verif.Trains.Stations.C136_find_by_ids_refuted`
* `Verif.Trains.Stations.C136_find_ids_refuted`
* `Verif.Trains.Stations.C137_lookup_alone`
* `Verif.Users.C141_delete_again`
* `Verif.Users.C141_delete_error`
* `Verif.Users.C141_leftover_refuted`
* `Verif.Users.C141_login_sound`
* `Verif.Users.C141_post_partial`
* `Verif.Users.C141_post_refuted`
* `Verif.Users.C141_simple_partial`
* `Verif.Users.C142_login_refuted`
* `Verif.Wiring.Ns.C17_built_by`
* `Verif.Wiring.Ns.C17_shared`
* `Verif.Wrappers.C44_zero_tries_refuted`
* `Verif.Wrappers.C45_jitter_panics_refuted`
* `Verif.Wrappers.C45_overflow_refuted`
* `Verif.Wrappers.C45_zero_delay_refuted`
* `Verif.Wrappers.C46_bucket_partial`
* `Verif.Wrappers.C46_concurrent_refuted`
* `Verif.Wrappers.C46_drained_forever_refuted`
* `Verif.Wrappers.C46_rate_liveness`
* `Verif.Wrappers.C46_retry_decision`
* `Verif.Wrappers.C47_exclusive`
* `Verif.Wrappers.C47_no_clients_refuted`
* `Verif.Wrappers.C47_round_robin`
* `Verif.Wrappers.C48_helper_leaks_refuted`
* `Verif.Wrappers.C48_no_leak_on_completion`
* `Verif.Wrappers.C48_result_partial`
* `Verif.Wrappers.C48_returns`
* `Verif.Wrappers.C52_delay`
* `Verif.Wrappers.C52_effect`
* `Verif.Wrappers.C52_negative_delay_refuted`
* `Verif.Wrappers.C52_rate`

## no axioms

* `Verif.GoValue.C55_clear`
* `Verif.GoValue.C55_read_nil_refuted`
* `Verif.Hotel.C88_dates_refuted`
* `Verif.NoSQL.C37_insert_error`
* `Verif.Social.Text.C119_expand_refuted`
* `Verif.Social.Text.C120_zero_refuted`
* `Verif.Strings.C23_empty_refuted`
* `Verif.Trains.Contacts.C109_documents_refuted`
* `Verif.Trains.Trains.C102_names_refuted`
* `Verif.Wrappers.C44_rate_limited_numbering_refuted`

## `propext`

* `Verif.Backends.C74_redis_failed`
* `Verif.Backends.C75_push_fails`
* `Verif.Cache.C01_length_mismatch`
* `Verif.Catalogue.C98_order_refuted`
* `Verif.Deploy.Env.C50_service_name`
* `Verif.Deploy.Run.C63_function_required`
* `Verif.Deploy.Run.C63_generates`
* `Verif.GoCode.C28_default_name`
* `Verif.GoCode.C29_equals_iff_same`
* `Verif.GoGen.C53_created_modules_share_directory_refuted`
* `Verif.GoGen.C53_retry_after_error_refuted`
* `Verif.GoGen.C57_parameter_called_n_refuted`
* `Verif.GoParse.C84_fields_partial`
* `Verif.GoParse.C85_workspace_local`
* `Verif.GoParse.C85_workspace_partial`
* `Verif.GoParse.C85_workspace_refuted`
* `Verif.GoParse.C86_add_refuted`
* `Verif.GoParse.C86_redeclared_partial`
* `Verif.GoValue.C55_failure_leaves_destination`
* `Verif.GoValue.C55_nil_source_refuted`
* `Verif.Hotel.C116_other`
* `Verif.Hotel.C117_login`
* `Verif.Hotel.C117_search_error_refuted`
* `Verif.Hotel.C118_rates_refuted`
* `Verif.Hotel.C129_alone`
* `Verif.IR.C27_fires_once`
* `Verif.Leaf.C146_twice_refuted`
* `Verif.Logs.C133_floating_refuted`
* `Verif.Logs.C133_tags`
* `Verif.ModGen.C72_copied_partial`
* `Verif.Mongo.C114_projection_refuted`
* `Verif.NoSQL.C31_empty_nor_refuted`
* `Verif.NoSQL.C31_empty_or_refuted`
* `Verif.NoSQL.C31_no_conditions`
* `Verif.NoSQL.C31_not`
* `Verif.NoSQL.C33_exists_false_refuted`
* `Verif.NoSQL.C33_exists_true_refuted`
* `Verif.NoSQL.C35_find_many`
* `Verif.NoSQL.C35_rejection_uniform`
* `Verif.NoSQL.C42_malformed`
* `Verif.NoSQL.C42_replace_refuted`
* `Verif.NoSQL.C42_several_entries_refuted`
* `Verif.NoSQL.C42_update_many_refuted`
* `Verif.NoSQL.C59_elem_match`
* `Verif.NoSQL.C61_malformed_query_refuted`
* `Verif.NoSQL.Store.C60_collections`
* `Verif.Output.C135_new_directory`
* `Verif.Races.C115_get_collection_partial`
* `Verif.Races.C115_get_collection_refuted`
* `Verif.Races.C115_get_refuted`
* `Verif.Races.C115_insert_partial`
* `Verif.Races.C115_insert_refuted`
* `Verif.Registry.C07_early_set_default_ignored_refuted`
* `Verif.RtNs.C10_cycle_refuted`
* `Verif.RtNs.C11_child_argument_refuted`
* `Verif.RtNs.Race.C10_callers_in_turn`
* `Verif.RtNs.Race.C10_concurrent_refuted`
* `Verif.RtNs.Wait.C13_grandchild_refuted`
* `Verif.Shipping.Many.one_master`
* `Verif.Social.C125_home_lost_refuted`
* `Verif.Social.C90_cache_lost_refuted`
* `Verif.Social.C90_forgotten_refuted`
* `Verif.Social.C90_twice_refuted`
* `Verif.Social.C90_unknown_refuted`
* `Verif.Social.C92_lost_refuted`
* `Verif.Social.C93_same_id_refuted`
* `Verif.Social.Text.C120_dangling_refuted`
* `Verif.Social.Text.C120_gateway`
* `Verif.Social.Text.C120_nothing`
* `Verif.Social.Text.C120_stored_partial`
* `Verif.Social.Text.C120_timestamp_refuted`
* `Verif.Stack.C73_call_transparent`
* `Verif.Stack.C73_health_answers`
* `Verif.Strings.C23_double_underscore_refuted`
* `Verif.Strings.C23_space_refuted`
* `Verif.Strings.C24_inner_tab_refuted`
* `Verif.Strings.C24_lines_unique`
* `Verif.Tracing.Ot.C65_server_partial`
* `Verif.Trains.Assurances.C136_assurances`
* `Verif.Trains.C137_payments_partial`
* `Verif.Trains.C137_single_partial`
* `Verif.Trains.Configs.C136_configs`
* `Verif.Trains.Consign.C136_consign_partial`
* `Verif.Trains.Contacts.C136_contacts`
* `Verif.Trains.FoodStores.C136_food_stores`
* `Verif.Trains.Prices.C136_find_by_routes_and_types_refuted`
* `Verif.Trains.Prices.C136_lookups_partial`
* `Verif.Trains.Prices.C136_prices_partial`
* `Verif.Trains.Routes.C136_get_by_ids_refuted`
* `Verif.Trains.Routes.C136_lookups_partial`
* `Verif.Trains.Stations.C136_lookups_partial`
* `Verif.Trains.Stations.C136_stations`
* `Verif.Trains.TrainFoods.C136_train_food`
* `Verif.Trains.Trains.C136_lookups_partial`
* `Verif.Trains.Trains.C136_retrieve_by_names_refuted`
* `Verif.Trains.Trains.C136_trains`
* `Verif.Trains.Users.C136_users`
* `Verif.Wiring.C14_getDef`
* `Verif.Wiring.C19_added_twice_refuted`
* `Verif.Wiring.C19_address_bypassed_refuted`
* `Verif.Wiring.Ns.C16_cyclic_refuted`
* `Verif.Wiring.Ns.C16_failed_alias_refuted`
* `Verif.Wiring.Ns.C16_same_name_refuted`
* `Verif.Wiring.Ns.C17_instantiate_first_refuted`
* `Verif.Wiring.Ns.C18_result`
* `Verif.Wiring.Ns.C18_swallowed_error_refuted`
* `Verif.Wrappers.C44_sleeps`
* `Verif.Wrappers.C46_zero_rate`
* `Verif.Wrappers.C48_leak_reached_refuted`
* `Verif.Wrappers.C48_torn_result_refuted`
