'Riot.C01_and_search_exact' depends on axioms: [propext, Classical.choice, Quot.sound]
'Riot.C01_and_search_exact_ideal' depends on axioms: [propext, Classical.choice, Quot.sound]
'Riot.C02_docids_plain' depends on axioms: [propext, Classical.choice, Quot.sound]
'Riot.C02_refuted_should' depends on axioms: [propext, Classical.choice, Quot.sound]
'Riot.C02_docids_must' depends on axioms: [propext, Classical.choice, Quot.sound]
'Riot.C03_count_only' depends on axioms: [propext, Classical.choice, Quot.sound]
'Riot.C04_history_refines_map_partial' depends on axioms: [propext, Classical.choice, Quot.sound]
'Riot.C04_disciplined_history_partial' depends on axioms: [propext, Classical.choice, Quot.sound]
'Riot.C04_refuted_stale_version' depends on axioms: [propext, Classical.choice, Quot.sound]
'Riot.C05_no_crash_partial' depends on axioms: [propext, Classical.choice, Quot.sound]
'Riot.C05_only_full_cache_crashes' depends on axioms: [propext, Classical.choice, Quot.sound]
'Riot.C05_refuted_repeated_add' depends on axioms: [propext, Classical.choice, Quot.sound]
'Riot.C06_removed_invisible' depends on axioms: [propext, Classical.choice, Quot.sound]
'Riot.C06_removed_stays_invisible' depends on axioms: [propext, Classical.choice, Quot.sound]
'Riot.C06_refuted_reserved_id' depends on axioms: [propext, Classical.choice, Quot.sound]
'Riot.C07_hasDoc_exact' depends on axioms: [propext, Classical.choice, Quot.sound]
'Riot.C08_locations_attached' depends on axioms: [propext, Classical.choice, Quot.sound]
'Riot.C09_proximity_attained_partial' depends on axioms: [propext, Classical.choice, Quot.sound]
'Riot.C09_refuted_large_locations' depends on axioms: [propext, Classical.choice, Quot.sound]
'Riot.C10_proximity_optimal_partial' depends on axioms: [propext, Classical.choice, Quot.sound]
'Riot.C10_refuted_overlap' depends on axioms: [propext, Classical.choice, Quot.sound]
'Riot.C11_bm25_value_partial' depends on axioms: [propext, Classical.choice, Quot.sound]
'Riot.C11_refuted_pending_removal' depends on axioms: [propext, Classical.choice, Quot.sound]
'Riot.C12_statistics' depends on axioms: [propext, Classical.choice, Quot.sound]
'Riot.C13_search_never_crashes_partial' depends on axioms: [propext, Classical.choice, Quot.sound]
'Riot.C13_refuted_label_only' depends on axioms: [propext, Classical.choice, Quot.sound]
'Riot.C13_refuted_must_without_keys' depends on axioms: [propext, Classical.choice, Quot.sound]
'Riot.C13_label_only_always_crashes' depends on axioms: [propext, Classical.choice, Quot.sound]
'Riot.C14_must_exact_partial' depends on axioms: [propext, Classical.choice, Quot.sound]
'Riot.C14_mixed_takes_previous' depends on axioms: [propext, Classical.choice, Quot.sound]
'Riot.C14_refuted_mixed' depends on axioms: [propext, Classical.choice, Quot.sound]
'Riot.C14_refuted' depends on axioms: [propext, Classical.choice, Quot.sound]
'Riot.C15_should_exact_partial' depends on axioms: [propext, Classical.choice, Quot.sound]
'Riot.C15_refuted' depends on axioms: [propext, Classical.choice, Quot.sound]
'Riot.C16_notin_excludes_partial' depends on axioms: [propext, Classical.choice, Quot.sound]
'Riot.C16_notin_only_returns_containing' depends on axioms: [propext, Classical.choice, Quot.sound]
'Riot.C16_refuted_notin_only' depends on axioms: [propext, Classical.choice, Quot.sound]
'Riot.C17_no_removed_documents_partial' depends on axioms: [propext, Classical.choice, Quot.sound]
'Riot.C17_refuted_pending_removal' depends on axioms: [propext, Classical.choice, Quot.sound]
'Riot.C18_forced_readd_visible_partial' depends on axioms: [propext, Classical.choice, Quot.sound]
'Riot.C18_refuted_readd_hides' depends on axioms: [propext, Classical.choice, Quot.sound]
'Riot.C19_removal_wins_partial' depends on axioms: [propext, Classical.choice, Quot.sound]
'Riot.C19_refuted_remove_of_cached_add' depends on axioms: [propext, Classical.choice, Quot.sound]
'Riot.C20_rank_order' depends on axioms: [propext, Classical.choice, Quot.sound]
'Riot.C21_rank_exact' depends on axioms: [propext, Classical.choice, Quot.sound]
'Riot.C21_rank_ids_and_counts' depends on axioms: [propext, Classical.choice, Quot.sound]
'Riot.C22_pagination' depends on axioms: [propext, Classical.choice, Quot.sound]
'Riot.C22_pages_tile' depends on axioms: [propext, Classical.choice, Quot.sound]
'Riot.C22_negative_offset_crashes' depends on axioms: [propext, Quot.sound]
'Riot.C23_score_order_partial' depends on axioms: [propext, Classical.choice, Quot.sound]
'Riot.C23_refuted_nan' depends on axioms: [propext, Classical.choice, Quot.sound]
'Riot.C24_search_is_page_of_global_ranking' depends on axioms: [propext, Classical.choice, Quot.sound]
'Riot.C24_orderless_returns_all_found' depends on axioms: [propext, Classical.choice, Quot.sound]
'Riot.C25_numDocs_is_total' depends on axioms: [propext, Classical.choice, Quot.sound]
'Riot.C25_negative_limit_crashes' depends on axioms: [propext, Classical.choice, Quot.sound]
'Riot.C26_count_only_equals_full_partial' depends on axioms: [propext, Classical.choice, Quot.sound]
'Riot.C26_refuted_filtered_document' depends on axioms: [propext, Classical.choice, Quot.sound]
'Riot.C27_timeout_sound' depends on axioms: [propext, Classical.choice, Quot.sound]
'Riot.C27_partial_documents_are_ranked' depends on axioms: [propext, Quot.sound]
'Riot.C28_delivery_never_blocks' depends on axioms: [propext, Classical.choice, Quot.sound]
'Riot.C28_at_most_one_answer_per_shard' depends on axioms: [propext, Classical.choice, Quot.sound]
'Riot.C28_every_search_completes' depends on axioms: [propext, Classical.choice, Quot.sound]
'Riot.C29_shard_in_range' depends on axioms: [propext, Quot.sound]
'Riot.C30_reindex_replaces_partial' depends on axioms: [propext, Classical.choice, Quot.sound]
'Riot.C30_refuted_two_shards' depends on axioms: [propext, Classical.choice, Quot.sound]
'Riot.C31_removed_everywhere_partial' depends on axioms: [propext, Classical.choice, Quot.sound]
'Riot.C31_refuted_without_flush' depends on axioms: [propext, Classical.choice, Quot.sound]
'Riot.C32_flush_waits_for_all_work' depends on axioms: [propext, Classical.choice, Quot.sound]
'Riot.C32_calls_return' depends on axioms: [propext, Classical.choice, Quot.sound]
'Riot.C33_quiet_engine_can_rank_partial' depends on axioms: [propext, Classical.choice, Quot.sound]
'Riot.C33_ranker_data_partial' depends on axioms: [propext, Classical.choice, Quot.sound]
'Riot.C33_eventually_rankable_partial' depends on axioms: [propext, Classical.choice, Quot.sound]
'Riot.C33_refuted_rankers_not_awaited' depends on axioms: [propext, Classical.choice, Quot.sound]
'Riot.C33_refuted_readded_document_lost' depends on axioms: [propext, Classical.choice, Quot.sound]
'Riot.C33_refuted_stale_fields' depends on axioms: [propext, Classical.choice, Quot.sound]
'Riot.C34_counters_never_overtake' depends on axioms: [propext, Classical.choice, Quot.sound]
'Riot.C34_counters_exact_when_done' depends on axioms: [propext, Classical.choice, Quot.sound]
'Riot.C35_shard_stuck_exactly' depends on axioms: [propext, Classical.choice, Quot.sound]
'Riot.C35_deadlock_blocks_flush' depends on axioms: [propext, Classical.choice, Quot.sound]
'Riot.C35_engine_deadlock_exactly' depends on axioms: [propext, Classical.choice, Quot.sound]
'Riot.C35_no_deadlock_partial' depends on axioms: [propext, Classical.choice, Quot.sound]
'Riot.C35_work_terminates' depends on axioms: [propext, Classical.choice, Quot.sound]
'Riot.C35_refuted' depends on axioms: [propext, Classical.choice, Quot.sound]
'Riot.C36_typed_search_returns_iff_partial' depends on axioms: [propext, Quot.sound]
'Riot.C36_refuted_count_only' depends on axioms: [propext, Classical.choice, Quot.sound]
'Riot.C37_no_stop_token_is_key' depends on axioms: [propext, Classical.choice, Quot.sound]
'Riot.C37_no_stop_token_in_query' depends on axioms: [propext, Classical.choice, Quot.sound]
'Riot.C38_label_is_key' depends on axioms: [propext, Classical.choice, Quot.sound]
'Riot.C38_labels_keep_locations' depends on axioms: [propext, Classical.choice, Quot.sound]
'Riot.C39_keys_once_and_frequency' depends on axioms: [propext, Classical.choice, Quot.sound]
'Riot.C39_engine_histories_wellformed' depends on axioms: [propext, Classical.choice, Quot.sound]
'Riot.C40_words_are_keys' depends on axioms: [propext, Classical.choice, Quot.sound]
'Riot.C40_query_tokens' depends on axioms: [propext, Classical.choice, Quot.sound]
'Riot.C40_search_finds_words' depends on axioms: [propext, Classical.choice, Quot.sound]
'Riot.C40_extra_space_finds_nothing' depends on axioms: [propext, Classical.choice, Quot.sound]
'Riot.C41_keys_exact' depends on axioms: [propext, Classical.choice, Quot.sound]
'Riot.C41_documented_modes_partial' depends on axioms: [propext, Classical.choice, Quot.sound]
'Riot.C41_documented_subset' depends on axioms: [propext, Classical.choice, Quot.sound]
'Riot.C41_refuted_spaces' depends on axioms: [propext, Classical.choice, Quot.sound]
'Riot.C42_split_exact' depends on axioms: [propext, Classical.choice, Quot.sound]
'Riot.C42_split_locations' depends on axioms: [propext, Classical.choice, Quot.sound]
'Riot.C42_document_locations' depends on axioms: [propext, Classical.choice, Quot.sound]
'Riot.C43_flushed_is_stored' depends on axioms: [propext, Classical.choice, Quot.sound]
'Riot.C43_restart_serves_stored' depends on axioms: [propext, Classical.choice, Quot.sound]
'Riot.C43_restart_recovers' depends on axioms: [propext, Classical.choice, Quot.sound]
'Riot.C43_crash_whole_documents' depends on axioms: [propext, Classical.choice, Quot.sound]
'Riot.C43_refuted_invisible_until_flush' depends on axioms: [propext, Classical.choice, Quot.sound]
'Riot.C44_removed_from_store_partial' depends on axioms: [propext, Classical.choice, Quot.sound]
'Riot.C44_restart_without_removed_partial' depends on axioms: [propext, Classical.choice, Quot.sound]
'Riot.C44_refuted_delete_not_awaited' depends on axioms: [propext, Classical.choice, Quot.sound]
'Riot.C44_refuted_delete_overtakes' depends on axioms: [propext, Classical.choice, Quot.sound]
'Riot.Store.C45_forEach_exact' depends on axioms: [propext, Classical.choice, Quot.sound]
'Riot.Store.C45_forEach_stops' depends on axioms: [propext, Classical.choice, Quot.sound]
'Riot.Store.C45_get_exact' depends on axioms: [propext, Quot.sound]
'Riot.Store.C45_get_missing' depends on axioms: [propext, Quot.sound]
'Riot.Store.C45_set_then_get' depends on axioms: [propext, Quot.sound]
'Riot.Store.C45_set_refused' depends on axioms: [propext, Quot.sound]
'Riot.Store.C45_has_exact_leveldb' depends on axioms: [propext, Quot.sound]
'Riot.Store.C45_has_exact_badger' depends on axioms: [propext, Quot.sound]
'Riot.Store.C45_has_bolt_partial' depends on axioms: [propext, Quot.sound]
'Riot.Store.C45_refuted_bolt_empty_value' depends on axioms: [propext, Classical.choice, Quot.sound]
'Riot.Store.C45_refuted_empty_key' depends on axioms: [propext, Quot.sound]
'Riot.Store.C45_backends_agree' depends on axioms: [propext, Quot.sound]
'Riot.Store.C45_engine_database' depends on axioms: [propext, Classical.choice, Quot.sound]
'Riot.C46_store_shard_in_range' depends on axioms: [propext, Quot.sound]
'Riot.C46_all_ids' depends on axioms: [propext, Classical.choice, Quot.sound]
'Riot.C46_has_after_flush' depends on axioms: [propext, Classical.choice, Quot.sound]
'Riot.Sort.C47_asc_sorts' depends on axioms: [propext, Classical.choice, Quot.sound]
'Riot.Sort.C47_desc_sorts' depends on axioms: [propext, Classical.choice, Quot.sound]
'Riot.Sort.C48_stableAsc_sorts' depends on axioms: [propext, Classical.choice, Quot.sound]
'Riot.Sort.C48_stableDesc_sorts' depends on axioms: [propext, Classical.choice, Quot.sound]
'Riot.Sort.C48_all_four_agree' depends on axioms: [propext, Classical.choice, Quot.sound]
'Riot.Sort.C49_isSortedAsc_exact' depends on axioms: [propext, Classical.choice, Quot.sound]
'Riot.Sort.C49_isSortedDesc_exact' depends on axioms: [propext, Classical.choice, Quot.sound]
'Riot.Net.C50_merged_answer_partial' depends on axioms: [propext, Classical.choice, Quot.sound]
'Riot.Net.C50_all_documents_when_they_fit' depends on axioms: [propext, Classical.choice, Quot.sound]
'Riot.Net.C50_single_answer_unchanged' depends on axioms: [propext]
'Riot.Net.C50_merged_answer_is_bounded' depends on axioms: [propext, Classical.choice, Quot.sound]
'Riot.Net.C50_refuted_one_document_short' depends on axioms: [propext, Classical.choice, Quot.sound]
'Riot.Net.C50_refuted_crash' depends on axioms: [propext, Quot.sound]
'Riot.Net.C50_refuted_paging' depends on axioms: [propext, Classical.choice, Quot.sound]
'Riot.C51_binary_search' depends on axioms: [propext, Classical.choice, Quot.sound]
'Riot.C51_binary_search_range' depends on axioms: [propext, Classical.choice, Quot.sound]
'Riot.C52_readd_after_remove_partial' depends on axioms: [propext, Classical.choice, Quot.sound]
'Riot.C52_refuted' depends on axioms: [propext, Classical.choice, Quot.sound]
'Riot.C53_disciplined_content' depends on axioms: [propext, Classical.choice, Quot.sound]
'Riot.C53_disciplined_no_crash' depends on axioms: [propext, Classical.choice, Quot.sound]
'Riot.C54_search_answers_calls' depends on axioms: [propext, Classical.choice, Quot.sound]
'Riot.C55_refuted_lost_update' depends on axioms: [propext, Classical.choice, Quot.sound]
'Riot.C55_overlapping_calls_atomic_partial' depends on axioms: [propext, Classical.choice, Quot.sound]
'Riot.C55_shard_linear_partial' depends on axioms: [propext, Classical.choice, Quot.sound]
'Riot.C55_refuted' depends on axioms: [propext, Classical.choice, Quot.sound]
'Riot.C56_gentle_use_is_safe' depends on axioms: [propext, Classical.choice, Quot.sound]
'Riot.C56_gentle_use_is_atomic' depends on axioms: [propext, Classical.choice, Quot.sound]
'Riot.C57_gentle_search_answers_calls' depends on axioms: [propext, Classical.choice, Quot.sound]
'Riot.Net.C58_one_request_partial' depends on axioms: [propext, Quot.sound]
'Riot.Net.C58_serial_appends_complete' depends on axioms: [propext, Classical.choice, Quot.sound]
'Riot.Net.C58_refuted_lost_answer' depends on axioms: [propext]
'Riot.Net.C58_refuted_foreign_documents' depends on axioms: [propext]
'Riot.Net.C59_server_shows_page' depends on axioms: [propext, Classical.choice, Quot.sound]
'Riot.Net.C59_refuted_no_limit_shows_nothing' depends on axioms: [propext, Classical.choice, Quot.sound]
'Riot.Net.C59_refuted_foreign_attribute' depends on axioms: [propext, Quot.sound]
'Riot.Net.C60_refuted_grpc_delete_exits' depends on axioms: [propext]
'Riot.Net.C60_grpc_index_and_search_served' depends on axioms: [propext]
'Riot.HasDoc.C61_hasDoc_answer' depends on axioms: [propext, Quot.sound]
'Riot.HasDoc.C61_quiet_hasDoc_reads_only_partial' depends on axioms: [propext, Classical.choice, Quot.sound]
'Riot.HasDoc.C61_fresh_engine_partial' depends on axioms: [propext, Classical.choice, Quot.sound]
'Riot.HasDoc.C61_refuted_hasDoc_blocks_shard' depends on axioms: [propext, Classical.choice, Quot.sound]
'Riot.C62_search_during_calls_partial' depends on axioms: [propext, Classical.choice, Quot.sound]
'Riot.C62_untouched_document_partial' depends on axioms: [propext, Classical.choice, Quot.sound]
'Riot.C62_search_sees_one_state' depends on axioms: [propext, Classical.choice, Quot.sound]
'Riot.C62_refuted' depends on axioms: [propext, Classical.choice, Quot.sound]
'Riot.C63_no_phantoms_partial' depends on axioms: [propext, Classical.choice, Quot.sound]
'Riot.C63_one_version_partial' depends on axioms: [propext, Classical.choice, Quot.sound]
'Riot.C63_refuted' depends on axioms: [propext, Classical.choice, Quot.sound]
'Riot.C64_rank_during_updates' depends on axioms: [propext, Classical.choice, Quot.sound]
'Riot.C64_untouched_candidates' depends on axioms: [propext, Classical.choice, Quot.sound]
'Riot.C64_not_a_snapshot' depends on axioms: [propext, Quot.sound]
'Riot.C65_options' depends on axioms: [propext, Classical.choice, Quot.sound]
'Riot.C65_no_dictionary' depends on axioms: [propext, Classical.choice, Quot.sound]
'Riot.C65_init_idempotent' depends on axioms: [propext, Classical.choice, Quot.sound]
'Riot.C65_negative_options' depends on axioms: [propext, Classical.choice, Quot.sound]
'Riot.C66_default_score_partial' depends on axioms: [propext, Classical.choice, Quot.sound]
'Riot.C66_refuted_new_engine' depends on axioms: [propext, Classical.choice, Quot.sound]
'Riot.C66_refuted_logic' depends on axioms: [propext, Classical.choice, Quot.sound]
'Riot.C67_postings_exact' depends on axioms: [propext, Classical.choice, Quot.sound]
'Riot.C68_stop_file_partial' depends on axioms: [propext, Classical.choice, Quot.sound]
'Riot.C68_stop_words_not_keys_partial' depends on axioms: [propext, Classical.choice, Quot.sound]
'Riot.C68_refuted_long_line' depends on axioms: [propext, Classical.choice, Quot.sound]
'Riot.C69_all_docs' depends on axioms: [propext, Classical.choice, Quot.sound]
'Riot.C70_exist_exact' depends on axioms: [propext, Classical.choice, Quot.sound]
'Riot.C70_count_partial' depends on axioms: [propext, Classical.choice, Quot.sound]
'Riot.C70_refuted_count' depends on axioms: [propext, Classical.choice, Quot.sound]
'Riot.C71_used_partial' depends on axioms: [propext, Quot.sound]
'Riot.C71_refuted_underflow' depends on axioms: [propext, Quot.sound]
'Riot.C71_units' depends on axioms: [propext]
'Riot.C72_heartbeat_partial' depends on axioms: [propext, Classical.choice, Quot.sound]
'Riot.C72_refuted_isolated_failures' depends on axioms: [propext, Classical.choice, Quot.sound]
'Riot.C73_no_timeout' depends on axioms: [propext, Classical.choice, Quot.sound]
'Riot.C73_search_during_everything' depends on axioms: [propext, Classical.choice, Quot.sound]
'Riot.C73_orderless_during_everything' depends on axioms: [propext, Classical.choice, Quot.sound]
'Riot.C73_count_during_everything' depends on axioms: [propext, Classical.choice, Quot.sound]
'Riot.C73_entries_show_versions' depends on axioms: [propext, Classical.choice, Quot.sound]
'Riot.C74_refuted' depends on axioms: [propext, Classical.choice, Quot.sound]
'Riot.C74_untouched_document_partial' depends on axioms: [propext, Classical.choice, Quot.sound]
'Riot.C74_untouched_document_found_partial' depends on axioms: [propext, Classical.choice, Quot.sound]
'Riot.C75_work_terminates' depends on axioms: [propext, Classical.choice, Quot.sound]
'Riot.C75_search_returns_partial' depends on axioms: [propext, Classical.choice, Quot.sound]
'Riot.C75_deadlock_blocks_searches' depends on axioms: [propext, Classical.choice, Quot.sound]
'Riot.C75_refuted' depends on axioms: [propext, Classical.choice, Quot.sound]
'Riot.C76_gentle_engine_answers' depends on axioms: [propext, Classical.choice, Quot.sound]
'Riot.C76_quiet_search_exact' depends on axioms: [propext, Classical.choice, Quot.sound]
'Riot.C77_undisturbed_flush_partial' depends on axioms: [propext, Classical.choice, Quot.sound]
'Riot.C77_concurrent_flushes_partial' depends on axioms: [propext, Classical.choice, Quot.sound]
'Riot.C77_as_much_as_asked_partial' depends on axioms: [propext, Classical.choice, Quot.sound]
'Riot.C77_refuted_two_flushes' depends on axioms: [propext, Classical.choice, Quot.sound]
'Riot.C77_refuted_overlapping_index' depends on axioms: [propext, Classical.choice, Quot.sound]
'Riot.C77_refuted_overlapping_remove' depends on axioms: [propext, Classical.choice, Quot.sound]
'Riot.C78_exact_totals_partial' depends on axioms: [propext, Classical.choice, Quot.sound]
'Riot.C78_same_documents_partial' depends on axioms: [propext, Classical.choice, Quot.sound]
'Riot.C78_rounding' depends on axioms: [propext, Classical.choice, Quot.sound]
'Riot.C78_refuted' depends on axioms: [propext, Classical.choice, Quot.sound]
'Riot.C78_absorption' depends on axioms: [propext, Classical.choice, Quot.sound]
'Riot.C79_close_partial' depends on axioms: [propext, Classical.choice, Quot.sound]
'Riot.C79_order_partial' depends on axioms: [propext, Classical.choice, Quot.sound]
'Riot.Net.C80_server_document_found_partial' depends on axioms: [propext, Classical.choice, Quot.sound]
'Riot.Net.C80_refuted_labels_ignored' depends on axioms: [propext, Classical.choice, Quot.sound]
'Riot.Net.C80_refuted_client_drops_ids' depends on axioms: [propext, Classical.choice, Quot.sound]
'Riot.Net.C80_client_document' depends on axioms: [propext, Quot.sound]
'Riot.Net.C81_refuted_plain_search_crashes' depends on axioms: [propext]
'Riot.Net.C81_etcd_plain_search' depends on axioms: [propext]
'Riot.Net.C81_client_search_partial' depends on axioms: [propext, Quot.sound]
'Riot.Net.C81_refuted_large_limit' depends on axioms: [propext, Quot.sound]
'Riot.Net.C81_refuted_empty_restriction' depends on axioms: [propext, Classical.choice, Quot.sound]
'Riot.C81_grpc_client_shows_page_partial' depends on axioms: [propext, Classical.choice, Quot.sound]
'Riot.Net.C82_refuted_nothing_stored' depends on axioms: [propext, Classical.choice, Quot.sound]
'Riot.Net.C82_refuted_restart_empty' depends on axioms: [propext, Classical.choice, Quot.sound]
'Riot.Net.C82_registered_recovers_partial' depends on axioms: [propext, Classical.choice, Quot.sound]
'Riot.C83_more_shards_recovers_partial' depends on axioms: [propext, Classical.choice, Quot.sound]
'Riot.C83_refuted_fewer_shards' depends on axioms: [propext, Classical.choice, Quot.sound]
'Riot.C83_refuted_removed_comes_back' depends on axioms: [propext, Classical.choice, Quot.sound]
'Riot.C83_refuted_removed_found_again' depends on axioms: [propext, Classical.choice, Quot.sound]
'Riot.C84_text_search_exact' depends on axioms: [propext, Classical.choice, Quot.sound]
'Riot.C84_keys_are_words' depends on axioms: [propext, Classical.choice, Quot.sound]
'Riot.C84_word_search' depends on axioms: [propext, Classical.choice, Quot.sound]
'Riot.C85_store_backend' depends on axioms: [propext, Classical.choice, Quot.sound]
'Riot.C85_files_distinct' depends on axioms: [propext, Quot.sound]
'Riot.C85_file_names' depends on axioms: [propext, Classical.choice, Quot.sound]
'Riot.C85_environment_changes_library' depends on axioms: [propext, Classical.choice, Quot.sound]
'Riot.C86_no_store_partial' depends on axioms: [propext, Classical.choice, Quot.sound]
'Riot.C86_refuted_memory' depends on axioms: [propext, Classical.choice, Quot.sound]
'Riot.Net.C87_server_settings_partial' depends on axioms: [propext, Classical.choice, Quot.sound]
'Riot.Net.C87_refuted_gse_mode' depends on axioms: [propext]
'Riot.Net.C87_refuted_order' depends on axioms: [propext, Classical.choice, Quot.sound]
'Riot.C88_between_flushes' depends on axioms: [propext, Classical.choice, Quot.sound]
'Riot.C89_refuted_never_found' depends on axioms: [propext, Classical.choice, Quot.sound]
'Riot.C89_refuted_http_shows_nothing' depends on axioms: [propext, Classical.choice, Quot.sound]
'Riot.C89_flushed_server_shows_page_partial' depends on axioms: [propext, Classical.choice, Quot.sound]
'Riot.C90_only_given_documents' depends on axioms: [propext, Classical.choice, Quot.sound]
'Riot.C90_last_version_kept_partial' depends on axioms: [propext, Classical.choice, Quot.sound]
'Riot.C90_hasDocDB_partial' depends on axioms: [propext, Classical.choice, Quot.sound]
'Riot.C90_restart_finds_partial' depends on axioms: [propext, Classical.choice, Quot.sound]
'Riot.C90_refuted_refused_ids' depends on axioms: [propext, Classical.choice, Quot.sound]
'Riot.C90_refuted_empty_id' depends on axioms: [propext, Classical.choice, Quot.sound]
'Riot.C91_only_given_documents' depends on axioms: [propext, Classical.choice, Quot.sound]
'Riot.C91_earlier_moment_partial' depends on axioms: [propext, Quot.sound]
'Riot.C91_synced_keeps_partial' depends on axioms: [propext, Classical.choice, Quot.sound]
'Riot.C91_refuted_default_store' depends on axioms: [propext, Quot.sound]
'Riot.C91_refuted_order' depends on axioms: [propext, Classical.choice, Quot.sound]
'Riot.C92_close_keeps_partial' depends on axioms: [propext, Classical.choice, Quot.sound]
'Riot.C92_refuted_after_close' depends on axioms: [propext, Classical.choice, Quot.sound]
'Riot.C92_refuted_found_but_lost' depends on axioms: [propext, Classical.choice, Quot.sound]
'Riot.C93_keys_added' depends on axioms: [propext, Classical.choice, Quot.sound]
'Riot.C93_search_by_pinyin' depends on axioms: [propext, Classical.choice, Quot.sound]
'Riot.C93_refuted_frequency' depends on axioms: [propext, Classical.choice, Quot.sound]
'Riot.C93_refuted_inner_pinyin' depends on axioms: [propext, Classical.choice, Quot.sound]
'Riot.C94_distributed_search_exact_partial' depends on axioms: [propext, Classical.choice, Quot.sound]
'Riot.C95_statistics_partial' depends on axioms: [propext, Classical.choice, Quot.sound]
'Riot.C95_one_shard' depends on axioms: [propext, Quot.sound]
'Riot.C95_refuted_shards' depends on axioms: [propext, Classical.choice, Quot.sound]
'Riot.C96_logic_search_partial' depends on axioms: [propext, Classical.choice, Quot.sound]
'Riot.C96_orderless_search_partial' depends on axioms: [propext, Classical.choice, Quot.sound]
'Riot.C96_count_search_partial' depends on axioms: [propext, Classical.choice, Quot.sound]
'Riot.C96_refuted' depends on axioms: [propext, Classical.choice, Quot.sound]
'Riot.C97_page_partial' depends on axioms: [propext, Classical.choice, Quot.sound]
'Riot.C97_crash_iff' depends on axioms: [propext, Classical.choice, Quot.sound]
'Riot.C97_timeout_partial' depends on axioms: [propext, Classical.choice, Quot.sound]
'Riot.C97_refuted_long_timeout' depends on axioms: [propext, Quot.sound]
'Riot.C97_refuted_large_limit' depends on axioms: [propext, Classical.choice, Quot.sound]
'Riot.C98_index_partial' depends on axioms: [propext, Classical.choice, Quot.sound]
'Riot.C98_refuted_between' depends on axioms: [propext, Classical.choice, Quot.sound]
'Riot.C98_search_partial' depends on axioms: [propext, Classical.choice, Quot.sound]
'Riot.C98_engines_partial' depends on axioms: [propext, Classical.choice, Quot.sound]
'Riot.C99_nothing_left_partial' depends on axioms: [propext, Classical.choice, Quot.sound]
'Riot.C99_all_removed_partial' depends on axioms: [propext, Classical.choice, Quot.sound]
'Riot.C99_refuted_between' depends on axioms: [propext, Classical.choice, Quot.sound]
'Riot.C100_scores' depends on axioms: [propext, Classical.choice, Quot.sound]
'Riot.C100_pages_partial' depends on axioms: [propext, Classical.choice, Quot.sound]
'Riot.C100_refuted_ties' depends on axioms: [propext, Classical.choice, Quot.sound]
'Riot.C101_sets' depends on axioms: [propext, Classical.choice, Quot.sound]
'Riot.C101_and' depends on axioms: [propext, Classical.choice, Quot.sound]
'Riot.C101_narrows' depends on axioms: [propext, Classical.choice, Quot.sound]
'Riot.C101_restrict' depends on axioms: [propext, Classical.choice, Quot.sound]
'Riot.C101_logic_partial' depends on axioms: [propext, Classical.choice, Quot.sound]
'Riot.C101_refuted_pending' depends on axioms: [propext, Classical.choice, Quot.sound]
'Riot.C102_own_words_partial' depends on axioms: [propext, Classical.choice, Quot.sound]
'Riot.C102_engine_partial' depends on axioms: [propext, Classical.choice, Quot.sound]
'Riot.C102_refuted' depends on axioms: [propext, Classical.choice, Quot.sound]
'Riot.C103_flush_again' depends on axioms: [propext, Classical.choice, Quot.sound]
'Riot.C103_remove_absent' depends on axioms: [propext, Classical.choice, Quot.sound]
'Riot.C103_add_twice' depends on axioms: [propext, Classical.choice, Quot.sound]
'Riot.C103_remove_twice' depends on axioms: [propext, Classical.choice, Quot.sound]
'Riot.C103_undo' depends on axioms: [propext, Classical.choice, Quot.sound]
'Riot.C104_search' depends on axioms: [propext, Classical.choice, Quot.sound]
'Riot.C104_orderless' depends on axioms: [propext, Classical.choice, Quot.sound]
'Riot.C104_engines' depends on axioms: [propext, Classical.choice, Quot.sound]
'Riot.C105_plain' depends on axioms: [propext, Classical.choice, Quot.sound]
'Riot.C105_logic' depends on axioms: [propext, Classical.choice, Quot.sound]
'Riot.C105_whole' depends on axioms: [propext, Classical.choice, Quot.sound]
'Riot.C105_whole_logic' depends on axioms: [propext, Classical.choice, Quot.sound]
'Riot.C106_line' depends on axioms: [propext, Classical.choice, Quot.sound]
'Riot.C106_skips' depends on axioms: [propext]
'Riot.C106_load' depends on axioms: [propext, Quot.sound]
'Riot.C106_page' depends on axioms: [propext, Classical.choice, Quot.sound]
'Riot.C107_line' depends on axioms: [propext]
'Riot.C107_page_partial' depends on axioms: [propext, Classical.choice, Quot.sound]
'Riot.C107_refuted_first' depends on axioms: [propext, Classical.choice, Quot.sound]
'Riot.C108_docs_partial' depends on axioms: [propext, Quot.sound]
'Riot.C108_own_tokens_partial' depends on axioms: [propext, Classical.choice, Quot.sound]
'Riot.C108_page_partial' depends on axioms: [propext, Classical.choice, Quot.sound]
'Riot.C108_refuted' depends on axioms: [propext, Classical.choice, Quot.sound]
'Riot.C109_only_the_collection' depends on axioms: [propext, Classical.choice, Quot.sound]
'Riot.Wire.C110_HeartReq' depends on axioms: [propext, Classical.choice, Quot.sound]
'Riot.Wire.C110_Reply' depends on axioms: [propext, Classical.choice, Quot.sound]
'Riot.Wire.C110_DeleteReq' depends on axioms: [propext, Classical.choice, Quot.sound]
'Riot.Wire.C110_TokenData' depends on axioms: [propext, Classical.choice, Quot.sound]
'Riot.Wire.C110_DocReq' depends on axioms: [propext, Classical.choice, Quot.sound]
'Riot.Wire.C110_Expr' depends on axioms: [propext, Classical.choice, Quot.sound]
'Riot.Wire.C110_Logic' depends on axioms: [propext, Classical.choice, Quot.sound]
'Riot.Wire.C110_SearchReq' depends on axioms: [propext, Classical.choice, Quot.sound]
'Riot.Wire.C110_Attri' depends on axioms: [propext, Classical.choice, Quot.sound]
'Riot.Wire.C110_Text' depends on axioms: [propext, Classical.choice, Quot.sound]
'Riot.Wire.C110_SearchReply' depends on axioms: [propext, Classical.choice, Quot.sound]
'Riot.Wire.C111_HeartReq' depends on axioms: [propext, Classical.choice, Quot.sound]
'Riot.Wire.C111_Reply' depends on axioms: [propext, Classical.choice, Quot.sound]
'Riot.Wire.C111_DeleteReq' depends on axioms: [propext, Classical.choice, Quot.sound]
'Riot.Wire.C111_TokenData' depends on axioms: [propext, Classical.choice, Quot.sound]
'Riot.Wire.C111_DocReq' depends on axioms: [propext, Classical.choice, Quot.sound]
'Riot.Wire.C111_Expr' depends on axioms: [propext, Classical.choice, Quot.sound]
'Riot.Wire.C111_Logic' depends on axioms: [propext, Classical.choice, Quot.sound]
'Riot.Wire.C111_Attri' depends on axioms: [propext, Classical.choice, Quot.sound]
'Riot.Wire.C111_Text' depends on axioms: [propext, Classical.choice, Quot.sound]
'Riot.Wire.C111_SearchReply' depends on axioms: [propext, Classical.choice, Quot.sound]
'Riot.Wire.C111_SearchReq' depends on axioms: [propext, Classical.choice, Quot.sound]
'Riot.Wire.C112_HeartReq_partial' depends on axioms: [propext, Classical.choice, Quot.sound]
'Riot.Wire.C112_Reply_partial' depends on axioms: [propext, Classical.choice, Quot.sound]
'Riot.Wire.C112_DeleteReq_partial' depends on axioms: [propext, Classical.choice, Quot.sound]
'Riot.Wire.C112_TokenData_partial' depends on axioms: [propext, Classical.choice, Quot.sound]
'Riot.Wire.C112_DocReq_partial' depends on axioms: [propext, Classical.choice, Quot.sound]
'Riot.Wire.C112_Expr_partial' depends on axioms: [propext, Classical.choice, Quot.sound]
'Riot.Wire.C112_Logic_partial' depends on axioms: [propext, Classical.choice, Quot.sound]
'Riot.Wire.C112_SearchReq_partial' depends on axioms: [propext, Classical.choice, Quot.sound]
'Riot.Wire.C112_Attri_partial' depends on axioms: [propext, Classical.choice, Quot.sound]
'Riot.Wire.C112_Text_partial' depends on axioms: [propext, Classical.choice, Quot.sound]
'Riot.Wire.C112_SearchReply_partial' depends on axioms: [propext, Classical.choice, Quot.sound]
'Riot.Wire.C112_bytes_partial' depends on axioms: [propext, Classical.choice, Quot.sound]
'Riot.Wire.C112_refuted' depends on axioms: [propext, Quot.sound]
'Riot.Wire.C112_refuted_string' depends on axioms: [propext, Quot.sound]
'Riot.Wire.C113_HeartReq' depends on axioms: [propext, Classical.choice, Quot.sound]
'Riot.Wire.C113_Reply' depends on axioms: [propext, Classical.choice, Quot.sound]
'Riot.Wire.C113_DeleteReq' depends on axioms: [propext, Classical.choice, Quot.sound]
'Riot.Wire.C113_TokenData' depends on axioms: [propext, Classical.choice, Quot.sound]
'Riot.Wire.C113_DocReq' depends on axioms: [propext, Classical.choice, Quot.sound]
'Riot.Wire.C113_Expr' depends on axioms: [propext, Classical.choice, Quot.sound]
'Riot.Wire.C113_Logic' depends on axioms: [propext, Classical.choice, Quot.sound]
'Riot.Wire.C113_SearchReq' depends on axioms: [propext, Classical.choice, Quot.sound]
'Riot.Wire.C113_Attri' depends on axioms: [propext, Classical.choice, Quot.sound]
'Riot.Wire.C113_Text' depends on axioms: [propext, Classical.choice, Quot.sound]
'Riot.Wire.C113_SearchReply' depends on axioms: [propext, Classical.choice, Quot.sound]
'Riot.Wire.C114_heart_beat' depends on axioms: [propext, Classical.choice, Quot.sound]
'Riot.Wire.C114_delete' depends on axioms: [propext, Classical.choice, Quot.sound]
'Riot.Wire.C114_document' depends on axioms: [propext, Classical.choice, Quot.sound]
'Riot.Wire.C114_client_document' depends on axioms: [propext, Classical.choice, Quot.sound]
'Riot.Wire.C114_search' depends on axioms: [propext, Classical.choice, Quot.sound]
'Riot.Wire.C115_HeartReq' depends on axioms: [propext, Classical.choice, Quot.sound]
'Riot.Wire.C115_Reply' depends on axioms: [propext, Classical.choice, Quot.sound]
'Riot.Wire.C115_DeleteReq' depends on axioms: [propext, Classical.choice, Quot.sound]
'Riot.Wire.C115_TokenData' depends on axioms: [propext, Classical.choice, Quot.sound]
'Riot.Wire.C115_DocReq' depends on axioms: [propext, Classical.choice, Quot.sound]
'Riot.Wire.C115_Expr' depends on axioms: [propext, Classical.choice, Quot.sound]
'Riot.Wire.C115_Logic' depends on axioms: [propext, Classical.choice, Quot.sound]
'Riot.Wire.C115_SearchReq' depends on axioms: [propext, Classical.choice, Quot.sound]
'Riot.Wire.C115_Attri' depends on axioms: [propext, Classical.choice, Quot.sound]
'Riot.Wire.C115_Text' depends on axioms: [propext, Classical.choice, Quot.sound]
'Riot.Wire.C115_SearchReply' depends on axioms: [propext, Classical.choice, Quot.sound]
'Riot.Net.C116_form_is_search' depends on axioms: [propext, Quot.sound]
'Riot.Net.C116_no_limit' depends on axioms: [propext]
'Riot.Net.C116_no_offset' depends on axioms: [propext, Quot.sound]
'Riot.Net.C116_distributed' depends on axioms: [propext, Classical.choice, Quot.sound]
'Riot.Net.C117_refuted_negative' depends on axioms: [propext, Quot.sound]
'Riot.Net.C117_refuted_form' depends on axioms: [propext, Classical.choice, Quot.sound]
'Riot.Net.C117_shard_crash_iff' depends on axioms: [propext, Classical.choice, Quot.sound]
'Riot.Net.C117_answered_partial' depends on axioms: [propext, Classical.choice, Quot.sound]
'Riot.Json.C118_body_reads_back' depends on axioms: [propext, Classical.choice, Quot.sound]
'Riot.Json.C118_reads_mended_partial' depends on axioms: [propext, Classical.choice, Quot.sound]
'Riot.Json.C118_refuted_not_utf8' depends on axioms: [propext, Classical.choice, Quot.sound]
'Riot.Json.C118_refuted_nan' depends on axioms: [propext, Classical.choice, Quot.sound]
'Riot.Json.C118_body_iff_finite' depends on axioms: [propext, Classical.choice, Quot.sound]
'Riot.Json.C118_client_sees' depends on axioms: [propext, Classical.choice, Quot.sound]
'Riot.Json.C118_distributed' depends on axioms: [propext, Classical.choice, Quot.sound]
'Riot.Json.C118_refuted_nan_distributed' depends on axioms: [propext, Classical.choice, Quot.sound]
'Riot.Json.C118_any_bodies' depends on axioms: [propext, Classical.choice, Quot.sound]
'Riot.Json.C118_single_body' depends on axioms: [propext, Quot.sound]
'Riot.Json.C118_search_body' depends on axioms: [propext, Classical.choice, Quot.sound]
'Riot.Json.C118_no_markup' depends on axioms: [propext, Classical.choice, Quot.sound]
'Riot.Json.C118_refuted_concrete' depends on axioms: [propext, Classical.choice, Quot.sound]
'Riot.Json.C119_http_client' depends on axioms: [propext, Classical.choice, Quot.sound]
'Riot.C120_flush_returns_partial' depends on axioms: [propext, Classical.choice, Quot.sound]
'Riot.C120_pause_suffices_partial' depends on axioms: [propext, Classical.choice, Quot.sound]
'Riot.C120_refuted' depends on axioms: [propext, Classical.choice, Quot.sound]
'Riot.C121_calls_partial' depends on axioms: [propext, Classical.choice, Quot.sound]
'Riot.C121_runs_through_partial' depends on axioms: [propext, Classical.choice, Quot.sound]
'Riot.C121_refuted_hasDocDB' depends on axioms: [propext, Classical.choice, Quot.sound]
'Riot.C121_refuted_shards' depends on axioms: [propext, Classical.choice, Quot.sound]
'Riot.C122_count' depends on axioms: [propext, Classical.choice, Quot.sound]
'Riot.C122_orderless' depends on axioms: [propext, Classical.choice, Quot.sound]
'Riot.C122_count_is_numDocs' depends on axioms: [propext, Classical.choice, Quot.sound]
'Riot.C123_stored' depends on axioms: [propext, Classical.choice, Quot.sound]
'Riot.C123_recovered' depends on axioms: [propext, Classical.choice, Quot.sound]
'Riot.C123_survives' depends on axioms: [propext, Classical.choice, Quot.sound]
'Riot.C123_same_answer' depends on axioms: [propext, Classical.choice, Quot.sound]
'Riot.C124_response' depends on axioms: [propext, Classical.choice, Quot.sound]
'Riot.C124_simple' depends on axioms: [propext, Classical.choice, Quot.sound]
'Riot.C124_logic' depends on axioms: [propext, Classical.choice, Quot.sound]
'Riot.Json.C125_reads_exactly' depends on axioms: [propext, Classical.choice, Quot.sound]
'Riot.Json.C125_one_value' depends on axioms: [propext, Classical.choice, Quot.sound]
'Riot.Json.C125_utf8' depends on axioms: [propext, Classical.choice, Quot.sound]
'Riot.Json.C125_not_json' depends on axioms: [propext, Classical.choice, Quot.sound]
'Riot.Json.C125_any_writing' depends on axioms: [propext, Classical.choice, Quot.sound]
'Riot.Json.C125_reads_any_body' depends on axioms: [propext, Classical.choice, Quot.sound]
'Riot.Json.C125_body_is_json' depends on axioms: [propext, Classical.choice, Quot.sound]
'Riot.Json.C125_distributed_any_writing' depends on axioms: [propext, Classical.choice, Quot.sound]
'Riot.C126_calls' depends on axioms: [propext, Classical.choice, Quot.sound]
'Riot.C126_file' depends on axioms: [propext, Quot.sound]
'Riot.C126_search' depends on axioms: [propext, Classical.choice, Quot.sound]
'Riot.C126_refuted_idonly' depends on axioms: [propext, Classical.choice, Quot.sound]
'Riot.C126_record' depends on axioms: [propext, Classical.choice, Quot.sound]
'Riot.C126_printed_partial' depends on axioms: [propext, Classical.choice, Quot.sound]
'Riot.C126_refuted_beyond_100' depends on axioms: [propext, Classical.choice, Quot.sound]
'Riot.C127_undisturbed' depends on axioms: [propext, Classical.choice, Quot.sound]
'Riot.C127_store_partial' depends on axioms: [propext, Classical.choice, Quot.sound]
'Riot.C127_refuted_store' depends on axioms: [propext, Classical.choice, Quot.sound]
'Riot.C128_whole_response' depends on axioms: [propext, Classical.choice, Quot.sound]
'Riot.C128_pinyin' depends on axioms: [propext, Classical.choice, Quot.sound]
'Riot.C129_found_partial' depends on axioms: [propext, Classical.choice, Quot.sound]
'Riot.C129_same_data_partial' depends on axioms: [propext, Classical.choice, Quot.sound]
'Riot.C129_refuted_last_version' depends on axioms: [propext, Classical.choice, Quot.sound]
'Riot.C130_updated_partial' depends on axioms: [propext, Classical.choice, Quot.sound]
'Riot.C130_repaired_partial' depends on axioms: [propext, Classical.choice, Quot.sound]
'Riot.C131_removed_partial' depends on axioms: [propext, Classical.choice, Quot.sound]
