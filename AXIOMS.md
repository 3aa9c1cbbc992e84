# Axioms of every theorem named in MANIFEST.json

Output of `#print axioms`, one line per theorem. No theorem depends on any other axiom.

* `Hyperreal.Props.bstm_exact_topK` depends on axioms: [propext, Classical.choice, Quot.sound]
* `Hyperreal.Props.topK_unique` depends on axioms: [propext, Classical.choice, Quot.sound]
* `Hyperreal.Props.compute_bitslice_counts` depends on axioms: [propext, Classical.choice, Quot.sound]
* `Hyperreal.Props.weight_bitslice_exact` depends on axioms: [propext, Classical.choice, Quot.sound]
* `Hyperreal.Props.weight_compute_roundtrip` depends on axioms: [propext, Classical.choice, Quot.sound]
* `Hyperreal.Props.cluster_query_agrees` depends on axioms: [propext, Classical.choice, Quot.sound]
* `Hyperreal.Props.expand_window_partial` depends on axioms: [propext, Classical.choice, Quot.sound]
* `Hyperreal.Props.expand_window_exact` depends on axioms: [propext, Classical.choice, Quot.sound]
* `Hyperreal.Props.expand_window_leaks` depends on axioms: [propext, Classical.choice, Quot.sound]
* `Hyperreal.Props.expand_window_zero` depends on axioms: [propext, Classical.choice, Quot.sound]
* `Hyperreal.Props.index_lookup` depends on axioms: [propext, Classical.choice, Quot.sound]
* `Hyperreal.Props.index_succeeds` depends on axioms: [propext, Classical.choice, Quot.sound]
* `Hyperreal.Props.index_counts` depends on axioms: [propext, Classical.choice, Quot.sound]
* `Hyperreal.Props.index_keeps_features` depends on axioms: [propext, Classical.choice, Quot.sound]
* `Hyperreal.Props.index_keys` depends on axioms: [propext, Classical.choice, Quot.sound]
* `Hyperreal.Props.index_positions` depends on axioms: [propext, Classical.choice, Quot.sound]
* `Hyperreal.Props.index_batches` depends on axioms: [propext, Classical.choice, Quot.sound]
* `Hyperreal.Props.index_failure_partial` depends on axioms: [propext, Classical.choice, Quot.sound]
* `Hyperreal.Props.index_corpus_failure` depends on axioms: [propext, Classical.choice, Quot.sound]
* `Hyperreal.Props.index_late_failure` depends on axioms: [propext, Classical.choice, Quot.sound]
* `Hyperreal.Props.index_interrupt` depends on axioms: [propext, Classical.choice, Quot.sound]
* `Hyperreal.Props.index_nested` depends on axioms: [propext, Classical.choice, Quot.sound]
* `Hyperreal.Props.index_empty` depends on axioms: [propext, Classical.choice, Quot.sound]
* `Hyperreal.Props.index_readers` depends on axioms: [propext, Classical.choice, Quot.sound]
* `Hyperreal.Props.pending_repaired` depends on axioms: [propext, Classical.choice, Quot.sound]
* `Hyperreal.Props.index_retry_partial` depends on axioms: [propext, Classical.choice, Quot.sound]
* `Hyperreal.Props.index_retry_blocked` depends on axioms: [propext, Classical.choice, Quot.sound]
* `Hyperreal.Props.model_always_settled` depends on axioms: [propext, Classical.choice, Quot.sound]
* `Hyperreal.Props.one_cluster_always` depends on axioms: [propext, Classical.choice, Quot.sound]
* `Hyperreal.Props.atomic_call_partial` depends on axioms: [propext, Quot.sound]
* `Hyperreal.Props.atomic_nested` depends on axioms: [propext, Quot.sound]
* `Hyperreal.Props.atomic_history_partial` depends on axioms: [propext, Quot.sound]
* `Hyperreal.Props.atomic_housekeeping_failure` depends on axioms: [propext, Quot.sound]
* `Hyperreal.Props.atomic_never_durable_again` depends on axioms: [propext, Quot.sound]
* `Hyperreal.Props.atomic_interrupt_commits` depends on axioms: [propext, Quot.sound]
* `Hyperreal.Props.initialise_deals_evenly` depends on axioms: [propext, Classical.choice, Quot.sound]
* `Hyperreal.Props.initialise_duplicate_field` depends on axioms: [propext, Classical.choice, Quot.sound]
* `Hyperreal.Props.delete_clusters_spec` depends on axioms: [propext, Classical.choice, Quot.sound]
* `Hyperreal.Props.delete_features_spec` depends on axioms: [propext, Classical.choice, Quot.sound]
* `Hyperreal.Props.merge_clusters_spec` depends on axioms: [propext, Classical.choice, Quot.sound]
* `Hyperreal.Props.merge_clusters_empty` depends on axioms: [propext, Classical.choice, Quot.sound]
* `Hyperreal.Props.create_cluster_spec` depends on axioms: [propext, Classical.choice, Quot.sound]
* `Hyperreal.Props.create_cluster_unknown` depends on axioms: [propext, Classical.choice, Quot.sound]
* `Hyperreal.Props.next_cluster_id_fresh` depends on axioms: [propext, Quot.sound]
* `Hyperreal.Props.pin_features_spec` depends on axioms: [propext, Classical.choice, Quot.sound]
* `Hyperreal.Props.pin_clusters_spec` depends on axioms: [propext, Classical.choice, Quot.sound]
* `Hyperreal.Props.refine_keeps_pins` depends on axioms: [propext, Classical.choice, Quot.sound]
* `Hyperreal.Props.refine_permutes` depends on axioms: [propext, Classical.choice, Quot.sound]
* `Hyperreal.Props.refine_keeps_pinned` depends on axioms: [propext, Classical.choice, Quot.sound]
* `Hyperreal.Props.refine_restricted` depends on axioms: [propext, Classical.choice, Quot.sound]
* `Hyperreal.Props.refine_keeps_minimum` depends on axioms: [propext, Classical.choice, Quot.sound]
* `Hyperreal.Props.no_target_no_new` depends on axioms: [propext, Classical.choice, Quot.sound]
* `Hyperreal.Props.small_cluster_can_vanish` depends on axioms: [propext, Classical.choice, Quot.sound]
* `Hyperreal.Props.refine_reaches_target` depends on axioms: [propext, Classical.choice, Quot.sound]
* `Hyperreal.Props.refine_never_inconsistent` depends on axioms: [propext, Classical.choice, Quot.sound]
* `Hyperreal.Props.target_of_pinned_is_ignored` depends on axioms: [propext, Classical.choice, Quot.sound]
* `Hyperreal.Props.split_saved_partial` depends on axioms: [propext, Classical.choice, Quot.sound]
* `Hyperreal.Props.split_lost` depends on axioms: [propext, Classical.choice, Quot.sound]
* `Hyperreal.Props.split_result_lost` depends on axioms: [propext, Classical.choice, Quot.sound]
* `Hyperreal.Props.refine_returns_iff_partial` depends on axioms: [propext, Classical.choice, Quot.sound]
* `Hyperreal.Props.refine_untested_partial` depends on axioms: [propext, Classical.choice, Quot.sound]
* `Hyperreal.Props.refine_all_pinned_fails` depends on axioms: [propext, Classical.choice, Quot.sound]
* `Hyperreal.Props.refine_target_below_pinned_fails` depends on axioms: [propext, Classical.choice, Quot.sound]
* `Hyperreal.Props.refine_untested_cluster_fails` depends on axioms: [propext, Classical.choice, Quot.sound]
* `Hyperreal.Props.refine_top_k_zero_fails` depends on axioms: [propext, Classical.choice, Quot.sound]
* `Hyperreal.Props.contributions_exact` depends on axioms: [propext, Classical.choice, Quot.sound]
* `Hyperreal.Props.contributions_empty` depends on axioms: [propext, Classical.choice, Quot.sound]
* `Hyperreal.Props.objective_nonneg` depends on axioms: [propext, Classical.choice, Quot.sound]
* `Hyperreal.Props.proposed_moves_are_best` depends on axioms: [propext, Classical.choice, Quot.sound]
* `Hyperreal.Props.every_movable_feature_gets_its_best_move` depends on axioms: [propext, Classical.choice, Quot.sound]
* `Hyperreal.Props.pivot_cluster_ranked` depends on axioms: [propext, Classical.choice, Quot.sound]
* `Hyperreal.Props.pivot_clusters_spec` depends on axioms: [propext, Classical.choice, Quot.sound]
* `Hyperreal.Props.pivot_top_zero_fails` depends on axioms: [propext, Classical.choice, Quot.sound]
* `Hyperreal.Props.pivot_unknown_cluster` depends on axioms: [propext, Classical.choice, Quot.sound]
* `Hyperreal.Props.cluster_graph_spec` depends on axioms: [propext, Classical.choice, Quot.sound]
* `Hyperreal.Props.graph_labels_refused` depends on axioms: [propext, Classical.choice, Quot.sound]
* `Hyperreal.Props.graph_label_fails` depends on axioms: [propext, Classical.choice, Quot.sound]
* `Hyperreal.Props.sample_bitmap_exact` depends on axioms: [propext, Classical.choice, Quot.sound]
* `Hyperreal.Props.sample_bitmap_negative` depends on axioms: [propext, Classical.choice, Quot.sound]
* `Hyperreal.Props.structured_sample` depends on axioms: [propext, Classical.choice, Quot.sound]
* `Hyperreal.Props.intersections_exact` depends on axioms: [propext, Classical.choice, Quot.sound]
* `Hyperreal.Props.windows_exact` depends on axioms: [propext, Classical.choice, Quot.sound]
* `Hyperreal.Props.concordances_join` depends on axioms: [propext, Classical.choice, Quot.sound]
* `Hyperreal.Props.concordances_numbers_fail` depends on axioms: [propext, Classical.choice, Quot.sound]
* `Hyperreal.Props.windows_mixed_keys_fail` depends on axioms: [propext, Classical.choice, Quot.sound]
* `Hyperreal.Props.windows_unknown_fail` depends on axioms: [propext, Classical.choice, Quot.sound]
* `Hyperreal.Props.passages_partial` depends on axioms: [propext, Classical.choice, Quot.sound]
* `Hyperreal.Props.passages_two_clauses` depends on axioms: [propext, Classical.choice, Quot.sound]
* `Hyperreal.Props.passage_final_hit_dropped` depends on axioms: [propext, Classical.choice, Quot.sound]
* `Hyperreal.Props.passage_leaks` depends on axioms: [propext, Classical.choice, Quot.sound]
* `Hyperreal.Props.passage_not_pairwise` depends on axioms: [propext, Classical.choice, Quot.sound]
* `Hyperreal.Props.passage_star_missed` depends on axioms: [propext, Classical.choice, Quot.sound]
* `Hyperreal.Props.passage_spans` depends on axioms: [propext, Classical.choice, Quot.sound]
* `Hyperreal.Props.collocations_partial` depends on axioms: [propext, Classical.choice, Quot.sound]
* `Hyperreal.Props.collocations_leak` depends on axioms: [propext, Classical.choice, Quot.sound]
* `Hyperreal.Props.collocations_window_overrun` depends on axioms: [propext, Classical.choice, Quot.sound]
* `Hyperreal.Props.collocations_mix_fields` depends on axioms: [propext, Classical.choice, Quot.sound]
* `Hyperreal.Props.render_partial` depends on axioms: [propext, Classical.choice, Quot.sound]
* `Hyperreal.Props.shown_complete` depends on axioms: [propext, Classical.choice, Quot.sound]
* `Hyperreal.Props.render_sample` depends on axioms: [propext, Classical.choice, Quot.sound]
* `Hyperreal.Props.render_only_texts` depends on axioms: [propext, Classical.choice, Quot.sound]
* `Hyperreal.Props.passage_last_token_missing` depends on axioms: [propext, Classical.choice, Quot.sound]
* `Hyperreal.Props.replace_docs_partial` depends on axioms: [propext, Classical.choice, Quot.sound]
* `Hyperreal.Props.docs_roundtrip` depends on axioms: [propext, Classical.choice, Quot.sound]
* `Hyperreal.Props.docs_rendered` depends on axioms: [propext, Classical.choice, Quot.sound]
* `Hyperreal.Props.replace_docs_silent` depends on axioms: [propext, Classical.choice, Quot.sound]
* `Hyperreal.Props.replace_docs_interrupted` depends on axioms: [propext]
* `Hyperreal.Props.import_doc_ids` depends on axioms: [propext, Classical.choice, Quot.sound]
* `Hyperreal.Props.import_other_sites` depends on axioms: [propext, Classical.choice, Quot.sound]
* `Hyperreal.Props.import_twice` depends on axioms: [propext, Classical.choice, Quot.sound]
* `Hyperreal.Props.import_stores` depends on axioms: [propext, Classical.choice, Quot.sound]
* `Hyperreal.Props.import_fresh` depends on axioms: [propext, Classical.choice, Quot.sound]
* `Hyperreal.Props.import_succeeds` depends on axioms: [propext, Classical.choice, Quot.sound]
* `Hyperreal.Props.import_failed_clean` depends on axioms: [propext, Classical.choice, Quot.sound]
* `Hyperreal.Props.import_spurious_rows` depends on axioms: [propext, Classical.choice, Quot.sound]
* `Hyperreal.Props.import_interrupt_then_retry` depends on axioms: [propext, Classical.choice, Quot.sound]
* `Hyperreal.Props.open_creates` depends on axioms: [propext, Classical.choice, Quot.sound]
* `Hyperreal.Props.open_current` depends on axioms: [propext, Classical.choice, Quot.sound]
* `Hyperreal.Props.open_upgrades` depends on axioms: [propext, Classical.choice, Quot.sound]
* `Hyperreal.Props.open_refuses_partial` depends on axioms: [propext, Classical.choice, Quot.sound]
* `Hyperreal.Props.open_atomic` depends on axioms: [propext, Classical.choice, Quot.sound]
* `Hyperreal.Props.reopen_idempotent` depends on axioms: [propext, Classical.choice, Quot.sound]
* `Hyperreal.Props.open_halfway_partial` depends on axioms: [propext, Classical.choice, Quot.sound]
* `Hyperreal.Props.refused_file_touched` depends on axioms: [propext, Classical.choice, Quot.sound]
* `Hyperreal.Props.refused_wrong_exception` depends on axioms: [propext, Classical.choice, Quot.sound]
* `Hyperreal.Props.halfway_stale` depends on axioms: [propext, Classical.choice, Quot.sound]
* `Hyperreal.Props.upgrade_four_pending_refused` depends on axioms: [propext, Classical.choice, Quot.sound]
* `Hyperreal.Props.round_truncates` depends on axioms: [propext, Classical.choice, Quot.sound]
* `Hyperreal.Props.round_same_bucket` depends on axioms: [propext, Classical.choice, Quot.sound]
* `Hyperreal.Props.round_nested` depends on axioms: [propext, Classical.choice, Quot.sound]
* `Hyperreal.Props.round_monotone_partial` depends on axioms: [propext, Classical.choice, Quot.sound]
* `Hyperreal.Props.notLater_iff_instant` depends on axioms: [propext, Classical.choice, Quot.sound]
* `Hyperreal.Props.round_mixed_zones` depends on axioms: [propext]
* `Hyperreal.Props.cluster_ring` depends on axioms: [propext, Classical.choice, Quot.sound]
* `Hyperreal.Props.cluster_page_unknown` depends on axioms: [propext, Classical.choice, Quot.sound]
* `Hyperreal.Props.cluster_result_type_partial` depends on axioms: [propext, Classical.choice, Quot.sound]
* `Hyperreal.Props.index_result_type_partial` depends on axioms: [propext, Classical.choice, Quot.sound]
* `Hyperreal.Props.concordance_not_shown` depends on axioms: [propext, Classical.choice, Quot.sound]
* `Hyperreal.Props.field_summary_partial` depends on axioms: [propext, Classical.choice, Quot.sound]
* `Hyperreal.Props.field_summary_exact` depends on axioms: [propext, Classical.choice, Quot.sound]
* `Hyperreal.Props.field_summary_stale` depends on axioms: [propext, Classical.choice, Quot.sound]
* `Hyperreal.Props.value_order` depends on axioms: [propext, Classical.choice, Quot.sound]
* `Hyperreal.Props.plain_text_serves` depends on axioms: [propext, Classical.choice, Quot.sound]
* `Hyperreal.Props.plain_text_indexes` depends on axioms: [propext, Classical.choice, Quot.sound]
* `Hyperreal.Props.stack_exchange_indexes` depends on axioms: [propext, Classical.choice, Quot.sound]
* `Hyperreal.Props.stack_exchange_indexes_iff` depends on axioms: [propext, Classical.choice, Quot.sound]
* `Hyperreal.Props.twittersphere_indexes_partial` depends on axioms: [propext, Classical.choice, Quot.sound]
* `Hyperreal.Props.twittersphere_ordinary_tweet_fails` depends on axioms: [propext, Classical.choice, Quot.sound]
* `Hyperreal.Props.requires_corpus_clean` depends on axioms: [propext, Classical.choice, Quot.sound]
* `Hyperreal.Props.bundled_corpora_support` depends on axioms: [propext, Classical.choice, Quot.sound]
* `Hyperreal.Props.export_rows_aligned` depends on axioms: [propext, Classical.choice, Quot.sound]
* `Hyperreal.Props.cluster_features_listing` depends on axioms: [propext, Classical.choice, Quot.sound]
* `Hyperreal.Props.top_cluster_features_listing` depends on axioms: [propext, Classical.choice, Quot.sound]
* `Hyperreal.Props.export_clusters_complete` depends on axioms: [propext, Classical.choice, Quot.sound]
* `Hyperreal.Props.model_command_creates` depends on axioms: [propext, Classical.choice, Quot.sound]
* `Hyperreal.Props.model_command_refines` depends on axioms: [propext, Classical.choice, Quot.sound]
* `Hyperreal.Props.model_command_declined` depends on axioms: [propext, Classical.choice, Quot.sound]
* `Hyperreal.Props.model_command_duplicate_field` depends on axioms: [propext, Classical.choice, Quot.sound]
* `Hyperreal.Props.model_clusters_not_ignored` depends on axioms: [propext, Classical.choice, Quot.sound]
* `Hyperreal.Props.model_command_options` depends on axioms: [propext, Classical.choice, Quot.sound]
* `Hyperreal.Props.model_command_options_create` depends on axioms: [propext, Classical.choice, Quot.sound]
* `Hyperreal.Props.with_block_discards` depends on axioms: [propext, Quot.sound]
* `Hyperreal.Props.lookups_inverse_partial` depends on axioms: [propext, Quot.sound]
* `Hyperreal.Props.slice_lookup_none` depends on axioms: [propext, Quot.sound]
* `Hyperreal.Props.cluster_page_spec` depends on axioms: [propext, Classical.choice, Quot.sound]
* `Hyperreal.Props.index_page_spec` depends on axioms: [propext, Classical.choice, Quot.sound]
* `Hyperreal.Props.cluster_page_results` depends on axioms: [propext, Classical.choice, Quot.sound]
* `Hyperreal.Props.index_page_results` depends on axioms: [propext, Classical.choice, Quot.sound]
* `Hyperreal.Props.render_docs_html_exact` depends on axioms: [propext, Classical.choice, Quot.sound]
* `Hyperreal.Props.render_docs_table_exact` depends on axioms: [propext, Classical.choice, Quot.sound]
* `Hyperreal.Props.create_reads_partial` depends on axioms: [propext, Classical.choice, Quot.sound]
* `Hyperreal.Props.create_cuts_at_comma` depends on axioms: [propext, Classical.choice, Quot.sound]
* `Hyperreal.Props.create_long_line_ignored` depends on axioms: [propext, Classical.choice, Quot.sound]
* `Hyperreal.Props.create_keeps_json_escapes` depends on axioms: [propext, Classical.choice, Quot.sound]
* `Hyperreal.Props.requests_always_settled` depends on axioms: [propext, Classical.choice, Quot.sound]
* `Hyperreal.Props.delete_action_partial` depends on axioms: [propext, Classical.choice, Quot.sound]
* `Hyperreal.Props.create_action_partial` depends on axioms: [propext, Classical.choice, Quot.sound]
* `Hyperreal.Props.merge_action` depends on axioms: [propext, Classical.choice, Quot.sound]
* `Hyperreal.Props.pin_action` depends on axioms: [propext, Classical.choice, Quot.sound]
* `Hyperreal.Props.remove_features_action_partial` depends on axioms: [propext, Classical.choice, Quot.sound]
* `Hyperreal.Props.pin_features_action` depends on axioms: [propext, Classical.choice, Quot.sound]
* `Hyperreal.Props.refine_action_partial` depends on axioms: [propext, Classical.choice, Quot.sound]
* `Hyperreal.Props.recreate_action` depends on axioms: [propext, Classical.choice, Quot.sound]
* `Hyperreal.Props.failed_request_changed_model` depends on axioms: [propext, Classical.choice, Quot.sound]
* `Hyperreal.Props.failed_recreate_loses_model` depends on axioms: [propext, Classical.choice, Quot.sound]
* `Hyperreal.Props.redirects_to_missing` depends on axioms: [propext, Classical.choice, Quot.sound]
* `Hyperreal.Props.search_finds_text_partial` depends on axioms: [propext, Quot.sound]
* `Hyperreal.Props.search_misses_numbers` depends on axioms: [propext, Quot.sound]
* `Hyperreal.Props.concurrent_serial` depends on axioms: [propext, Quot.sound]
* `Hyperreal.Props.concurrent_durable` depends on axioms: [propext, Quot.sound]
* `Hyperreal.Props.concurrent_one_writer` depends on axioms: [propext, Quot.sound]
* `Hyperreal.Props.concurrent_calls` depends on axioms: [propext, Quot.sound]
* `Hyperreal.Props.concurrent_edit` depends on axioms: [propext, Classical.choice, Quot.sound]
* `Hyperreal.Props.concurrent_query` depends on axioms: [propext, Classical.choice, Quot.sound]
* `Hyperreal.Props.concurrent_reindex` depends on axioms: [propext, Classical.choice, Quot.sound]
* `Hyperreal.Props.concurrent_reindex_returns` depends on axioms: [propext, Classical.choice, Quot.sound]
* `Hyperreal.Props.concurrent_settled` depends on axioms: [propext, Classical.choice, Quot.sound]
* `Hyperreal.Props.concurrent_edit_runs` depends on axioms: [propext, Classical.choice, Quot.sound]
* `Hyperreal.Props.concurrent_index_runs` depends on axioms: [propext, Classical.choice, Quot.sound]
* `Hyperreal.Props.written_rows_read_back` depends on axioms: [propext, Classical.choice, Quot.sound]
* `Hyperreal.Props.exported_clusters_read_back` depends on axioms: [propext, Classical.choice, Quot.sound]
* `Hyperreal.Props.spreadsheet_row_determines` depends on axioms: [propext, Classical.choice, Quot.sound]
* `Hyperreal.Props.exported_listing_read_back` depends on axioms: [propext, Classical.choice, Quot.sound]
* `Hyperreal.Props.export_top_read_back` depends on axioms: [propext, Classical.choice, Quot.sound]
* `Hyperreal.Props.export_negative_is_all` depends on axioms: [propext, Classical.choice, Quot.sound]
* `Hyperreal.Props.exported_sample_reads_back` depends on axioms: [propext, Classical.choice, Quot.sound]
* `Hyperreal.Props.long_cell_refused` depends on axioms: [propext, Classical.choice, Quot.sound]
* `Hyperreal.Props.rendered_table_shows_dump` depends on axioms: [propext, Classical.choice, Quot.sound]
* `Hyperreal.Props.rendered_html_shows_dump` depends on axioms: [propext, Classical.choice, Quot.sound]
* `Hyperreal.Props.rendered_html_in_order` depends on axioms: [propext, Classical.choice, Quot.sound]
* `Hyperreal.Props.rendered_is_indexed` depends on axioms: [propext, Quot.sound]
* `Hyperreal.Props.sx_sample_exported` depends on axioms: [propext, Classical.choice, Quot.sound]
* `Hyperreal.Props.comments_cell_reads_back` depends on axioms: [propext, Classical.choice, Quot.sound]
* `Hyperreal.Props.render_unknown_key_leaves_savepoint` depends on axioms: [propext, Classical.choice, Quot.sound]
* `Hyperreal.Props.plain_documents_are_text` depends on axioms: [propext, Classical.choice, Quot.sound]
* `Hyperreal.Props.titles_and_comments_are_text_partial` depends on axioms: [propext, Classical.choice, Quot.sound]
* `Hyperreal.Props.title_is_read` depends on axioms: [propext, Classical.choice, Quot.sound]
* `Hyperreal.Props.names_are_not_text` depends on axioms: [propext, Classical.choice, Quot.sound]
* `Hyperreal.Props.name_changes_markup` depends on axioms: [propext, Classical.choice, Quot.sound]
* `Hyperreal.Props.tweet_name_changes_markup` depends on axioms: [propext, Classical.choice, Quot.sound]
* `Hyperreal.Props.tweet_text_changes_markup` depends on axioms: [propext, Classical.choice, Quot.sound]
* `Hyperreal.Props.markup_documents_shown` depends on axioms: [propext, Classical.choice, Quot.sound]
* `Hyperreal.Props.text_file_to_clusters` depends on axioms: [propext, Classical.choice, Quot.sound]
* `Hyperreal.Props.text_file_to_sample` depends on axioms: [propext, Classical.choice, Quot.sound]
* `Hyperreal.Props.plain_text_finds` depends on axioms: [propext, Classical.choice, Quot.sound]
* `Hyperreal.Props.stack_exchange_finds` depends on axioms: [propext, Classical.choice, Quot.sound]
* `Hyperreal.Props.dump_to_index` depends on axioms: [propext, Classical.choice, Quot.sound]
* `Hyperreal.Props.twittersphere_finds` depends on axioms: [propext, Classical.choice, Quot.sound]
* `Hyperreal.Props.twittersphere_opens_iff` depends on axioms: [propext, Quot.sound]
* `Hyperreal.Props.refine_is_greedy` depends on axioms: [propext, Classical.choice, Quot.sound]
* `Hyperreal.Props.refine_nothing_to_do` depends on axioms: [propext, Classical.choice, Quot.sound]
* `Hyperreal.Props.refine_keeps_stable` depends on axioms: [propext, Classical.choice, Quot.sound]
* `Hyperreal.Props.one_round_moves_all_to_best` depends on axioms: [propext, Classical.choice, Quot.sound]
* `Hyperreal.Props.dissolves_weakest` depends on axioms: [propext, Classical.choice, Quot.sound]
* `Hyperreal.Props.concurrent_open_partial` depends on axioms: [propext, Classical.choice, Quot.sound]
* `Hyperreal.Props.concurrent_open_returned` depends on axioms: [propext, Classical.choice, Quot.sound]
* `Hyperreal.Props.concurrent_create_partial` depends on axioms: [propext, Classical.choice, Quot.sound]
* `Hyperreal.Props.opening_alone` depends on axioms: [propext, Classical.choice, Quot.sound]
* `Hyperreal.Props.second_opener_fails` depends on axioms: [propext, Classical.choice, Quot.sound]
* `Hyperreal.Props.second_creator_fails` depends on axioms: [propext, Classical.choice, Quot.sound]
* `Hyperreal.Props.opened_unsettled` depends on axioms: [propext, Classical.choice, Quot.sound]
* `Hyperreal.Props.tokens_tokenise` depends on axioms: [propext, Classical.choice, Quot.sound]
* `Hyperreal.Props.social_tokens_tokenise` depends on axioms: [propext, Classical.choice, Quot.sound]
* `Hyperreal.Props.social_tokens_plain` depends on axioms: [propext, Classical.choice, Quot.sound]
* `Hyperreal.Props.spaces_separate_tokens` depends on axioms: [propext, Quot.sound]
* `Hyperreal.Props.cleaned_iff` depends on axioms: [propext, Classical.choice, Quot.sound]
* `Hyperreal.Props.plain_text_every_character` depends on axioms: [propext, Classical.choice, Quot.sound]
* `Hyperreal.Props.tweet_words_unmarked` depends on axioms: [propext, Classical.choice, Quot.sound]
* `Hyperreal.Props.white_space_exact` depends on axioms: [propext, Classical.choice, Quot.sound]
* `Hyperreal.Props.session_reads` depends on axioms: [propext, Classical.choice, Quot.sound]
* `Hyperreal.Props.session_undisturbed` depends on axioms: [propext, Classical.choice, Quot.sound]
* `Hyperreal.Props.session_mixes` depends on axioms: [propext, Classical.choice, Quot.sound]
* `Hyperreal.Props.views_undisturbed` depends on axioms: [propext, Classical.choice, Quot.sound]
* `Hyperreal.Props.graph_undisturbed` depends on axioms: [propext, Classical.choice, Quot.sound]
* `Hyperreal.Props.pivot_mixed` depends on axioms: [propext, Classical.choice, Quot.sound]
* `Hyperreal.Props.cluster_page_mixed` depends on axioms: [propext, Classical.choice, Quot.sound]
* `Hyperreal.Props.index_page_mixed` depends on axioms: [propext, Classical.choice, Quot.sound]
* `Hyperreal.Props.question_runs` depends on axioms: [propext, Classical.choice, Quot.sound]
* `Hyperreal.Props.questions_happen` depends on axioms: [propext, Classical.choice, Quot.sound]
* `Hyperreal.Props.cluster_page_disturbed` depends on axioms: [propext, Classical.choice, Quot.sound]
* `Hyperreal.Props.pivot_disturbed` depends on axioms: [propext, Classical.choice, Quot.sound]
* `Hyperreal.Props.request_effect` depends on axioms: [propext, Classical.choice, Quot.sound]
* `Hyperreal.Props.reading_changes_nothing` depends on axioms: [propext, Classical.choice, Quot.sound]
* `Hyperreal.Props.edits_need_post` depends on axioms: [propext, Classical.choice, Quot.sound]
* `Hyperreal.Props.other_index_refused` depends on axioms: [propext, Classical.choice, Quot.sound]
* `Hyperreal.Props.any_requests_settled` depends on axioms: [propext, Classical.choice, Quot.sound]
* `Hyperreal.Props.cluster_links_lead` depends on axioms: [propext, Classical.choice, Quot.sound]
* `Hyperreal.Props.index_links_lead` depends on axioms: [propext, Classical.choice, Quot.sound]
* `Hyperreal.Props.other_links_lead` depends on axioms: [propext, Classical.choice, Quot.sound]
* `Hyperreal.Props.cluster_links_exist` depends on axioms: [propext, Classical.choice, Quot.sound]
* `Hyperreal.Props.index_links_exist` depends on axioms: [propext, Classical.choice, Quot.sound]
* `Hyperreal.Props.existing_pages_shown` depends on axioms: [propext, Classical.choice, Quot.sound]
* `Hyperreal.Props.cluster_buttons` depends on axioms: [propext, Classical.choice, Quot.sound]
* `Hyperreal.Props.index_buttons` depends on axioms: [propext, Classical.choice, Quot.sound]
* `Hyperreal.Props.details_buttons` depends on axioms: [propext, Classical.choice, Quot.sound]
* `Hyperreal.Props.search_form_partial` depends on axioms: [propext, Classical.choice, Quot.sound]
* `Hyperreal.Props.search_leaves_cluster_zero` depends on axioms: [propext, Classical.choice, Quot.sound]
* `Hyperreal.Props.navigation_offered_partial` depends on axioms: [propext, Classical.choice, Quot.sound]
* `Hyperreal.Props.navigation_missing` depends on axioms: [propext, Classical.choice, Quot.sound]
* `Hyperreal.Props.same_state_same_results` depends on axioms: [propext, Classical.choice, Quot.sound]
* `Hyperreal.Props.same_seed_same_results` depends on axioms: [propext, Classical.choice, Quot.sound]
* `Hyperreal.Props.drawn_call_is_ordinary` depends on axioms: [propext, Classical.choice, Quot.sound]
* `Hyperreal.Props.index_same` depends on axioms: [propext, Classical.choice, Quot.sound]
* `Hyperreal.Props.index_same_succeeds` depends on axioms: [propext, Classical.choice, Quot.sound]
* `Hyperreal.Props.sorted_groups_same` depends on axioms: [propext, Classical.choice, Quot.sound]
* `Hyperreal.Props.cluster_page_read` depends on axioms: [propext, Classical.choice, Quot.sound]
* `Hyperreal.Props.index_page_read` depends on axioms: [propext, Classical.choice, Quot.sound]
* `Hyperreal.Props.details_page_read` depends on axioms: [propext, Classical.choice, Quot.sound]
* `Hyperreal.Props.listing_page_read` depends on axioms: [propext, Classical.choice, Quot.sound]
* `Hyperreal.Props.cluster_page_links` depends on axioms: [propext, Classical.choice, Quot.sound]
* `Hyperreal.Props.index_page_links` depends on axioms: [propext, Classical.choice, Quot.sound]
* `Hyperreal.Props.other_page_links` depends on axioms: [propext, Classical.choice, Quot.sound]
* `Hyperreal.Props.cluster_page_shown_partial` depends on axioms: [propext, Classical.choice, Quot.sound]
* `Hyperreal.Props.index_page_shown_partial` depends on axioms: [propext, Classical.choice, Quot.sound]
* `Hyperreal.Props.concordances_fail` depends on axioms: [propext, Classical.choice, Quot.sound]
* `Hyperreal.Props.tweet_left_open` depends on axioms: [propext, Classical.choice, Quot.sound]
* `Hyperreal.Props.cluster_page_requests` depends on axioms: [propext, Classical.choice, Quot.sound]
* `Hyperreal.Props.index_page_requests` depends on axioms: [propext, Classical.choice, Quot.sound]
* `Hyperreal.Props.details_page_requests` depends on axioms: [propext, Classical.choice, Quot.sound]
* `Hyperreal.Props.listing_page_requests` depends on axioms: [propext, Classical.choice, Quot.sound]
* `Hyperreal.Props.pinned_page_requests` depends on axioms: [propext, Classical.choice, Quot.sound]
* `Hyperreal.Props.index_in_flight` depends on axioms: [propext, Classical.choice, Quot.sound]
* `Hyperreal.Props.index_keeps_busy` depends on axioms: [propext, Classical.choice, Quot.sound]
* `Hyperreal.Props.dump_to_clusters` depends on axioms: [propext, Classical.choice, Quot.sound]
* `Hyperreal.Props.dump_to_sample` depends on axioms: [propext, Classical.choice, Quot.sound]
* `Hyperreal.Props.tweets_to_clusters` depends on axioms: [propext, Classical.choice, Quot.sound]
* `Hyperreal.Props.any_to_graph` depends on axioms: [propext, Classical.choice, Quot.sound]
* `Hyperreal.Props.dump_to_graph` depends on axioms: [propext, Classical.choice, Quot.sound]
* `Hyperreal.Props.graph_refuses` depends on axioms: [propext, Classical.choice, Quot.sound]
* `Hyperreal.Props.serve_accepts` depends on axioms: [propext, Classical.choice, Quot.sound]
* `Hyperreal.Props.serve_reads` depends on axioms: [propext, Classical.choice, Quot.sound]
* `Hyperreal.Props.serve_settled` depends on axioms: [propext, Classical.choice, Quot.sound]
* `Hyperreal.Props.serve_without_documents` depends on axioms: [propext, Classical.choice, Quot.sound]
* `Hyperreal.Props.text_file_served` depends on axioms: [propext, Classical.choice, Quot.sound]
* `Hyperreal.Props.dump_served` depends on axioms: [propext, Classical.choice, Quot.sound]
* `Hyperreal.Props.tweets_served` depends on axioms: [propext, Classical.choice, Quot.sound]
* `Hyperreal.Props.sites_import` depends on axioms: [propext, Classical.choice, Quot.sound]
* `Hyperreal.Props.sites_failure` depends on axioms: [propext, Classical.choice, Quot.sound]
* `Hyperreal.Props.sites_to_clusters` depends on axioms: [propext, Classical.choice, Quot.sound]
* `Hyperreal.Props.sites_to_sample` depends on axioms: [propext, Classical.choice, Quot.sound]
* `Hyperreal.Props.sites_served` depends on axioms: [propext, Classical.choice, Quot.sound]
* `Hyperreal.Props.updates_import` depends on axioms: [propext, Classical.choice, Quot.sound]
* `Hyperreal.Props.updates_latest` depends on axioms: [propext, Classical.choice, Quot.sound]
* `Hyperreal.Props.updates_complete` depends on axioms: [propext, Classical.choice, Quot.sound]
* `Hyperreal.Props.updates_stale` depends on axioms: [propext, Classical.choice, Quot.sound]
* `Hyperreal.Props.working_dir_temporary_partial` depends on axioms: [propext, Classical.choice, Quot.sound]
* `Hyperreal.Props.working_dir_text` depends on axioms: [propext, Classical.choice, Quot.sound]
* `Hyperreal.Props.working_dir_path` depends on axioms: [propext, Classical.choice, Quot.sound]
* `Hyperreal.Props.working_dir_missing` depends on axioms: [propext, Classical.choice, Quot.sound]
* `Hyperreal.Props.working_dir_temporary_once` depends on axioms: [propext, Classical.choice, Quot.sound]
* `Hyperreal.Props.working_dir_retry_mixes` depends on axioms: [propext, Classical.choice, Quot.sound]
* `Hyperreal.Props.working_dir_retry_positions` depends on axioms: [propext, Classical.choice, Quot.sound]
* `Hyperreal.Props.rendered_tweets_partial` depends on axioms: [propext, Classical.choice, Quot.sound]
* `Hyperreal.Props.tweets_unknown_key_leaves_savepoint` depends on axioms: [propext, Classical.choice, Quot.sound]
* `Hyperreal.Props.text_file_on_screen` depends on axioms: [propext, Classical.choice, Quot.sound]
* `Hyperreal.Props.sites_on_screen_partial` depends on axioms: [propext, Classical.choice, Quot.sound]
* `Hyperreal.Props.tweets_on_screen_partial` depends on axioms: [propext, Classical.choice, Quot.sound]
* `Hyperreal.Props.text_file_later_on_screen` depends on axioms: [propext, Classical.choice, Quot.sound]
* `Hyperreal.Props.sites_later_on_screen_partial` depends on axioms: [propext, Classical.choice, Quot.sound]
* `Hyperreal.Props.tweets_later_on_screen_partial` depends on axioms: [propext, Classical.choice, Quot.sound]
* `Hyperreal.Props.text_file_later` depends on axioms: [propext, Classical.choice, Quot.sound]
* `Hyperreal.Props.sites_later` depends on axioms: [propext, Classical.choice, Quot.sound]
* `Hyperreal.Props.tweets_later` depends on axioms: [propext, Classical.choice, Quot.sound]
* `Hyperreal.Props.text_file_searched` depends on axioms: [propext, Classical.choice, Quot.sound]
* `Hyperreal.Props.text_file_later_searched` depends on axioms: [propext, Classical.choice, Quot.sound]
* `Hyperreal.Props.sites_searched` depends on axioms: [propext, Classical.choice, Quot.sound]
* `Hyperreal.Props.sites_later_searched` depends on axioms: [propext, Classical.choice, Quot.sound]
* `Hyperreal.Props.tweets_searched` depends on axioms: [propext, Classical.choice, Quot.sound]
* `Hyperreal.Props.tweets_later_searched` depends on axioms: [propext, Classical.choice, Quot.sound]
* `Hyperreal.Props.text_file_searched_on_screen` depends on axioms: [propext, Classical.choice, Quot.sound]
* `Hyperreal.Props.text_file_later_searched_on_screen` depends on axioms: [propext, Classical.choice, Quot.sound]
* `Hyperreal.Props.sites_searched_on_screen_partial` depends on axioms: [propext, Classical.choice, Quot.sound]
* `Hyperreal.Props.sites_later_searched_on_screen_partial` depends on axioms: [propext, Classical.choice, Quot.sound]
* `Hyperreal.Props.tweets_searched_on_screen_partial` depends on axioms: [propext, Classical.choice, Quot.sound]
* `Hyperreal.Props.tweets_later_searched_on_screen_partial` depends on axioms: [propext, Classical.choice, Quot.sound]
* `Hyperreal.Props.text_file_details` depends on axioms: [propext, Classical.choice, Quot.sound]
* `Hyperreal.Props.sites_details` depends on axioms: [propext, Classical.choice, Quot.sound]
* `Hyperreal.Props.tweets_details` depends on axioms: [propext, Classical.choice, Quot.sound]
* `Hyperreal.Props.text_file_concordance` depends on axioms: [propext, Classical.choice, Quot.sound]
* `Hyperreal.Props.any_index` depends on axioms: [propext, Classical.choice, Quot.sound]
* `Hyperreal.Props.found_passages_render` depends on axioms: [propext, Classical.choice, Quot.sound]
* `Hyperreal.Props.text_file_passages_partial` depends on axioms: [propext, Classical.choice, Quot.sound]
* `Hyperreal.Props.hansard_found` depends on axioms: [propext, Classical.choice, Quot.sound]
* `Hyperreal.Props.hansard_calendar` depends on axioms: [propext, Classical.choice, Quot.sound]
* `Hyperreal.Props.hansard_rendered` depends on axioms: [propext, Classical.choice, Quot.sound]
* `Hyperreal.Props.hansard_passages` depends on axioms: [propext, Classical.choice, Quot.sound]
* `Hyperreal.Props.trend_adds_up` depends on axioms: [propext, Classical.choice, Quot.sound]
* `Hyperreal.Props.posts_by_date` depends on axioms: [propext, Classical.choice, Quot.sound]
* `Hyperreal.Props.tweets_by_date` depends on axioms: [propext, Classical.choice, Quot.sound]
* `Hyperreal.Props.pages_by_date` depends on axioms: [propext, Classical.choice, Quot.sound]
* `Hyperreal.Props.shares_exact` depends on axioms: [propext, Classical.choice, Quot.sound]
* `Hyperreal.Props.shares_of_reference` depends on axioms: [propext, Classical.choice, Quot.sound]
* `Hyperreal.Props.cluster_trends_partial` depends on axioms: [propext, Classical.choice, Quot.sound]
* `Hyperreal.Props.same_label_loses_cluster` depends on axioms: [propext, Classical.choice, Quot.sound]
