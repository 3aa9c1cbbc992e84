{
 "claims": [
  {
   "property": "C01",
   "status": "proved",
   "theorems": [
    "Hyperreal.Props.bstm_exact_topK",
    "Hyperreal.Props.topK_unique"
   ],
   "note": ""
  },
  {
   "property": "C02",
   "status": "proved",
   "theorems": [
    "Hyperreal.Props.compute_bitslice_counts"
   ],
   "note": ""
  },
  {
   "property": "C03",
   "status": "proved",
   "theorems": [
    "Hyperreal.Props.weight_bitslice_exact",
    "Hyperreal.Props.weight_compute_roundtrip"
   ],
   "note": ""
  },
  {
   "property": "C04",
   "status": "proved",
   "theorems": [
    "Hyperreal.Props.cluster_query_agrees"
   ],
   "note": ""
  },
  {
   "property": "C05",
   "status": "partial",
   "theorems": [
    "Hyperreal.Props.expand_window_partial",
    "Hyperreal.Props.expand_window_exact",
    "Hyperreal.Props.expand_window_leaks",
    "Hyperreal.Props.expand_window_zero"
   ],
   "note": "The stated property is false of the code (expand_window_leaks: the first position of the next document leaks in); the exact behaviour is proved."
  },
  {
   "property": "C06",
   "status": "proved",
   "theorems": [
    "Hyperreal.Props.index_lookup",
    "Hyperreal.Props.index_succeeds"
   ],
   "note": ""
  },
  {
   "property": "C07",
   "status": "proved",
   "theorems": [
    "Hyperreal.Props.index_counts"
   ],
   "note": ""
  },
  {
   "property": "C08",
   "status": "proved",
   "theorems": [
    "Hyperreal.Props.index_keeps_features"
   ],
   "note": ""
  },
  {
   "property": "C09",
   "status": "proved",
   "theorems": [
    "Hyperreal.Props.index_keys"
   ],
   "note": ""
  },
  {
   "property": "C10",
   "status": "proved",
   "theorems": [
    "Hyperreal.Props.index_positions"
   ],
   "note": ""
  },
  {
   "property": "C11",
   "status": "proved",
   "theorems": [
    "Hyperreal.Props.index_batches"
   ],
   "note": ""
  },
  {
   "property": "C12",
   "status": "partial",
   "theorems": [
    "Hyperreal.Props.index_failure_partial",
    "Hyperreal.Props.index_corpus_failure",
    "Hyperreal.Props.index_late_failure",
    "Hyperreal.Props.index_interrupt",
    "Hyperreal.Props.index_nested",
    "Hyperreal.Props.index_empty"
   ],
   "note": "Holds for every failure up to the first commit; false for failures after it (index_late_failure), and after a KeyboardInterrupt before it the connection stays inside the transaction: nothing that is written through it later is ever committed (index_interrupt)."
  },
  {
   "property": "C13",
   "status": "proved",
   "theorems": [
    "Hyperreal.Props.index_readers",
    "Hyperreal.Props.pending_repaired"
   ],
   "note": ""
  },
  {
   "property": "C14",
   "status": "partial",
   "theorems": [
    "Hyperreal.Props.index_retry_partial",
    "Hyperreal.Props.index_retry_blocked"
   ],
   "note": "Holds when the interruption left no cluster pending; false after a crash between the two commits on an index with a model (index_retry_blocked)."
  },
  {
   "property": "C15",
   "status": "proved",
   "theorems": [
    "Hyperreal.Props.model_always_settled"
   ],
   "note": "Over all histories of model edits, including failing calls and worker-pool failures. index() is covered by C13."
  },
  {
   "property": "C16",
   "status": "proved",
   "theorems": [
    "Hyperreal.Props.one_cluster_always"
   ],
   "note": ""
  },
  {
   "property": "C17",
   "status": "partial",
   "theorems": [
    "Hyperreal.Props.atomic_call_partial",
    "Hyperreal.Props.atomic_nested",
    "Hyperreal.Props.atomic_history_partial",
    "Hyperreal.Props.atomic_housekeeping_failure",
    "Hyperreal.Props.atomic_never_durable_again",
    "Hyperreal.Props.atomic_interrupt_commits"
   ],
   "note": "Proved when the housekeeping succeeds and no KeyboardInterrupt occurs; the other two cases are false of the code (atomic_housekeeping_failure, atomic_never_durable_again, atomic_interrupt_commits)."
  },
  {
   "property": "C18",
   "status": "proved",
   "theorems": [
    "Hyperreal.Props.initialise_deals_evenly",
    "Hyperreal.Props.initialise_duplicate_field"
   ],
   "note": "For distinct field names; a repeated field name raises IntegrityError and changes nothing."
  },
  {
   "property": "C19",
   "status": "proved",
   "theorems": [
    "Hyperreal.Props.delete_clusters_spec",
    "Hyperreal.Props.delete_features_spec",
    "Hyperreal.Props.merge_clusters_spec",
    "Hyperreal.Props.merge_clusters_empty",
    "Hyperreal.Props.create_cluster_spec",
    "Hyperreal.Props.create_cluster_unknown"
   ],
   "note": ""
  },
  {
   "property": "C20",
   "status": "proved",
   "theorems": [
    "Hyperreal.Props.next_cluster_id_fresh",
    "Hyperreal.Props.create_cluster_spec"
   ],
   "note": ""
  },
  {
   "property": "C21",
   "status": "proved",
   "theorems": [
    "Hyperreal.Props.pin_features_spec",
    "Hyperreal.Props.pin_clusters_spec",
    "Hyperreal.Props.refine_keeps_pins",
    "Hyperreal.Props.delete_clusters_spec",
    "Hyperreal.Props.delete_features_spec",
    "Hyperreal.Props.merge_clusters_spec",
    "Hyperreal.Props.create_cluster_spec"
   ],
   "note": ""
  },
  {
   "property": "C22",
   "status": "proved",
   "theorems": [
    "Hyperreal.Props.refine_permutes"
   ],
   "note": ""
  },
  {
   "property": "C23",
   "status": "proved",
   "theorems": [
    "Hyperreal.Props.refine_keeps_pinned"
   ],
   "note": ""
  },
  {
   "property": "C24",
   "status": "proved",
   "theorems": [
    "Hyperreal.Props.refine_restricted"
   ],
   "note": ""
  },
  {
   "property": "C25",
   "status": "proved",
   "theorems": [
    "Hyperreal.Props.refine_keeps_minimum",
    "Hyperreal.Props.no_target_no_new",
    "Hyperreal.Props.small_cluster_can_vanish"
   ],
   "note": "A cluster already below the minimum can be emptied (small_cluster_can_vanish)."
  },
  {
   "property": "C26",
   "status": "proved",
   "theorems": [
    "Hyperreal.Props.refine_reaches_target",
    "Hyperreal.Props.refine_never_inconsistent",
    "Hyperreal.Props.target_of_pinned_is_ignored"
   ],
   "note": "A target equal to the number of selected pinned clusters is ignored by the code (target_of_pinned_is_ignored)."
  },
  {
   "property": "C27",
   "status": "partial",
   "theorems": [
    "Hyperreal.Props.split_saved_partial",
    "Hyperreal.Props.split_lost",
    "Hyperreal.Props.split_result_lost"
   ],
   "note": "Holds when the refined clusters include the greatest cluster id; otherwise the code deletes new clusters just stored (split_lost, split_result_lost)."
  },
  {
   "property": "C28",
   "status": "partial",
   "theorems": [
    "Hyperreal.Props.refine_returns_iff_partial",
    "Hyperreal.Props.refine_untested_partial",
    "Hyperreal.Props.refine_all_pinned_fails",
    "Hyperreal.Props.refine_target_below_pinned_fails",
    "Hyperreal.Props.refine_untested_cluster_fails",
    "Hyperreal.Props.refine_top_k_zero_fails"
   ],
   "note": "False in general; refine_returns_iff_partial says exactly when the call returns, except when clusters are dissolved while group tests may leave some untested: then it returns or raises KeyError and leaves the model as it was (refine_untested_partial), depending on the draws; a failing case is exhibited."
  },
  {
   "property": "C29",
   "status": "proved",
   "theorems": [
    "Hyperreal.Props.contributions_exact",
    "Hyperreal.Props.contributions_empty",
    "Hyperreal.Props.objective_nonneg"
   ],
   "note": "Exact rational arithmetic."
  },
  {
   "property": "C30",
   "status": "proved",
   "theorems": [
    "Hyperreal.Props.proposed_moves_are_best",
    "Hyperreal.Props.every_movable_feature_gets_its_best_move"
   ],
   "note": ""
  },
  {
   "property": "C31",
   "status": "proved",
   "theorems": [
    "Hyperreal.Props.pivot_cluster_ranked",
    "Hyperreal.Props.pivot_clusters_spec",
    "Hyperreal.Props.pivot_top_zero_fails"
   ],
   "note": "top_k = 0 raises IndexError (pivot_top_zero_fails)."
  },
  {
   "property": "C32",
   "status": "proved",
   "theorems": [
    "Hyperreal.Props.pivot_clusters_spec",
    "Hyperreal.Props.pivot_unknown_cluster"
   ],
   "note": "For distinct requested ids; an unknown one raises IndexError."
  },
  {
   "property": "C33",
   "status": "proved",
   "theorems": [
    "Hyperreal.Props.cluster_graph_spec",
    "Hyperreal.Props.graph_labels_refused",
    "Hyperreal.Props.graph_label_fails"
   ],
   "note": "Labels without field names raise TypeError on values that are not text (graph_labels_refused)."
  },
  {
   "property": "C34",
   "status": "proved",
   "theorems": [
    "Hyperreal.Props.sample_bitmap_exact",
    "Hyperreal.Props.sample_bitmap_negative",
    "Hyperreal.Props.structured_sample"
   ],
   "note": ""
  },
  {
   "property": "C35",
   "status": "proved",
   "theorems": [
    "Hyperreal.Props.intersections_exact"
   ],
   "note": ""
  },
  {
   "property": "C36",
   "status": "proved",
   "theorems": [
    "Hyperreal.Props.windows_exact",
    "Hyperreal.Props.concordances_join",
    "Hyperreal.Props.concordances_numbers_fail",
    "Hyperreal.Props.windows_mixed_keys_fail",
    "Hyperreal.Props.windows_unknown_fail"
   ],
   "note": "For documents whose keys Python can sort (all integers or all strings); mixed keys raise TypeError."
  },
  {
   "property": "C37",
   "status": "partial",
   "theorems": [
    "Hyperreal.Props.passages_partial",
    "Hyperreal.Props.passages_two_clauses",
    "Hyperreal.Props.passage_final_hit_dropped",
    "Hyperreal.Props.passage_leaks",
    "Hyperreal.Props.passage_not_pairwise",
    "Hyperreal.Props.passage_star_missed"
   ],
   "note": "Matches at a single offset can be lost (passage_final_hit_dropped) and matches of the preceding document are used at offset 0 (passage_leaks)."
  },
  {
   "property": "C38",
   "status": "proved",
   "theorems": [
    "Hyperreal.Props.passage_spans"
   ],
   "note": ""
  },
  {
   "property": "C39",
   "status": "partial",
   "theorems": [
    "Hyperreal.Props.collocations_partial",
    "Hyperreal.Props.collocations_leak",
    "Hyperreal.Props.collocations_window_overrun",
    "Hyperreal.Props.collocations_mix_fields"
   ],
   "note": "Totals and query size exact; the windows are described exactly: they include offset 0 of the next document (collocations_leak), and features of other positional fields are listed (collocations_mix_fields)."
  },
  {
   "property": "C40",
   "status": "partial",
   "theorems": [
    "Hyperreal.Props.render_partial",
    "Hyperreal.Props.shown_complete",
    "Hyperreal.Props.render_sample",
    "Hyperreal.Props.render_only_texts",
    "Hyperreal.Props.passage_last_token_missing"
   ],
   "note": "Complete for overhang >= 1; the right-hand side is one token short (passage_last_token_missing)."
  },
  {
   "property": "C41",
   "status": "partial",
   "theorems": [
    "Hyperreal.Props.replace_docs_partial",
    "Hyperreal.Props.docs_roundtrip",
    "Hyperreal.Props.docs_rendered",
    "Hyperreal.Props.replace_docs_silent",
    "Hyperreal.Props.replace_docs_interrupted"
   ],
   "note": "A replacement that ends is all or nothing, except that an interrupt (KeyboardInterrupt) commits the part loaded so far (replace_docs_interrupted); errors are swallowed (replace_docs_silent)."
  },
  {
   "property": "C42",
   "status": "proved",
   "theorems": [
    "Hyperreal.Props.import_doc_ids",
    "Hyperreal.Props.import_other_sites",
    "Hyperreal.Props.import_twice",
    "Hyperreal.Props.import_stores",
    "Hyperreal.Props.import_fresh",
    "Hyperreal.Props.import_succeeds",
    "Hyperreal.Props.import_failed_clean",
    "Hyperreal.Props.import_spurious_rows",
    "Hyperreal.Props.import_interrupt_then_retry"
   ],
   "note": "An import ended by KeyboardInterrupt leaves its transaction open, and the next import commits it (import_interrupt_then_retry)."
  },
  {
   "property": "C43",
   "status": "partial",
   "theorems": [
    "Hyperreal.Props.open_creates",
    "Hyperreal.Props.open_current",
    "Hyperreal.Props.open_upgrades",
    "Hyperreal.Props.open_refuses_partial",
    "Hyperreal.Props.open_atomic",
    "Hyperreal.Props.reopen_idempotent",
    "Hyperreal.Props.open_halfway_partial",
    "Hyperreal.Props.refused_file_touched",
    "Hyperreal.Props.refused_wrong_exception",
    "Hyperreal.Props.halfway_stale",
    "Hyperreal.Props.upgrade_four_pending_refused"
   ],
   "note": "Refused files are switched to WAL mode (refused_file_touched), files without version raise NameError (refused_wrong_exception), the migration consists of two transactions (halfway_stale), and files of version 4 left in the middle of an update are not upgraded but fail every time (upgrade_four_pending_refused); the rest of the property is proved, also for files of versions 5 to 9 left in the middle of an update."
  },
  {
   "property": "C44",
   "status": "partial",
   "theorems": [
    "Hyperreal.Props.round_truncates",
    "Hyperreal.Props.round_same_bucket",
    "Hyperreal.Props.round_nested",
    "Hyperreal.Props.round_monotone_partial",
    "Hyperreal.Props.notLater_iff_instant",
    "Hyperreal.Props.round_mixed_zones"
   ],
   "note": "Everything but order across different timezones, which is not kept (round_mixed_zones)."
  },
  {
   "property": "C45",
   "status": "proved",
   "theorems": [
    "Hyperreal.Props.cluster_ring",
    "Hyperreal.Props.cluster_page_unknown"
   ],
   "note": ""
  },
  {
   "property": "C46",
   "status": "partial",
   "theorems": [
    "Hyperreal.Props.cluster_result_type_partial",
    "Hyperreal.Props.index_result_type_partial",
    "Hyperreal.Props.concordance_not_shown"
   ],
   "note": "Refuted for concordances: they are computed and then replaced by rendered documents (concordance_not_shown)."
  },
  {
   "property": "C47",
   "status": "partial",
   "theorems": [
    "Hyperreal.Props.field_summary_partial",
    "Hyperreal.Props.field_summary_exact",
    "Hyperreal.Props.field_summary_stale",
    "Hyperreal.Props.value_order"
   ],
   "note": "Holds if and only if no known feature disappeared from the corpus (field_summary_partial is an iff); what is listed in every case is field_summary_exact: values and fields that disappeared are still listed (field_summary_stale)."
  },
  {
   "property": "C48",
   "status": "partial",
   "theorems": [
    "Hyperreal.Props.plain_text_serves",
    "Hyperreal.Props.plain_text_indexes",
    "Hyperreal.Props.stack_exchange_indexes",
    "Hyperreal.Props.stack_exchange_indexes_iff",
    "Hyperreal.Props.twittersphere_indexes_partial",
    "Hyperreal.Props.twittersphere_ordinary_tweet_fails"
   ],
   "note": "Refuted for Twittersphere: with positions, indexing succeeds only if no optional attribute is missing in any tweet (twittersphere_indexes_partial, an equivalence)."
  },
  {
   "property": "C49",
   "status": "proved",
   "theorems": [
    "Hyperreal.Props.requires_corpus_clean",
    "Hyperreal.Props.bundled_corpora_support"
   ],
   "note": "isinstance of a runtime checkable protocol is modelled as: inherited, or all members present."
  },
  {
   "property": "C50",
   "status": "proved",
   "theorems": [
    "Hyperreal.Props.export_rows_aligned"
   ],
   "note": "For corpora that render documents in the order of the given keys and do not reuse the names of the added columns."
  },
  {
   "property": "C51",
   "status": "proved",
   "theorems": [
    "Hyperreal.Props.cluster_features_listing",
    "Hyperreal.Props.top_cluster_features_listing",
    "Hyperreal.Props.export_clusters_complete"
   ],
   "note": ""
  },
  {
   "property": "C52",
   "status": "proved",
   "theorems": [
    "Hyperreal.Props.model_command_creates",
    "Hyperreal.Props.model_command_refines",
    "Hyperreal.Props.model_command_declined",
    "Hyperreal.Props.model_command_duplicate_field",
    "Hyperreal.Props.model_clusters_not_ignored",
    "Hyperreal.Props.model_command_options",
    "Hyperreal.Props.model_command_options_create"
   ],
   "note": "Creation is proved for exact scores; the help text of --clusters (ignored without --restart) is refuted by model_clusters_not_ignored."
  },
  {
   "property": "C53",
   "status": "proved",
   "theorems": [
    "Hyperreal.Props.with_block_discards"
   ],
   "note": ""
  },
  {
   "property": "C54",
   "status": "partial",
   "theorems": [
    "Hyperreal.Props.lookups_inverse_partial",
    "Hyperreal.Props.slice_lookup_none"
   ],
   "note": "Everything but the slice form, which returns None on every index (slice_lookup_none)."
  },
  {
   "property": "C55",
   "status": "proved",
   "theorems": [
    "Hyperreal.Props.cluster_page_spec",
    "Hyperreal.Props.index_page_spec",
    "Hyperreal.Props.cluster_page_unknown",
    "Hyperreal.Props.cluster_page_results",
    "Hyperreal.Props.index_page_results"
   ],
   "note": ""
  },
  {
   "property": "C56",
   "status": "proved",
   "theorems": [
    "Hyperreal.Props.render_docs_html_exact",
    "Hyperreal.Props.render_docs_table_exact"
   ],
   "note": "For queries of documents of the index."
  },
  {
   "property": "C57",
   "status": "partial",
   "theorems": [
    "Hyperreal.Props.create_reads_partial",
    "Hyperreal.Props.create_cuts_at_comma",
    "Hyperreal.Props.create_long_line_ignored",
    "Hyperreal.Props.create_keeps_json_escapes"
   ],
   "note": "Holds for lines without commas and for documents quoted as in CSV; the help promises that quoted documents are decoded as JSON strings, and they are not (create_keeps_json_escapes); a line is cut at its first comma (create_cuts_at_comma), and a line longer than the csv field limit makes the command do nothing and report success (create_long_line_ignored)."
  },
  {
   "property": "C58",
   "status": "proved",
   "theorems": [
    "Hyperreal.Props.requests_always_settled"
   ],
   "note": ""
  },
  {
   "property": "C59",
   "status": "partial",
   "theorems": [
    "Hyperreal.Props.delete_action_partial",
    "Hyperreal.Props.create_action_partial",
    "Hyperreal.Props.merge_action",
    "Hyperreal.Props.pin_action",
    "Hyperreal.Props.remove_features_action_partial",
    "Hyperreal.Props.pin_features_action",
    "Hyperreal.Props.refine_action_partial",
    "Hyperreal.Props.recreate_action",
    "Hyperreal.Props.failed_request_changed_model",
    "Hyperreal.Props.failed_recreate_loses_model",
    "Hyperreal.Props.redirects_to_missing"
   ],
   "note": "The effects are exact; an error page can follow a committed change (failed_request_changed_model, failed_recreate_loses_model) and a redirect can lead to a cluster that is gone (redirects_to_missing); each theorem says when the target exists."
  },
  {
   "property": "C60",
   "status": "partial",
   "theorems": [
    "Hyperreal.Props.search_finds_text_partial",
    "Hyperreal.Props.search_misses_numbers"
   ],
   "note": "Holds for text values; other values are never found (search_misses_numbers)."
  },
  {
   "property": "C61",
   "status": "proved",
   "theorems": [
    "Hyperreal.Props.concurrent_serial",
    "Hyperreal.Props.concurrent_durable",
    "Hyperreal.Props.concurrent_one_writer",
    "Hyperreal.Props.concurrent_calls",
    "Hyperreal.Props.concurrent_edit",
    "Hyperreal.Props.concurrent_query",
    "Hyperreal.Props.concurrent_reindex",
    "Hyperreal.Props.concurrent_reindex_returns",
    "Hyperreal.Props.concurrent_settled",
    "Hyperreal.Props.concurrent_edit_runs",
    "Hyperreal.Props.concurrent_index_runs"
   ],
   "note": "For the model of SQLite in WAL mode stated in Model/Concurrent.lean; queries are decorated methods that write nothing and catch nothing."
  },
  {
   "property": "C62",
   "status": "proved",
   "theorems": [
    "Hyperreal.Props.written_rows_read_back",
    "Hyperreal.Props.exported_clusters_read_back",
    "Hyperreal.Props.spreadsheet_row_determines",
    "Hyperreal.Props.exported_listing_read_back",
    "Hyperreal.Props.export_top_read_back",
    "Hyperreal.Props.export_negative_is_all",
    "Hyperreal.Props.exported_sample_reads_back",
    "Hyperreal.Props.long_cell_refused"
   ],
   "note": "For POSIX systems (the files are opened without newline=\"\"), and cells within the limit of the reader; a longer cell makes the file unreadable for csv.reader (long_cell_refused)."
  },
  {
   "property": "C63",
   "status": "partial",
   "theorems": [
    "Hyperreal.Props.rendered_table_shows_dump",
    "Hyperreal.Props.rendered_html_shows_dump",
    "Hyperreal.Props.rendered_html_in_order",
    "Hyperreal.Props.rendered_is_indexed",
    "Hyperreal.Props.sx_sample_exported",
    "Hyperreal.Props.comments_cell_reads_back",
    "Hyperreal.Props.render_unknown_key_leaves_savepoint"
   ],
   "note": "Complete for known keys (pages for names, licenses and tags without < and &, which the template does not escape, C64); with an unknown key the methods raise IndexError and leave their savepoint open (render_unknown_key_leaves_savepoint)."
  },
  {
   "property": "C64",
   "status": "partial",
   "theorems": [
    "Hyperreal.Props.plain_documents_are_text",
    "Hyperreal.Props.titles_and_comments_are_text_partial",
    "Hyperreal.Props.title_is_read",
    "Hyperreal.Props.names_are_not_text",
    "Hyperreal.Props.name_changes_markup",
    "Hyperreal.Props.tweet_name_changes_markup",
    "Hyperreal.Props.tweet_text_changes_markup",
    "Hyperreal.Props.markup_documents_shown"
   ],
   "note": "Holds for plain text corpora and for the titles and comments of posts; refuted for names of StackExchange authors and of Twitter users, which the templates do not escape. Line breaks and indentation of the templates are left out."
  },
  {
   "property": "C65",
   "status": "proved",
   "theorems": [
    "Hyperreal.Props.text_file_to_clusters",
    "Hyperreal.Props.text_file_to_sample"
   ],
   "note": "For lines as in C57 (C57 says what other lines do), commands that no fault interrupts, exact scores, a model of at most 2^62 features, and a reader whose field limit is large enough for the cells."
  },
  {
   "property": "C66",
   "status": "proved",
   "theorems": [
    "Hyperreal.Props.plain_text_finds",
    "Hyperreal.Props.stack_exchange_finds",
    "Hyperreal.Props.dump_to_index",
    "Hyperreal.Props.twittersphere_finds",
    "Hyperreal.Props.twittersphere_opens_iff"
   ],
   "note": "Tokenisers, HTML and URL parsing and date formatting are parameters; the StackExchange tokeniser must give nothing for the empty text, as it does."
  },
  {
   "property": "C67",
   "status": "proved",
   "theorems": [
    "Hyperreal.Props.refine_is_greedy",
    "Hyperreal.Props.refine_nothing_to_do",
    "Hyperreal.Props.refine_keeps_stable",
    "Hyperreal.Props.one_round_moves_all_to_best",
    "Hyperreal.Props.dissolves_weakest"
   ],
   "note": "With the code's scores in exact arithmetic; when the call returns is C28, which new clusters are lost while being stored is C27 (included in the statement)."
  },
  {
   "property": "C68",
   "status": "partial",
   "theorems": [
    "Hyperreal.Props.concurrent_open_partial",
    "Hyperreal.Props.concurrent_open_returned",
    "Hyperreal.Props.concurrent_create_partial",
    "Hyperreal.Props.opening_alone",
    "Hyperreal.Props.second_opener_fails",
    "Hyperreal.Props.second_creator_fails",
    "Hyperreal.Props.opened_unsettled"
   ],
   "note": "Proved: the file is always in one of the four states and moves forward only, and an opening that returns has a file of the current version. Refuted: of two openings of an older index the second one can raise OperationalError (for every version and content), of two openings of a new file the second one can raise NameError, and an opening between the two transactions of another one returns while summaries are out of date."
  },
  {
   "property": "C69",
   "status": "proved",
   "theorems": [
    "Hyperreal.Props.tokens_tokenise",
    "Hyperreal.Props.social_tokens_tokenise",
    "Hyperreal.Props.social_tokens_plain",
    "Hyperreal.Props.spaces_separate_tokens",
    "Hyperreal.Props.cleaned_iff",
    "Hyperreal.Props.plain_text_every_character",
    "Hyperreal.Props.tweet_words_unmarked",
    "Hyperreal.Props.white_space_exact"
   ],
   "note": "str.lower and the positions of word boundaries are parameters; which empty matches next to another match regex.split reports is left open (all possibilities are covered); that spaces separate words assumes a boundary before every space that follows a non-space, as Unicode has it."
  },
  {
   "property": "C70",
   "status": "proved",
   "theorems": [
    "Hyperreal.Props.session_reads",
    "Hyperreal.Props.session_undisturbed",
    "Hyperreal.Props.session_mixes",
    "Hyperreal.Props.views_undisturbed",
    "Hyperreal.Props.graph_undisturbed",
    "Hyperreal.Props.pivot_mixed",
    "Hyperreal.Props.cluster_page_mixed",
    "Hyperreal.Props.index_page_mixed",
    "Hyperreal.Props.question_runs",
    "Hyperreal.Props.questions_happen",
    "Hyperreal.Props.cluster_page_disturbed",
    "Hyperreal.Props.pivot_disturbed"
   ],
   "note": "Contents at rest (no index() between its two commits) for the mixed pages; that only 404 and IndexError occur is for pages without a corpus. The corpus is constant."
  },
  {
   "property": "C71",
   "status": "proved",
   "theorems": [
    "Hyperreal.Props.request_effect",
    "Hyperreal.Props.reading_changes_nothing",
    "Hyperreal.Props.edits_need_post",
    "Hyperreal.Props.other_index_refused",
    "Hyperreal.Props.any_requests_settled"
   ],
   "note": "How CherryPy finds handlers and converts parameters is modelled in Model/Routes (no percent-encoding, no attribute paths of Python objects); int is a parameter."
  },
  {
   "property": "C72",
   "status": "partial",
   "theorems": [
    "Hyperreal.Props.cluster_links_lead",
    "Hyperreal.Props.index_links_lead",
    "Hyperreal.Props.other_links_lead",
    "Hyperreal.Props.cluster_links_exist",
    "Hyperreal.Props.index_links_exist",
    "Hyperreal.Props.existing_pages_shown",
    "Hyperreal.Props.cluster_buttons",
    "Hyperreal.Props.index_buttons",
    "Hyperreal.Props.details_buttons",
    "Hyperreal.Props.search_form_partial",
    "Hyperreal.Props.search_leaves_cluster_zero",
    "Hyperreal.Props.navigation_offered_partial",
    "Hyperreal.Props.navigation_missing"
   ],
   "note": "Proved for all links and buttons. Refuted: the search form on the page of cluster 0 leaves the cluster, and if there is only cluster 0 besides the shown one the page offers no way to it (0 counts as false in the templates)."
  },
  {
   "property": "C73",
   "status": "proved",
   "theorems": [
    "Hyperreal.Props.same_state_same_results",
    "Hyperreal.Props.same_seed_same_results",
    "Hyperreal.Props.drawn_call_is_ordinary"
   ],
   "note": "Python's generator is an arbitrary state machine; the order in which the main process visits sets of the same content is a fixed function (integer sets built the same way), that of the workers is arbitrary."
  },
  {
   "property": "C74",
   "status": "proved",
   "theorems": [
    "Hyperreal.Props.index_same",
    "Hyperreal.Props.index_same_succeeds",
    "Hyperreal.Props.sorted_groups_same"
   ],
   "note": "The order in which SQLite visits the groups is assumed to depend only on which groups there are (it groups along the index on field and value; the statement has no order by)."
  },
  {
   "property": "C75",
   "status": "partial",
   "theorems": [
    "Hyperreal.Props.cluster_page_read",
    "Hyperreal.Props.index_page_read",
    "Hyperreal.Props.details_page_read",
    "Hyperreal.Props.listing_page_read",
    "Hyperreal.Props.cluster_page_links",
    "Hyperreal.Props.index_page_links",
    "Hyperreal.Props.other_page_links",
    "Hyperreal.Props.cluster_page_shown_partial",
    "Hyperreal.Props.index_page_shown_partial",
    "Hyperreal.Props.concordances_fail",
    "Hyperreal.Props.tweet_left_open"
   ],
   "note": "Proved for all pages, as read by an HTML reader in the specification. Refuted: with result_type=concordances there is no page when there are documents, and the markup of a tweet leaves a tag open, so that the end of its item is lost. Line breaks, indentation and the style sheet are left out; script elements do not occur."
  },
  {
   "property": "C76",
   "status": "proved",
   "theorems": [
    "Hyperreal.Props.cluster_page_requests",
    "Hyperreal.Props.index_page_requests",
    "Hyperreal.Props.details_page_requests",
    "Hyperreal.Props.listing_page_requests",
    "Hyperreal.Props.pinned_page_requests"
   ],
   "note": "For pages whose documents of markup have no forms of their own and leave no tag open; the index has at least one field."
  },
  {
   "property": "C77",
   "status": "proved",
   "theorems": [
    "Hyperreal.Props.index_in_flight",
    "Hyperreal.Props.index_keeps_busy"
   ],
   "note": "wait(FIRST_COMPLETED) is assumed to return at least one finished batch; workers is the number in effect (workers or the size of the pool)."
  },
  {
   "property": "C78",
   "status": "proved",
   "theorems": [
    "Hyperreal.Props.dump_to_clusters",
    "Hyperreal.Props.dump_to_sample",
    "Hyperreal.Props.tweets_to_clusters"
   ],
   "note": "Into a new corpus file. The commands run one after the other with no failing statement; scores are exact (C22). A limit on the length of a cell is assumed for the reader only."
  },
  {
   "property": "C79",
   "status": "proved",
   "theorems": [
    "Hyperreal.Props.any_to_graph",
    "Hyperreal.Props.dump_to_graph",
    "Hyperreal.Props.graph_refuses",
    "Hyperreal.Props.graph_labels_refused"
   ],
   "note": "The output is the graph handed to networkx.write_graphml; the GraphML text is not modelled. Weights are rounded by an arbitrary function."
  },
  {
   "property": "C80",
   "status": "proved",
   "theorems": [
    "Hyperreal.Props.serve_accepts",
    "Hyperreal.Props.serve_reads",
    "Hyperreal.Props.serve_settled",
    "Hyperreal.Props.serve_without_documents",
    "Hyperreal.Props.text_file_served",
    "Hyperreal.Props.dump_served",
    "Hyperreal.Props.tweets_served"
   ],
   "note": "Requests are answered one after the other, each on its own connection as in the code; overlapping requests are in C61 and C70. Nothing else changes the file while it is served. The tweet template is here an arbitrary function of the stored tweet; C85 has it. Scores are rounded by an arbitrary monotone function."
  },
  {
   "property": "C81",
   "status": "proved",
   "theorems": [
    "Hyperreal.Props.sites_import",
    "Hyperreal.Props.sites_failure",
    "Hyperreal.Props.sites_to_clusters",
    "Hyperreal.Props.sites_to_sample",
    "Hyperreal.Props.sites_served"
   ],
   "note": "Into a new corpus file, each site once, the commands one after the other. Newer dumps of a site are in C82. A user or tag of the same name on two sites is one value of the index, as in the code."
  },
  {
   "property": "C82",
   "status": "proved",
   "theorems": [
    "Hyperreal.Props.updates_import",
    "Hyperreal.Props.updates_latest",
    "Hyperreal.Props.updates_complete",
    "Hyperreal.Props.updates_stale"
   ],
   "note": "Into a new corpus file. updates_import says exactly what is served; updates_stale is the case of data that a newer dump no longer has (finding 49)."
  },
  {
   "property": "C83",
   "status": "partial",
   "theorems": [
    "Hyperreal.Props.working_dir_temporary_partial",
    "Hyperreal.Props.working_dir_text",
    "Hyperreal.Props.working_dir_path",
    "Hyperreal.Props.working_dir_missing",
    "Hyperreal.Props.working_dir_temporary_once",
    "Hyperreal.Props.working_dir_retry_mixes",
    "Hyperreal.Props.working_dir_retry_positions"
   ],
   "note": "Proved for a new TemporaryDirectory, except that the directory itself is removed. The rest is refuted by the code: a str always fails, a pathlib.Path raises AttributeError after the index is committed and makes the directory unusable, a missing directory fails, and a retry after a failure mixes the rows of the failed call into the new index (finding 50)."
  },
  {
   "property": "C84",
   "status": "partial",
   "theorems": [
    "Hyperreal.Props.rendered_tweets_partial",
    "Hyperreal.Props.tweets_unknown_key_leaves_savepoint"
   ],
   "note": "Complete for stored tweets whose names and texts contain no < (the template escapes nothing, C64) and nothing that ends an attribute; the end of each item is read as part of the unfinished last tag (finding 48). With an unknown key the call raises IndexError and leaves its savepoint open. Line breaks and indentation of the template are left out."
  },
  {
   "property": "C85",
   "status": "partial",
   "theorems": [
    "Hyperreal.Props.text_file_on_screen",
    "Hyperreal.Props.sites_on_screen_partial",
    "Hyperreal.Props.tweets_on_screen_partial",
    "Hyperreal.Props.text_file_later_on_screen",
    "Hyperreal.Props.sites_later_on_screen_partial",
    "Hyperreal.Props.tweets_later_on_screen_partial"
   ],
   "note": "Complete for text files. For posts and tweets only if no name, tag, license or text that the templates put in unescaped is read as markup: otherwise the code refutes it (C63, C64, C75, C84). Bodies of posts are markup and read as such. The theorems with later are the same for documents that changed under an existing model (C86)."
  },
  {
   "property": "C86",
   "status": "proved",
   "theorems": [
    "Hyperreal.Props.text_file_later",
    "Hyperreal.Props.sites_later",
    "Hyperreal.Props.tweets_later"
   ],
   "note": "On any index file in the current format with at most 2^62 features per cluster. A page leaves out the values of its cluster that no document has any more, except if no document has any of them: the statement says so. The commands run one after the other with no failing statement."
  },
  {
   "property": "C87",
   "status": "proved",
   "theorems": [
    "Hyperreal.Props.text_file_searched",
    "Hyperreal.Props.text_file_later_searched",
    "Hyperreal.Props.sites_searched",
    "Hyperreal.Props.sites_later_searched",
    "Hyperreal.Props.tweets_searched",
    "Hyperreal.Props.tweets_later_searched",
    "Hyperreal.Props.index_page_spec"
   ],
   "note": "For texts, on the overview and on the pages of all clusters but 0: a value that is a number is never found (C60), and the form on the page of the cluster 0 is that of the overview (C72, AnswersSearches.zero). Closeness is the share of common documents, rounded by an arbitrary monotone function. How the page looks in a browser is in C75."
  },
  {
   "property": "C88",
   "status": "partial",
   "theorems": [
    "Hyperreal.Props.text_file_searched_on_screen",
    "Hyperreal.Props.text_file_later_searched_on_screen",
    "Hyperreal.Props.sites_searched_on_screen_partial",
    "Hyperreal.Props.sites_later_searched_on_screen_partial",
    "Hyperreal.Props.tweets_searched_on_screen_partial",
    "Hyperreal.Props.tweets_later_searched_on_screen_partial"
   ],
   "note": "Complete for text files. For posts and tweets only if no name, tag, license or text that the templates put in unescaped is read as markup: otherwise the code refutes it (C63, C64, C75, C84). The page without results is that of C75."
  },
  {
   "property": "C89",
   "status": "proved",
   "theorems": [
    "Hyperreal.Props.text_file_details",
    "Hyperreal.Props.sites_details",
    "Hyperreal.Props.tweets_details"
   ],
   "note": "The numbers of positions are stated for text files; for site dumps and tweets only that they are nought without positions (C47 counts them for any corpus). Which statements change the summary: C47. The page is read as in C75, with the values as text."
  },
  {
   "property": "C90",
   "status": "proved",
   "theorems": [
    "Hyperreal.Props.text_file_concordance",
    "Hyperreal.Props.any_index"
   ],
   "note": "The words are asked for as keys of the field \"text\". any_index: with positions, what index leaves is what C36 to C40 need, for any corpus; the other corpora follow from it by windows_exact (C36)."
  },
  {
   "property": "C91",
   "status": "partial",
   "theorems": [
    "Hyperreal.Props.found_passages_render",
    "Hyperreal.Props.text_file_passages_partial",
    "Hyperreal.Props.passage_leaks"
   ],
   "note": "Missing: that a line of which the only passage ends at its first token has the words close together. The code refutes it: a word at the end of the line before can be taken for a neighbour (passage_leaks). Rendered text with overhang at least 1 (C40)."
  },
  {
   "property": "C92",
   "status": "proved",
   "theorems": [
    "Hyperreal.Props.hansard_found",
    "Hyperreal.Props.hansard_calendar",
    "Hyperreal.Props.hansard_rendered",
    "Hyperreal.Props.hansard_passages"
   ],
   "note": "Databases of which every page belongs to a debate, has HTML that can be parsed and a date; a page without one can not be read. Parser, tokeniser and reading of dates are parameters; writing of dates is modelled. The titles are put into the markup as they are (hansard_title_is_markup, compare C64)."
  },
  {
   "property": "C93",
   "status": "partial",
   "theorems": [
    "Hyperreal.Props.trend_adds_up",
    "Hyperreal.Props.posts_by_date",
    "Hyperreal.Props.tweets_by_date",
    "Hyperreal.Props.pages_by_date",
    "Hyperreal.Props.shares_exact",
    "Hyperreal.Props.shares_of_reference",
    "Hyperreal.Props.cluster_trends_partial",
    "Hyperreal.Props.same_label_loses_cluster"
   ],
   "note": "Missing: one line for each cluster if two of them have the same label (their first values). The code refutes it: the script collects them in a dict by label, so a plot has fewer lines than clusters (same_label_loses_cluster). Everything else is complete. Floats are taken as exact numbers; tweets that can be indexed (C48)."
  }
 ]
}