
M.update({
 'C15': ('proved', ['model_always_settled'], 'Over all histories of model edits, including failing calls and worker-pool failures. index() is covered by C13.'),
 'C16': ('proved', ['one_cluster_always'], ''),
 'C17': ('partial', ['atomic_call_partial','atomic_nested','atomic_history_partial','atomic_housekeeping_failure','atomic_never_durable_again','atomic_interrupt_commits'],
   'Proved when the housekeeping succeeds and no KeyboardInterrupt occurs; the other two cases are false of the code (atomic_housekeeping_failure, atomic_never_durable_again, atomic_interrupt_commits).'),
 'C18': ('proved', ['initialise_deals_evenly','initialise_duplicate_field'], 'For distinct field names; a repeated field name raises IntegrityError and changes nothing.'),
 'C19': ('proved', ['delete_clusters_spec','delete_features_spec','merge_clusters_spec','merge_clusters_empty','create_cluster_spec','create_cluster_unknown'], ''),
 'C20': ('proved', ['next_cluster_id_fresh','create_cluster_spec'], ''),
 'C21': ('proved', ['pin_features_spec','pin_clusters_spec','refine_keeps_pins','delete_clusters_spec','delete_features_spec','merge_clusters_spec','create_cluster_spec'], ''),
 'C53': ('proved', ['with_block_discards'], ''),
})

M.update({
 'C06': ('proved', ['index_lookup','index_succeeds'], ''),
 'C07': ('proved', ['index_counts'], ''),
 'C08': ('proved', ['index_keeps_features'], ''),
 'C09': ('proved', ['index_keys'], ''),
 'C10': ('proved', ['index_positions'], ''),
 'C11': ('proved', ['index_batches'], ''),
 'C12': ('partial', ['index_failure_partial','index_corpus_failure','index_late_failure','index_interrupt','index_nested','index_empty'],
   'Holds for every failure up to the first commit; false for failures after it (index_late_failure), and after a KeyboardInterrupt before it the connection stays inside the transaction: nothing that is written through it later is ever committed (index_interrupt).'),
 'C13': ('proved', ['index_readers','pending_repaired'], ''),
 'C14': ('partial', ['index_retry_partial','index_retry_blocked'],
   'Holds when the interruption left no cluster pending; false after a crash between the two commits on an index with a model (index_retry_blocked).'),
 'C47': ('partial', ['field_summary_partial','field_summary_exact','field_summary_stale','value_order'],
   'Holds if and only if no known feature disappeared from the corpus (field_summary_partial is an iff); what is listed in every case is field_summary_exact: values and fields that disappeared are still listed (field_summary_stale).'),
})

M.update({
 'C22': ('proved', ['refine_permutes'], ''),
 'C23': ('proved', ['refine_keeps_pinned'], ''),
 'C24': ('proved', ['refine_restricted'], ''),
 'C25': ('proved', ['refine_keeps_minimum','no_target_no_new','small_cluster_can_vanish'], 'A cluster already below the minimum can be emptied (small_cluster_can_vanish).'),
 'C26': ('proved', ['refine_reaches_target','refine_never_inconsistent','target_of_pinned_is_ignored'], 'A target equal to the number of selected pinned clusters is ignored by the code (target_of_pinned_is_ignored).'),
 'C27': ('partial', ['split_saved_partial','split_lost','split_result_lost'], 'Holds when the refined clusters include the greatest cluster id; otherwise the code deletes new clusters just stored (split_lost, split_result_lost).'),
 'C28': ('partial', ['refine_returns_iff_partial','refine_untested_partial','refine_all_pinned_fails','refine_target_below_pinned_fails','refine_untested_cluster_fails','refine_top_k_zero_fails'], 'False in general; refine_returns_iff_partial says exactly when the call returns, except when clusters are dissolved while group tests may leave some untested: then it returns or raises KeyError and leaves the model as it was (refine_untested_partial), depending on the draws; a failing case is exhibited.'),
 'C29': ('proved', ['contributions_exact','contributions_empty','objective_nonneg'], 'Exact rational arithmetic.'),
 'C30': ('proved', ['proposed_moves_are_best','every_movable_feature_gets_its_best_move'], ''),
})

M.update({
 'C04': ('proved', ['cluster_query_agrees'], ''),
 'C34': ('proved', ['sample_bitmap_exact','sample_bitmap_negative','structured_sample'], ''),
 'C35': ('proved', ['intersections_exact'], ''),
 'C49': ('proved', ['requires_corpus_clean','bundled_corpora_support'], 'isinstance of a runtime checkable protocol is modelled as: inherited, or all members present.'),
 'C51': ('proved', ['cluster_features_listing','top_cluster_features_listing','export_clusters_complete'], ''),
 'C54': ('partial', ['lookups_inverse_partial','slice_lookup_none'], 'Everything but the slice form, which returns None on every index (slice_lookup_none).'),
})

M.update({
 'C31': ('proved', ['pivot_cluster_ranked','pivot_clusters_spec','pivot_top_zero_fails'], 'top_k = 0 raises IndexError (pivot_top_zero_fails).'),
 'C32': ('proved', ['pivot_clusters_spec','pivot_unknown_cluster'], 'For distinct requested ids; an unknown one raises IndexError.'),
 'C33': ('proved', ['cluster_graph_spec','graph_labels_refused','graph_label_fails'], 'Labels without field names raise TypeError on values that are not text (graph_labels_refused).'),
 'C50': ('proved', ['export_rows_aligned'], 'For corpora that render documents in the order of the given keys and do not reuse the names of the added columns.'),
})

M.update({
 'C36': ('proved', ['windows_exact','concordances_join','concordances_numbers_fail','windows_mixed_keys_fail','windows_unknown_fail'], 'For documents whose keys Python can sort (all integers or all strings); mixed keys raise TypeError.'),
 'C37': ('partial', ['passages_partial','passages_two_clauses','passage_final_hit_dropped','passage_leaks','passage_not_pairwise','passage_star_missed'], 'Matches at a single offset can be lost (passage_final_hit_dropped) and matches of the preceding document are used at offset 0 (passage_leaks).'),
 'C38': ('proved', ['passage_spans'], ''),
 'C39': ('partial', ['collocations_partial','collocations_leak','collocations_window_overrun','collocations_mix_fields'], 'Totals and query size exact; the windows are described exactly: they include offset 0 of the next document (collocations_leak), and features of other positional fields are listed (collocations_mix_fields).'),
 'C40': ('partial', ['render_partial','shown_complete','render_sample','render_only_texts','passage_last_token_missing'], 'Complete for overhang >= 1; the right-hand side is one token short (passage_last_token_missing).'),
})

M.update({
 'C43': ('partial', ['open_creates','open_current','open_upgrades','open_refuses_partial','open_atomic','reopen_idempotent','open_halfway_partial','refused_file_touched','refused_wrong_exception','halfway_stale','upgrade_four_pending_refused'], 'Refused files are switched to WAL mode (refused_file_touched), files without version raise NameError (refused_wrong_exception), the migration consists of two transactions (halfway_stale), and files of version 4 left in the middle of an update are not upgraded but fail every time (upgrade_four_pending_refused); the rest of the property is proved, also for files of versions 5 to 9 left in the middle of an update.'),
})

M.update({
 'C44': ('partial', ['round_truncates','round_same_bucket','round_nested','round_monotone_partial','notLater_iff_instant','round_mixed_zones'], 'Everything but order across different timezones, which is not kept (round_mixed_zones).'),
})

M.update({
 'C41': ('partial', ['replace_docs_partial','docs_roundtrip','docs_rendered','replace_docs_silent','replace_docs_interrupted'], 'A replacement that ends is all or nothing, except that an interrupt (KeyboardInterrupt) commits the part loaded so far (replace_docs_interrupted); errors are swallowed (replace_docs_silent).'),
 'C42': ('proved', ['import_doc_ids','import_other_sites','import_twice','import_stores','import_fresh','import_succeeds','import_failed_clean','import_spurious_rows','import_interrupt_then_retry'], 'An import ended by KeyboardInterrupt leaves its transaction open, and the next import commits it (import_interrupt_then_retry).'),
})

M.update({
 'C45': ('proved', ['cluster_ring','cluster_page_unknown'], ''),
 'C46': ('partial', ['cluster_result_type_partial','index_result_type_partial','concordance_not_shown'], 'Refuted for concordances: they are computed and then replaced by rendered documents (concordance_not_shown).'),
 'C48': ('partial', ['plain_text_serves','plain_text_indexes','stack_exchange_indexes','stack_exchange_indexes_iff','twittersphere_indexes_partial','twittersphere_ordinary_tweet_fails'], 'Refuted for Twittersphere: with positions, indexing succeeds only if no optional attribute is missing in any tweet (twittersphere_indexes_partial, an equivalence).'),
 'C55': ('proved', ['cluster_page_spec','index_page_spec','cluster_page_unknown'], ''),
 'C56': ('proved', ['render_docs_html_exact','render_docs_table_exact'], 'For queries of documents of the index.'),
})

M.update({
 'C52': ('proved', ['model_command_creates','model_command_refines','model_command_declined','model_command_duplicate_field','model_clusters_not_ignored'], 'Creation is proved for exact scores; the help text of --clusters (ignored without --restart) is refuted by model_clusters_not_ignored.'),
 'C57': ('partial', ['create_reads_partial','create_cuts_at_comma','create_long_line_ignored','create_keeps_json_escapes'], 'Holds for lines without commas and for documents quoted as in CSV; the help promises that quoted documents are decoded as JSON strings, and they are not (create_keeps_json_escapes); a line is cut at its first comma (create_cuts_at_comma), and a line longer than the csv field limit makes the command do nothing and report success (create_long_line_ignored).'),
 'C58': ('proved', ['requests_always_settled'], ''),
 'C59': ('partial', ['delete_action_partial','create_action_partial','merge_action','pin_action','remove_features_action_partial','pin_features_action','refine_action_partial','recreate_action','failed_request_changed_model','failed_recreate_loses_model','redirects_to_missing'], 'The effects are exact; an error page can follow a committed change (failed_request_changed_model, failed_recreate_loses_model) and a redirect can lead to a cluster that is gone (redirects_to_missing); each theorem says when the target exists.'),
 'C60': ('partial', ['search_finds_text_partial','search_misses_numbers'], 'Holds for text values; other values are never found (search_misses_numbers).'),
})

M.update({
 'C61': ('proved', ['concurrent_serial','concurrent_durable','concurrent_one_writer','concurrent_calls','concurrent_edit','concurrent_query','concurrent_reindex','concurrent_reindex_returns','concurrent_settled','concurrent_edit_runs','concurrent_index_runs'],
   'For the model of SQLite in WAL mode stated in Model/Concurrent.lean; queries are decorated methods that write nothing and catch nothing.'),
})
M.update({
 'C62': ('proved', ['written_rows_read_back','exported_clusters_read_back','spreadsheet_row_determines','exported_listing_read_back','export_top_read_back','export_negative_is_all','exported_sample_reads_back','long_cell_refused'],
   'For POSIX systems (the files are opened without newline=""), and cells within the limit of the reader; a longer cell makes the file unreadable for csv.reader (long_cell_refused).'),
})
M.update({
 'C63': ('partial', ['rendered_table_shows_dump','rendered_html_shows_dump','rendered_html_in_order','rendered_is_indexed','sx_sample_exported','comments_cell_reads_back','render_unknown_key_leaves_savepoint'],
   'Complete for known keys (pages for names, licenses and tags without < and &, which the template does not escape, C64); with an unknown key the methods raise IndexError and leave their savepoint open (render_unknown_key_leaves_savepoint).'),
 'C64': ('partial', ['plain_documents_are_text','titles_and_comments_are_text_partial','title_is_read','names_are_not_text','name_changes_markup','tweet_name_changes_markup','tweet_text_changes_markup','markup_documents_shown'],
   'Holds for plain text corpora and for the titles and comments of posts; refuted for names of StackExchange authors and of Twitter users, which the templates do not escape. Line breaks and indentation of the templates are left out.'),
})
M.update({
 'C65': ('proved', ['text_file_to_clusters','text_file_to_sample'],
   'For lines as in C57 (C57 says what other lines do), commands that no fault interrupts, exact scores, a model of at most 2^62 features, and a reader whose field limit is large enough for the cells.'),
})
M.update({
 'C66': ('proved', ['plain_text_finds','stack_exchange_finds','dump_to_index','twittersphere_finds','twittersphere_opens_iff'],
   'Tokenisers, HTML and URL parsing and date formatting are parameters; the StackExchange tokeniser must give nothing for the empty text, as it does.'),
})
M.update({
 'C67': ('proved', ['refine_is_greedy','refine_nothing_to_do','refine_keeps_stable','one_round_moves_all_to_best','dissolves_weakest'],
   'With the code\'s scores in exact arithmetic; when the call returns is C28, which new clusters are lost while being stored is C27 (included in the statement).'),
})
M['C52']=('proved', ['model_command_creates','model_command_refines','model_command_declined','model_command_duplicate_field','model_clusters_not_ignored','model_command_options','model_command_options_create'], M['C52'][2])
M['C55']=(M['C55'][0], M['C55'][1]+['cluster_page_results','index_page_results'], M['C55'][2])
M.update({
 'C68': ('partial', ['concurrent_open_partial','concurrent_open_returned','concurrent_create_partial','opening_alone','second_opener_fails','second_creator_fails','opened_unsettled'],
   'Proved: the file is always in one of the four states and moves forward only, and an opening that returns has a file of the current version. Refuted: of two openings of an older index the second one can raise OperationalError (for every version and content), of two openings of a new file the second one can raise NameError, and an opening between the two transactions of another one returns while summaries are out of date.'),
})
M.update({
 'C69': ('proved', ['tokens_tokenise','social_tokens_tokenise','social_tokens_plain','spaces_separate_tokens','cleaned_iff','plain_text_every_character','tweet_words_unmarked','white_space_exact'],
   'str.lower and the positions of word boundaries are parameters; which empty matches next to another match regex.split reports is left open (all possibilities are covered); that spaces separate words assumes a boundary before every space that follows a non-space, as Unicode has it.'),
})
M.update({
 'C70': ('proved', ['session_reads','session_undisturbed','session_mixes','views_undisturbed','graph_undisturbed','pivot_mixed','cluster_page_mixed','index_page_mixed','question_runs','questions_happen','cluster_page_disturbed','pivot_disturbed'],
   'Contents at rest (no index() between its two commits) for the mixed pages; that only 404 and IndexError occur is for pages without a corpus. The corpus is constant.'),
})
M.update({
 'C71': ('proved', ['request_effect','reading_changes_nothing','edits_need_post','other_index_refused','any_requests_settled'],
   'How CherryPy finds handlers and converts parameters is modelled in Model/Routes (no percent-encoding, no attribute paths of Python objects); int is a parameter.'),
 'C72': ('partial', ['cluster_links_lead','index_links_lead','other_links_lead','cluster_links_exist','index_links_exist','existing_pages_shown','cluster_buttons','index_buttons','details_buttons','search_form_partial','search_leaves_cluster_zero','navigation_offered_partial','navigation_missing'],
   'Proved for all links and buttons. Refuted: the search form on the page of cluster 0 leaves the cluster, and if there is only cluster 0 besides the shown one the page offers no way to it (0 counts as false in the templates).'),
})
M.update({
 'C73': ('proved', ['same_state_same_results','same_seed_same_results','drawn_call_is_ordinary'],
   'Python\'s generator is an arbitrary state machine; the order in which the main process visits sets of the same content is a fixed function (integer sets built the same way), that of the workers is arbitrary.'),
 'C74': ('proved', ['index_same','index_same_succeeds','sorted_groups_same'],
   'The order in which SQLite visits the groups is assumed to depend only on which groups there are (it groups along the index on field and value; the statement has no order by).'),
})
M.update({
 'C75': ('partial', ['cluster_page_read','index_page_read','details_page_read','listing_page_read','cluster_page_links','index_page_links','other_page_links','cluster_page_shown_partial','index_page_shown_partial','concordances_fail','tweet_left_open'],
   'Proved for all pages, as read by an HTML reader in the specification. Refuted: with result_type=concordances there is no page when there are documents, and the markup of a tweet leaves a tag open, so that the end of its item is lost. Line breaks, indentation and the style sheet are left out; script elements do not occur.'),
 'C76': ('proved', ['cluster_page_requests','index_page_requests','details_page_requests','listing_page_requests','pinned_page_requests'],
   'For pages whose documents of markup have no forms of their own and leave no tag open; the index has at least one field.'),
})
M.update({
 'C77': ('proved', ['index_in_flight','index_keeps_busy'],
   'wait(FIRST_COMPLETED) is assumed to return at least one finished batch; workers is the number in effect (workers or the size of the pool).'),
})
M.update({
 'C78': ('proved', ['dump_to_clusters','dump_to_sample','tweets_to_clusters'],
   'Into a new corpus file. The commands run one after the other with no failing statement; scores are exact (C22). A limit on the length of a cell is assumed for the reader only.'),
})
M.update({
 'C79': ('proved', ['any_to_graph','dump_to_graph','graph_refuses','graph_labels_refused'],
   'The output is the graph handed to networkx.write_graphml; the GraphML text is not modelled. Weights are rounded by an arbitrary function.'),
})
M.update({
 'C80': ('proved', ['serve_accepts','serve_reads','serve_settled','serve_without_documents','text_file_served','dump_served','tweets_served'],
   'Requests are answered one after the other, each on its own connection as in the code; overlapping requests are in C61 and C70. Nothing else changes the file while it is served. The tweet template is here an arbitrary function of the stored tweet; C85 has it. Scores are rounded by an arbitrary monotone function.'),
})
M.update({
 'C81': ('proved', ['sites_import','sites_failure','sites_to_clusters','sites_to_sample','sites_served'],
   'Into a new corpus file, each site once, the commands one after the other. Newer dumps of a site are in C82. A user or tag of the same name on two sites is one value of the index, as in the code.'),
})
M.update({
 'C82': ('proved', ['updates_import','updates_latest','updates_complete','updates_stale'],
   'Into a new corpus file. updates_import says exactly what is served; updates_stale is the case of data that a newer dump no longer has (finding 49).'),
})
M.update({
 'C83': ('partial', ['working_dir_temporary_partial','working_dir_text','working_dir_path','working_dir_missing','working_dir_temporary_once','working_dir_retry_mixes','working_dir_retry_positions'],
   'Proved for a new TemporaryDirectory, except that the directory itself is removed. The rest is refuted by the code: a str always fails, a pathlib.Path raises AttributeError after the index is committed and makes the directory unusable, a missing directory fails, and a retry after a failure mixes the rows of the failed call into the new index (finding 50).'),
})
M.update({
 'C84': ('partial', ['rendered_tweets_partial','tweets_unknown_key_leaves_savepoint'],
   'Complete for stored tweets whose names and texts contain no < (the template escapes nothing, C64) and nothing that ends an attribute; the end of each item is read as part of the unfinished last tag (finding 48). With an unknown key the call raises IndexError and leaves its savepoint open. Line breaks and indentation of the template are left out.'),
})
M.update({
 'C85': ('partial', ['text_file_on_screen','sites_on_screen_partial','tweets_on_screen_partial','text_file_later_on_screen','sites_later_on_screen_partial','tweets_later_on_screen_partial'],
   'Complete for text files. For posts and tweets only if no name, tag, license or text that the templates put in unescaped is read as markup: otherwise the code refutes it (C63, C64, C75, C84). Bodies of posts are markup and read as such. The theorems with later are the same for documents that changed under an existing model (C86).'),
})
M.update({
 'C86': ('proved', ['text_file_later','sites_later','tweets_later'],
   'On any index file in the current format with at most 2^62 features per cluster. A page leaves out the values of its cluster that no document has any more, except if no document has any of them: the statement says so. The commands run one after the other with no failing statement.'),
})
M.update({
 'C87': ('proved', ['text_file_searched','text_file_later_searched','sites_searched','sites_later_searched','tweets_searched','tweets_later_searched','index_page_spec'],
   'For texts, on the overview and on the pages of all clusters but 0: a value that is a number is never found (C60), and the form on the page of the cluster 0 is that of the overview (C72, AnswersSearches.zero). Closeness is the share of common documents, rounded by an arbitrary monotone function. How the page looks in a browser is in C75.'),
})
M.update({
 'C88': ('partial', ['text_file_searched_on_screen','text_file_later_searched_on_screen','sites_searched_on_screen_partial','sites_later_searched_on_screen_partial','tweets_searched_on_screen_partial','tweets_later_searched_on_screen_partial'],
   'Complete for text files. For posts and tweets only if no name, tag, license or text that the templates put in unescaped is read as markup: otherwise the code refutes it (C63, C64, C75, C84). The page without results is that of C75.'),
})
M.update({
 'C89': ('proved', ['text_file_details','sites_details','tweets_details'],
   'The numbers of positions are stated for text files; for site dumps and tweets only that they are nought without positions (C47 counts them for any corpus). Which statements change the summary: C47. The page is read as in C75, with the values as text.'),
})
M.update({
 'C90': ('proved', ['text_file_concordance','any_index'],
   'The words are asked for as keys of the field "text". any_index: with positions, what index leaves is what C36 to C40 need, for any corpus; the other corpora follow from it by windows_exact (C36).'),
})
M.update({
 'C91': ('partial', ['found_passages_render','text_file_passages_partial','passage_leaks'],
   'Missing: that a line of which the only passage ends at its first token has the words close together. The code refutes it: a word at the end of the line before can be taken for a neighbour (passage_leaks). Rendered text with overhang at least 1 (C40).'),
})
M.update({
 'C92': ('proved', ['hansard_found','hansard_calendar','hansard_rendered','hansard_passages'],
   'Databases of which every page belongs to a debate, has HTML that can be parsed and a date; a page without one can not be read. Parser, tokeniser and reading of dates are parameters; writing of dates is modelled. The titles are put into the markup as they are (hansard_title_is_markup, compare C64).'),
})
M.update({
 'C93': ('partial', ['trend_adds_up','posts_by_date','tweets_by_date','pages_by_date','shares_exact','shares_of_reference','cluster_trends_partial','same_label_loses_cluster'],
   'Missing: one line for each cluster if two of them have the same label (their first values). The code refutes it: the script collects them in a dict by label, so a plot has fewer lines than clusters (same_label_loses_cluster). Everything else is complete. Floats are taken as exact numbers; tweets that can be indexed (C48).'),
})
