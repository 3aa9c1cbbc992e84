# Formal model of hyperreal in Lean 4 — design

## Layout

* `properties.jsonl` — the properties, in terms of the API. `MANIFEST.json` — status and exact theorem names.
* `lean/Verif/Model/*` — the model, function by function; every definition cites the `/repo` lines it models and the
  simplification made, if any.
* `lean/Verif/Spec/*` — small specifications written from the English, not from the model (what a top-k set is, what it
  means for an index to describe a corpus, for a model to be settled, for a history to be serial, …).
* `lean/Verif/Lemmas/*` — helper lemmas; nothing in MANIFEST.json points here.
* `lean/Verif/Props/*` — the property theorems, each with a concrete `example` that meets its hypotheses.
* `seeded/LOG.jsonl` — wrong programs tried against the theorems. `AXIOMS.md` — axioms of each theorem.
* `tools/` — generators of properties.jsonl, MANIFEST.json and of the table below.

## Modelling decisions

* **Bitmaps** (`pyroaring.BitMap`): `Finset Nat`; iteration is the ascending list of members; `rank`, indexing, range
  operations are defined from the set. The 32-bit bound of roaring bitmaps is not modelled.
* **Values / document keys**: `Val` = integer or text, with SQLite's ordering (integers before text). Floats, blobs and
  NULL are not modelled, except Python `None` where the code treats it (positions, missing attributes).
* **SQLite tables**: lists of rows; a statement is a function on tables that may fail; primary keys, unique constraints,
  foreign keys, triggers are written out in the statement they concern.
* **Transactions**: a connection has a committed state, a working state, a stack of named savepoints and whether `begin`
  was issued. Other processes, and a restart after a crash, see committed states only. The list of all states committed by
  a call is recorded, so that "after a crash at any point" is "any prefix of that list".
* **Concurrency** (C61): a world of any number of connections (processes) on one file, WAL snapshot isolation: a reader
  keeps the snapshot of its first read, one connection holds the write lock, an upgrade from a stale snapshot fails with
  BUSY_SNAPSHOT, waiting may end in BUSY, a process may die at any moment. Each statement is one step; every interleaving is
  a path of the transition relation.
* **Randomness, iteration order of sets, completion order of workers, group order of SQL**: explicit parameters
  (arbitrary functions, permutations, booleans), universally quantified in the theorems.
* **Floats**: where only comparison matters scores are elements of an arbitrary linear order; where the formula matters
  exact rationals; for pivoting an arbitrary monotone rounding on top of them. `math.ceil` of a float product in the plan
  of refinement is a parameter with the bounds that any rounding gives.
* **Exceptions**: `Except Err`; the class of the exception is kept where the property mentions it. `KeyboardInterrupt` is a
  separate outcome, possible at any statement.

## Trusted base

* Lean's kernel (4.33.0). Axioms: `propext`, `Classical.choice`, `Quot.sound` only (AXIOMS.md lists them per theorem).
  No axioms of our own, no compiled evaluation; examples are checked by `decide`, `decide +kernel` (kernel reduction), `rfl`
  or proof.
* That the definitions in `Model/` say what the cited lines of `/repo` do. Nothing was run: the model was written by
  reading. This includes our reading of the semantics of SQLite (rollback journal and WAL visibility, savepoints,
  constraint checks, `insert or ignore`, group by), of Python (exceptions, generators, `heapq`, `csv`, `zip`, slicing, sort
  of mixed types), of pyroaring and of `concurrent.futures`.
* That the statements in `Spec/` and `Props/` say what the English says.

## What is modelled

| file | modelled | not modelled |
|---|---|---|
| `utilities.py` | bstm, compute_bitslice, weight_bitslice, expand_positions_window, round_datetime (precisions, iso format components), the tokenisers with their regular expressions and the presentable form of tokens (`Model/Tokens`) | Unicode character classes beyond what the tokenisers' patterns need (parameters of the theorems) |
| `db_utilities.py` | connection settings that matter (isolation level off, WAL, foreign keys), savepoints, transactions | pyroaring serialisation, dict row factory |
| `_index_schema.py` | tables, keys, triggers, every migration step, migrate | pragma tuning (cache size, synchronous) |
| `index.py` | the `atomic` and `requires_corpus` decorators, `__enter__/__exit__`, opening, index() with its workers and merge, lookups, field intersections, all model edits, housekeeping, refinement (scoring, planning, moving, splitting, dissolving, write back, id remapping), pivot, cluster graph, cluster queries, sampling, export, docs/rendering order, concordances, windows, passages, collocations | logging, process pool plumbing (pickling, spawning), temporary directory handling, `_or_partition_positions` (unfinished, returns None) |
| `corpus.py` | PlainTextSqliteCorpus (all), StackExchangeCorpus (import, docs, index, ids, table and HTML rendering), TwittersphereCorpus (docs, index, HTML of a tweet), the HTML templates up to line breaks and indentation | the sanitiser of post bodies (`lxml` cleaner, a parameter), the XML parser itself (rows are given as attribute dictionaries), tweet JSON parsing |
| `cli.py` | plaintext-corpus create (csv reader automaton), index, sample, serve; stackexchange-corpus add-site, index, sample, serve; twittersphere-corpus index, serve; model; export clusters, export graph; serve; each on its files (`Model/Pipeline`, `Model/Serve`) | click argument parsing, process start, web server start |
| `server.py` | cluster and index pages (what they query and pass to the template), all POST actions, search, redirects, cluster navigation, opening and closing the index around each request (`Model/Serve`), the mapping of request paths to handlers, every link and form of the pages and the whole text of the templates (`Model/Routes`, `Model/Links`, `Model/Pages`) | line breaks, indentation and the style sheet of the templates, static files, sessions and threads of cherrypy |
| `examples/australian_federal_hansard/hansard_corpus.py` | HansardCorpus (docs, index, keys, HTML) (`Model/Hansard`) | the HTML parser, tokeniser and `date.fromisoformat` (parameters), the script that starts indexing and the server; the download script |
| `examples/stackoverflow/visuals.py` | the shares, labels and lines of its plots (`Model/Trends`) | drawing, dates on the axis, tables, the choice of clusters |

## Status per property

Generated by `tools/design.py`.

<!-- table -->
| id | property | model | how it is proved | status | theorems (namespace `Hyperreal.Props`) |
|---|---|---|---|---|---|
| C01 | bstm returns the exact top-k, keeping all ties of the lowest rank | `Model/Utilities` `bstm` | invariant of the loop over the slices (kept / candidate sets split by the weight prefix); uniqueness of the top-k set by counting | proved | `bstm_exact_topK`, `topK_unique` |
| C02 | compute_bitslice counts exactly | `Model/Utilities` `computeBitslice` | invariant of the carry chain: slice i of the state = bit i of the running count | proved | `compute_bitslice_counts` |
| C03 | weight_bitslice inverts compute_bitslice | `Model/Utilities` `weightBitslice` | sum over slices of powers of two, bit decomposition of naturals | proved | `weight_bitslice_exact`, `weight_compute_roundtrip` |
| C04 | cluster_query agrees with cluster_docs and per-feature queries | `Model/Store`, `Model/Utilities` | corollary of the settled-model invariant (C15) and C02 | proved | `cluster_query_agrees` |
| C05 | Position windows cover the neighbourhood and stay inside the document | `Model/Positions` `expandWindow` | induction over the window steps gives the exact set; counterexample computed from the model | partial — The stated property is false of the code (expand_window_leaks: the first position of the next document leaks in); the exact behaviour is proved. | `expand_window_partial`, `expand_window_exact`, `expand_window_leaks`, `expand_window_zero` |
| C06 | Feature lookups return exactly the documents containing the value | `Model/Indexing` | induction over documents inside a batch, over batches, over groups of the merge; permutations for every schedule-dependent order | proved | `index_lookup`, `index_succeeds` |
| C07 | Stored document counts are the true cardinalities | `Model/Indexing` | as C06, cardinality of the merged bitmap against the stored count | proved | `index_counts` |
| C08 | Reindexing preserves feature ids and the model's assignment | `Model/Indexing` | insert-or-ignore / update lemmas over the feature table; frame of the model tables | proved | `index_keeps_features` |
| C09 | Document ids and keys are a bijection | `Model/Indexing` | enumeration of keys is injective; batches concatenate to the enumeration | proved | `index_keys` |
| C10 | Position index round-trips to (document, offset) | `Model/Indexing` | segment positions are consecutive blocks; tiles lemma (`Lemmas/Tiles`) inverts the position map | proved | `index_positions` |
| C11 | Batch dispatch covers every document exactly once | `Model/Indexing` `dispatch` | induction on the key stream with the pending list generalised, for every choice of finished futures | proved | `index_batches` |
| C12 | A failing index() leaves the previous index intact | `Model/Indexing` `indexCall` (statement list with commit points, failure or interrupt at any step) | case analysis over the failing step, by induction over the statement list; refutations by a constructed corpus | partial — Holds for every failure up to the first commit; false for failures after it (index_late_failure), and after a KeyboardInterrupt before it the connection stays inside the transaction: nothing that is written through it later is ever committed (index_interrupt). | `index_failure_partial`, `index_corpus_failure`, `index_late_failure`, `index_interrupt`, `index_nested`, `index_empty` |
| C13 | Reindexing is crash-atomic and readers see only complete indexes | `Model/Indexing` | the list of committed states of a call is computed symbolically; every prefix of it (crash point) is old or new index | proved | `index_readers`, `pending_repaired` |
| C14 | index() can be retried after an interrupted run | `Model/Indexing` | two calls composed, the second from any committed state of the first | partial — Holds when the interruption left no cluster pending; false after a crash between the two commits on an index with a model (index_retry_blocked). | `index_retry_partial`, `index_retry_blocked` |
| C15 | Cluster summaries are exact after every operation | `Model/Store`, `Model/Atomic`, `Model/Refine` | inductive invariant over arbitrary operation histories (`Spec.Settled`) | proved — Over all histories of model edits, including failing calls and worker-pool failures. index() is covered by C13. | `model_always_settled` |
| C16 | Every feature is in at most one cluster | `Model/Store` | same invariant, uniqueness part | proved | `one_cluster_always` |
| C17 | Decorated methods are all-or-nothing, at any nesting depth | `Model/Atomic` | induction over programs (nested calls) with the savepoint stack generalised; failure and interrupt at any statement | partial — Proved when the housekeeping succeeds and no KeyboardInterrupt occurs; the other two cases are false of the code (atomic_housekeeping_failure, atomic_never_durable_again, atomic_interrupt_commits). | `atomic_call_partial`, `atomic_nested`, `atomic_history_partial`, `atomic_housekeeping_failure`, `atomic_never_durable_again`, `atomic_interrupt_commits` |
| C18 | initialise_clusters deals the selected features evenly | `Model/Store` `initialiseClusters` | round-robin lemmas, for every shuffle | proved — For distinct field names; a repeated field name raises IntegrityError and changes nothing. | `initialise_deals_evenly`, `initialise_duplicate_field` |
| C19 | Model edits act like the obvious map operations | `Model/Store` | each method refines an update of the assignment `Feature → Option Cluster` | proved | `delete_clusters_spec`, `delete_features_spec`, `merge_clusters_spec`, `merge_clusters_empty`, `create_cluster_spec`, `create_cluster_unknown` |
| C20 | New cluster ids are fresh | `Model/Store` | maximum lemmas | proved | `next_cluster_id_fresh`, `create_cluster_spec` |
| C21 | Pins change only pins and survive other edits | `Model/Store`, `Model/Refine` | frame conditions of each method on the pin columns | proved | `pin_features_spec`, `pin_clusters_spec`, `refine_keeps_pins`, `delete_clusters_spec`, `delete_features_spec`, `merge_clusters_spec`, `create_cluster_spec` |
| C22 | Refinement permutes, never loses, features | `Model/Refine` | the move loop permutes the list of (feature, cluster) pairs; induction over iterations, groups and moves | proved | `refine_permutes` |
| C23 | Pinned features and clusters are not touched by refinement | `Model/Refine` | invariant of the same loop | proved | `refine_keeps_pinned` |
| C24 | Restricted refinement leaves other clusters alone | `Model/Refine` | frame: writes only the selected clusters | proved | `refine_restricted` |
| C25 | Refinement never shrinks a cluster below the minimum | `Model/Refine` | invariant of the move loop on group sizes | proved — A cluster already below the minimum can be emptied (small_cluster_can_vanish). | `refine_keeps_minimum`, `no_target_no_new`, `small_cluster_can_vanish` |
| C26 | Refinement reaches the requested number of clusters | `Model/Refine` | count of groups after planning splits / dissolving; pure counting | proved — A target equal to the number of selected pinned clusters is ignored by the code (target_of_pinned_is_ignored). | `refine_reaches_target`, `refine_never_inconsistent`, `target_of_pinned_is_ignored` |
| C27 | Split results are saved under fresh ids | `Model/Refine` | id remapping followed symbolically through the write-back; counterexample when the greatest id is outside the selection | partial — Holds when the refined clusters include the greatest cluster id; otherwise the code deletes new clusters just stored (split_lost, split_result_lost). | `split_saved_partial`, `split_lost`, `split_result_lost` |
| C28 | Refinement does not fail on valid models | `Model/Refine` | totality of each phase under stated conditions; counterexamples for the others | partial — False in general; refine_returns_iff_partial says exactly when the call returns, except when clusters are dissolved while group tests may leave some untested: then it returns or raises KeyError and leaves the model as it was (refine_untested_partial), depending on the draws; a failing case is exhibited. | `refine_returns_iff_partial`, `refine_untested_partial`, `refine_all_pinned_fails`, `refine_target_below_pinned_fails`, `refine_untested_cluster_fails`, `refine_top_k_zero_fails` |
| C29 | Feature contributions are exact objective differences | `Model/Scoring` | set algebra over exact rationals | proved — Exact rational arithmetic. | `contributions_exact`, `contributions_empty`, `objective_nonneg` |
| C30 | Move selection picks the best tested cluster | `Model/Scoring`, `Model/Refine` | maximum of a fold; permutation invariance of the tested order | proved | `proposed_moves_are_best`, `every_movable_feature_gets_its_best_move` |
| C31 | Pivot ranking within a cluster is the exact top-k despite pruning | `Model/Pivot` | monotone rounding: the pruning bound never discards a top-k member; heap model | proved — top_k = 0 raises IndexError (pivot_top_zero_fails). | `pivot_cluster_ranked`, `pivot_clusters_spec`, `pivot_top_zero_fails` |
| C32 | Pivot covers every overlapping cluster once, independent of scheduling | `Model/Pivot` | permutation invariance over futures | proved — For distinct requested ids; an unknown one raises IndexError. | `pivot_clusters_spec`, `pivot_unknown_cluster` |
| C33 | The cluster graph has an edge exactly for overlapping clusters | `Model/Pivot` | double loop over pairs | proved — Labels without field names raise TypeError on values that are not text (graph_labels_refused). | `cluster_graph_spec`, `graph_labels_refused`, `graph_label_fails` |
| C34 | Sampling is without replacement and within bounds | `Model/Query` | list and set lemmas for any random choice function | proved | `sample_bitmap_exact`, `sample_bitmap_negative`, `structured_sample` |
| C35 | Field intersections are aligned and exact | `Model/Query` | pointwise | proved | `intersections_exact` |
| C36 | Concordance windows show each match with its neighbourhood | `Model/Positions` | tiles lemma and window lemma | proved — For documents whose keys Python can sort (all integers or all strings); mixed keys raise TypeError. | `windows_exact`, `concordances_join`, `concordances_numbers_fail`, `windows_mixed_keys_fail`, `windows_unknown_fail` |
| C37 | Passage search returns only and all documents with a matching passage | `Model/Positions` | exact characterisation of the scan over sorted hits; counterexamples | partial — Matches at a single offset can be lost (passage_final_hit_dropped) and matches of the preceding document are used at offset 0 (passage_leaks). | `passages_partial`, `passages_two_clauses`, `passage_final_hit_dropped`, `passage_leaks`, `passage_not_pairwise`, `passage_star_missed` |
| C38 | Passage scores describe real spans | `Model/Positions` | invariant of the scan | proved | `passage_spans` |
| C39 | Collocation counts are within the chosen field | `Model/Positions` | exact counts for a field; counterexamples | partial — Totals and query size exact; the windows are described exactly: they include offset 0 of the next document (collocations_leak), and features of other positional fields are listed (collocations_mix_fields). | `collocations_partial`, `collocations_leak`, `collocations_window_overrun`, `collocations_mix_fields` |
| C40 | Rendered passages contain the whole passage | `Model/Positions` | slices of token lists | partial — Complete for overhang >= 1; the right-hand side is one token short (passage_last_token_missing). | `render_partial`, `shown_complete`, `render_sample`, `render_only_texts`, `passage_last_token_missing` |
| C41 | replace_docs is all-or-nothing and round-trips | `Model/PlainText` | transaction over the corpus table, failure at any document | partial — A replacement that ends is all or nothing, except that an interrupt (KeyboardInterrupt) commits the part loaded so far (replace_docs_interrupted); errors are swallowed (replace_docs_silent). | `replace_docs_partial`, `docs_roundtrip`, `docs_rendered`, `replace_docs_silent`, `replace_docs_interrupted` |
| C42 | StackExchange import keeps document ids stable and is idempotent | `Model/StackExchange` | upsert lemmas, induction over the imported rows | proved — An import ended by KeyboardInterrupt leaves its transaction open, and the next import commits it (import_interrupt_then_retry). | `import_doc_ids`, `import_other_sites`, `import_twice`, `import_stores`, `import_fresh`, `import_succeeds`, `import_failed_clean`, `import_spurious_rows`, `import_interrupt_then_retry` |
| C43 | Schema migration is decided by version, atomic and idempotent | `Model/Migrate` | decision logic by cases on the version; the statement list executed symbolically; crash after any statement | partial — Refused files are switched to WAL mode (refused_file_touched), files without version raise NameError (refused_wrong_exception), the migration consists of two transactions (halfway_stale), and files of version 4 left in the middle of an update are not upgraded but fail every time (upgrade_four_pending_refused); the rest of the property is proved, also for files of versions 5 to 9 left in the middle of an update. | `open_creates`, `open_current`, `open_upgrades`, `open_refuses_partial`, `open_atomic`, `reopen_idempotent`, `open_halfway_partial`, `refused_file_touched`, `refused_wrong_exception`, `halfway_stale`, `upgrade_four_pending_refused` |
| C44 | Datetime rounding is a nested truncation | `Model/Datetime` | lexicographic order on components; instants over timezones by arithmetic | partial — Everything but order across different timezones, which is not kept (round_mixed_zones). | `round_truncates`, `round_same_bucket`, `round_nested`, `round_monotone_partial`, `notLater_iff_instant`, `round_mixed_zones` |
| C45 | Cluster navigation is a ring | `Model/Server` | list rotation | proved | `cluster_ring`, `cluster_page_unknown` |
| C46 | The web views return the requested result type | `Model/Server` | case analysis of the request; counterexample | partial — Refuted for concordances: they are computed and then replaced by rendered documents (concordance_not_shown). | `cluster_result_type_partial`, `index_result_type_partial`, `concordance_not_shown` |
| C47 | The field summary describes the indexed corpus | `Model/Indexing` | group-by lemmas | partial — Holds if and only if no known feature disappeared from the corpus (field_summary_partial is an iff); what is listed in every case is field_summary_exact: values and fields that disappeared are still listed (field_summary_stale). | `field_summary_partial`, `field_summary_exact`, `field_summary_stale`, `value_order` |
| C48 | Every bundled corpus can be indexed with positions | `Model/PlainText`, `Model/StackExchange`, `Model/Twittersphere` | each corpus satisfies `Indexable`; refutation for tweets | partial — Refuted for Twittersphere: with positions, indexing succeeds only if no optional attribute is missing in any tweet (twittersphere_indexes_partial, an equivalence). | `plain_text_serves`, `plain_text_indexes`, `stack_exchange_indexes`, `stack_exchange_indexes_iff`, `twittersphere_indexes_partial`, `twittersphere_ordinary_tweet_fails` |
| C49 | Corpus-dependent methods fail cleanly without a suitable corpus | `Model/CorpusCheck` (protocol members, the seven methods, order of the decorators) | member lists against a separate table of needs; `atomic_call_partial` for the method whose check is inside the savepoint | proved — isinstance of a runtime checkable protocol is modelled as: inherited, or all members present. | `requires_corpus_clean`, `bundled_corpora_support` |
| C50 | Exported sample rows are aligned | `Model/Query` | zip lemmas | proved — For corpora that render documents in the order of the given keys and do not reuse the names of the added columns. | `export_rows_aligned` |
| C51 | Cluster listings are ranked and truncated correctly | `Model/Query`, `Model/Cli` | sortedness and truncation of a merge sort | proved | `cluster_features_listing`, `top_cluster_features_listing`, `export_clusters_complete` |
| C52 | The model command creates, restarts or refines as documented | `Model/Cli` | case analysis over the flags, composed with C18, C22–C26 | proved — Creation is proved for exact scores; the help text of --clusters (ignored without --restart) is refuted by model_clusters_not_ignored. | `model_command_creates`, `model_command_refines`, `model_command_declined`, `model_command_duplicate_field`, `model_clusters_not_ignored`, `model_command_options`, `model_command_options_create` |
| C53 | Work done inside a with block is private and discarded | `Model/Atomic` | stack discipline of nested `with` | proved | `with_block_discards` |
| C54 | Features can be looked up by id, by key and by range | `Model/Query` | uniqueness of keys | partial — Everything but the slice form, which returns None on every index (slice_lookup_none). | `lookups_inverse_partial`, `slice_lookup_none` |
| C55 | The web views show the documents and clusters asked for | `Model/Server` | composition with C01, C04, C31 | proved | `cluster_page_spec`, `index_page_spec`, `cluster_page_unknown`, `cluster_page_results`, `index_page_results` |
| C56 | Rendered documents are paired with their ids and keys | `Model/Query` | zip lemmas over sorted keys | proved — For queries of documents of the index. | `render_docs_html_exact`, `render_docs_table_exact` |
| C57 | plaintext-corpus create keeps one document per line | `Model/PlainText`, `Model/Cli` (csv reader automaton) | induction over characters with the automaton state generalised | partial — Holds for lines without commas and for documents quoted as in CSV; the help promises that quoted documents are decoded as JSON strings, and they are not (create_keeps_json_escapes); a line is cut at its first comma (create_cuts_at_comma), and a line longer than the csv field limit makes the command do nothing and report success (create_long_line_ignored). | `create_reads_partial`, `create_cuts_at_comma`, `create_long_line_ignored`, `create_keeps_json_escapes` |
| C58 | Sequences of web requests keep the model settled | `Model/WebActions` | C15 over request sequences | proved | `requests_always_settled` |
| C59 | Web actions do exactly what they say and lead to an existing page | `Model/WebActions` | composition of C18–C24 with the redirect logic | partial — The effects are exact; an error page can follow a committed change (failed_request_changed_model, failed_recreate_loses_model) and a redirect can lead to a cluster that is gone (redirects_to_missing); each theorem says when the target exists. | `delete_action_partial`, `create_action_partial`, `merge_action`, `pin_action`, `remove_features_action_partial`, `pin_features_action`, `refine_action_partial`, `recreate_action`, `failed_request_changed_model`, `failed_recreate_loses_model`, `redirects_to_missing` |
| C60 | The search finds every feature of a field | `Model/WebActions` | filter lemmas; counterexample | partial — Holds for text values; other values are never found (search_misses_numbers). | `search_finds_text_partial`, `search_misses_numbers` |
| C61 | Concurrent processes behave as if they ran one after another | `Model/Concurrent`: any number of connections, WAL snapshots, one write lock, BUSY errors, crashes, any interleaving | forward simulation to a serial log of committed transactions, invariant over reachable worlds | proved — For the model of SQLite in WAL mode stated in Model/Concurrent.lean; queries are decorated methods that write nothing and catch nothing. | `concurrent_serial`, `concurrent_durable`, `concurrent_one_writer`, `concurrent_calls`, `concurrent_edit`, `concurrent_query`, `concurrent_reindex`, `concurrent_reindex_returns`, `concurrent_settled`, `concurrent_edit_runs`, `concurrent_index_runs` |
| C62 | Exported spreadsheets read back exactly | `Model/Csv` (writer and reader automaton), `Model/Query` | induction over the characters with the reader's state generalised, then over cells and rows; composition with C51 and C50 | proved — For POSIX systems (the files are opened without newline=""), and cells within the limit of the reader; a longer cell makes the file unreadable for csv.reader (long_cell_refused). | `written_rows_read_back`, `exported_clusters_read_back`, `spreadsheet_row_determines`, `exported_listing_read_back`, `export_top_read_back`, `export_negative_is_all`, `exported_sample_reads_back`, `long_cell_refused` |
| C63 | Rendered StackExchange posts show the post's own data | `Model/SxRender` (queries, template, JSON writer, table rows) on `Model/StackExchange` | tables after an import (C42) computed, JSON reader and HTML reader (that of C75) in the specification, induction over characters and comments; composition with C50 | partial — Complete for known keys (pages for names, licenses and tags without < and &, which the template does not escape, C64); with an unknown key the methods raise IndexError and leave their savepoint open (render_unknown_key_leaves_savepoint). | `rendered_table_shows_dump`, `rendered_html_shows_dump`, `rendered_html_in_order`, `rendered_is_indexed`, `sx_sample_exported`, `comments_cell_reads_back`, `render_unknown_key_leaves_savepoint` |
| C64 | Text of documents is shown as text in web pages | `Model/SxRender`, `Model/Html` | a tag scanner in the specification; closed texts compose; counterexamples | partial — Holds for plain text corpora and for the titles and comments of posts; refuted for names of StackExchange authors and of Twitter users, which the templates do not escape. Line breaks and indentation of the templates are left out. | `plain_documents_are_text`, `titles_and_comments_are_text_partial`, `title_is_read`, `names_are_not_text`, `name_changes_markup`, `tweet_name_changes_markup`, `tweet_text_changes_markup`, `markup_documents_shown` |
| C65 | The command line leads from a text file to the exported model and sample | `Model/Pipeline`: every command opens its files, works and ends | composition of C57, C48, C07, C52, C34, C50 and C62; counting lemmas between lines and bitmaps | proved — For lines as in C57 (C57 says what other lines do), commands that no fault interrupts, exact scores, a model of at most 2^62 features, and a reader whose field limit is large enough for the cells. | `text_file_to_clusters`, `text_file_to_sample` |
| C66 | Documents of the bundled corpora are found under their own fields | `Model/PlainText`, `Model/StackExchange`, `Model/Twittersphere`, `Model/Indexing` | inductive specification of what a row shows; the mapping `index` builds characterised by membership; composition with C06, C09 and, for dumps, C42 | proved — Tokenisers, HTML and URL parsing and date formatting are parameters; the StackExchange tokeniser must give nothing for the empty text, as it does. | `plain_text_finds`, `stack_exchange_finds`, `dump_to_index`, `twittersphere_finds`, `twittersphere_opens_iff` |
| C67 | Refinement moves features greedily to their best clusters and dissolves the weakest ones | `Model/Refine`, `Model/Scoring`; rounds specified in `Spec/Greedy` | simulation of every iteration by a round (induction over the visits of features), induction over iterations and splits; composition with C27 and C30 | proved — With the code's scores in exact arithmetic; when the call returns is C28, which new clusters are lost while being stored is C27 (included in the statement). | `refine_is_greedy`, `refine_nothing_to_do`, `refine_keeps_stable`, `one_round_moves_all_to_best`, `dissolves_weakest` |
| C68 | Several processes opening one file do no harm to it or to each other | `Model/ConcurrentOpen`: `Index.__init__` and `migrate` as SQL commands on the worlds of `Model/Concurrent` | regime invariant on contents and on what each thread has read (`RegimeOn`), one lemma per transaction; the refutations are explicit runs; alone the commands equal the model of C43 | partial — Proved: the file is always in one of the four states and moves forward only, and an opening that returns has a file of the current version. Refuted: of two openings of an older index the second one can raise OperationalError (for every version and content), of two openings of a new file the second one can raise NameError, and an opening between the two transactions of another one returns while summaries are out of date. | `concurrent_open_partial`, `concurrent_open_returned`, `concurrent_create_partial`, `opening_alone`, `second_opener_fails`, `second_creator_fails`, `opened_unsettled` |
| C69 | The tokenisers lose no words, invent none, and split where words end | `Model/Tokens`: translation of quotes, cleaning as a scanner, the matches of the tokeniser as a relation | induction over the matches with positions; cleaning equals an inductive specification by induction over the text; composition with C66 | proved — str.lower and the positions of word boundaries are parameters; which empty matches next to another match regex.split reports is left open (all possibilities are covered); that spaces separate words assumes a boundary before every space that follows a non-space, as Unicode has it. | `tokens_tokenise`, `social_tokens_tokenise`, `social_tokens_plain`, `spaces_separate_tokens`, `cleaned_iff`, `plain_text_every_character`, `tweet_words_unmarked`, `white_space_exact` |
| C70 | Queries and pages that read the file several times use whole contents of their time, and one content when nobody edits | `Model/Session`: code that asks for the content several times; the questions are transactions of `Model/Concurrent` | a session's outcome depends on the answers only; answers by C61; `Mixes` (an outcome from arbitrary contents of a kind) inverted step by step; soundness of the pivot's second job with an arbitrary bound; explicit histories for the refutations | proved — Contents at rest (no index() between its two commits) for the mixed pages; that only 404 and IndexError occur is for pages without a corpus. The corpus is constant. | `session_reads`, `session_undisturbed`, `session_mixes`, `views_undisturbed`, `graph_undisturbed`, `pivot_mixed`, `cluster_page_mixed`, `index_page_mixed`, `question_runs`, `questions_happen`, `cluster_page_disturbed`, `pivot_disturbed` |
| C71 | Whatever is requested from the web server, only POST actions change the index, and it stays settled | `Model/Routes`: URLs as texts, dispatch, conversion of parameters, redirects; the actions of `Model/WebActions` | case analysis over the handlers; composition with C58 | proved — How CherryPy finds handlers and converts parameters is modelled in Model/Routes (no percent-encoding, no attribute paths of Python objects); int is a parameter. | `request_effect`, `reading_changes_nothing`, `edits_need_post`, `other_index_refused`, `any_requests_settled` |
| C72 | Links and forms of the web pages lead where they say | `Model/Links`: the links and forms of the templates as URLs and parameters; pages and meanings named in `Spec/Links` | the texts the templates make are taken apart again (`Shape`), redirects followed; composition with C55; the refutations are explicit models | partial — Proved for all links and buttons. Refuted: the search form on the page of cluster 0 leaves the cluster, and if there is only cluster 0 besides the shown one the page offers no way to it (0 counts as false in the templates). | `cluster_links_lead`, `index_links_lead`, `other_links_lead`, `cluster_links_exist`, `index_links_exist`, `existing_pages_shown`, `cluster_buttons`, `index_buttons`, `details_buttons`, `search_form_partial`, `search_leaves_cluster_zero`, `navigation_offered_partial`, `navigation_missing` |
| C73 | Same seed, same calls, same model | `Model/Seeded`: a generator as a state machine; initialise_clusters and refine_clusters draw from it, workers have orders of their own | the plan does not depend on the workers (fold over permutations, sets of checks), then induction over the session; every drawn plan is one of the plans of C22 with some `Chance` | proved — Python's generator is an arbitrary state machine; the order in which the main process visits sets of the same content is a fixed function (integer sets built the same way), that of the workers is arbitrary. | `same_state_same_results`, `same_seed_same_results`, `drawn_call_is_ordinary` |
| C74 | What index() builds does not depend on batch size, number of workers or timing | `indexCall` of C06 with two configurations and schedules | both first transactions end in `reindexed`, whose groups are determined by the corpus; housekeeping commutes with forgetting the position tables | proved — The order in which SQLite visits the groups is assumed to depend only on which groups there are (it groups along the index on field and value; the statement has no order by). | `index_same`, `index_same_succeeds`, `sorted_groups_same` |
| C75 | Every page is its template with the data shown as text | `Model/Pages`: every template as text with escaping; the tags of the pages in `Spec/PageTags`, an HTML reader in `Spec/Pages` | the reader run on a template with holes, checked by the kernel once per template, and a lemma that escaped values in holes commute with reading; texts that leave no tag open compose | partial — Proved for all pages, as read by an HTML reader in the specification. Refuted: with result_type=concordances there is no page when there are documents, and the markup of a tweet leaves a tag open, so that the end of its item is lost. Line breaks, indentation and the style sheet are left out; script elements do not occur. | `cluster_page_read`, `index_page_read`, `details_page_read`, `listing_page_read`, `cluster_page_links`, `index_page_links`, `other_page_links`, `cluster_page_shown_partial`, `index_page_shown_partial`, `concordances_fail`, `tweet_left_open` |
| C76 | What can be sent from a page is exactly what its buttons and its search form say | the pages of C75; forms and what a browser sends in `Spec/PageForms` | the forms are read from the tags by folding; what each form sends is computed and matched with the buttons of C72 | proved — For pages whose documents of markup have no forms of their own and leave no tag open; the index has at least one field. | `cluster_page_requests`, `index_page_requests`, `details_page_requests`, `listing_page_requests`, `pinned_page_requests` |
| C77 | index() limits the batches in flight and does not read ahead | `dispatch` of C11: the history of the loop as a list of events | induction over the keys with the pending batch and the futures generalised, for every beginning of the history | proved — wait(FIRST_COMPLETED) is assumed to return at least one finished batch; workers is the number in effect (workers or the size of the pool). | `index_in_flight`, `index_keeps_busy` |
| C78 | A data dump or a collection of tweets goes through the command line to tables that say what it contains | `Model/Pipeline`: add-site, index, model, export clusters and sample as processes on files | for any corpus: what index leaves (C06), what model does (C52), what the files say when read (C62); then what the dump shows (C66) and what is rendered (C63) | proved — Into a new corpus file. The commands run one after the other with no failing statement; scores are exact (C22). A limit on the length of a cell is assumed for the reader only. | `dump_to_clusters`, `dump_to_sample`, `tweets_to_clusters` |
| C79 | The graph exported on the command line is the graph of the model of the corpus | `exportGraph` of `Model/Pipeline` on the graph of C33 | the graph of the index (C33) translated to documents and values by what index and model leave (C78); counting is invariant under renaming documents | proved — The output is the graph handed to networkx.write_graphml; the GraphML text is not modelled. Weights are rounded by an arbitrary function. | `any_to_graph`, `dump_to_graph`, `graph_refuses`, `graph_labels_refused` |
| C80 | What serve shows is the model of the documents, and looking changes nothing | `Model/Serve`: a serve command as a check and a sequence of requests, each of which opens the corpus and the file (with migration) and runs the handlers of C72 | induction over the session with the file servable as invariant; the pages of C56 and the rendering of C38 on the state that index and model leave (C78) | proved — Requests are answered one after the other, each on its own connection as in the code; overlapping requests are in C61 and C70. Nothing else changes the file while it is served. The tweet template is here an arbitrary function of the stored tweet; C85 has it. Scores are rounded by an arbitrary monotone function. | `serve_accepts`, `serve_reads`, `serve_settled`, `serve_without_documents`, `text_file_served`, `dump_served`, `tweets_served` |
| C81 | The dumps of several sites in one corpus are kept apart | `addSites` of `Model/Pipeline`: add-site once per dump on the same file | induction over the dumps with the tables as invariant (the rows of each site are those of its dump, posts numbered through); then the argument of C78 and C80 for this corpus | proved — Into a new corpus file, each site once, the commands one after the other. Newer dumps of a site are in C82. A user or tag of the same name on two sites is one value of the index, as in the code. | `sites_import`, `sites_failure`, `sites_to_clusters`, `sites_to_sample`, `sites_served` |
| C82 | Adding newer dumps of a site replaces what changed, adds what is new and removes nothing | `addSites` with one url: INSERT OR REPLACE and ON CONFLICT on tables that are not empty | induction over the dumps with the tables as a function of a small specification of the history (`SiteHistory.add`) as invariant | proved — Into a new corpus file. updates_import says exactly what is served; updates_stale is the case of data that a newer dump no longer has (finding 49). | `updates_import`, `updates_latest`, `updates_complete`, `updates_stale` |
| C83 | index() with a working directory does what index() does and leaves nothing behind | `Model/WorkingDir`: `index` with each kind of `working_dir` value, and `temp_index.db` as a file that outlives the call | the call of C01 with the rows of the file as extra segments; case analysis over the end of the call; the retry theorems add the rows of the failed call to the merge of C01, for all corpora and schedules | partial — Proved for a new TemporaryDirectory, except that the directory itself is removed. The rest is refuted by the code: a str always fails, a pathlib.Path raises AttributeError after the index is committed and makes the directory unusable, a missing directory fails, and a retry after a failure mixes the rows of the failed call into the new index (finding 50). | `working_dir_temporary_partial`, `working_dir_text`, `working_dir_path`, `working_dir_missing`, `working_dir_temporary_once`, `working_dir_retry_mixes`, `working_dir_retry_positions` |
| C84 | Rendered tweets show the tweet's own data | `Model/TwRender`: the template of tweets on the documents of C66, with both savepoints | the HTML reader of C75; each part of the template is read as whole tags wherever it stands; induction over the keys | partial — Complete for stored tweets whose names and texts contain no < (the template escapes nothing, C64) and nothing that ends an attribute; the end of each item is read as part of the unfinished last tag (finding 48). With an unknown key the call raises IndexError and leaves its savepoint open. Line breaks and indentation of the template are left out. | `rendered_tweets_partial`, `tweets_unknown_key_leaves_savepoint` |
| C85 | From the corpus to the screen | the models of C65, C78, C80, C81 and C84 in a row, with the templates of C75 | the page of C80 is split at the box of documents; each item is read by the HTML reader as in C75 and C84, whatever stands around it; then `Displays` of `Spec/Screen` | partial — Complete for text files. For posts and tweets only if no name, tag, license or text that the templates put in unescaped is read as markup: otherwise the code refutes it (C63, C64, C75, C84). Bodies of posts are markup and read as such. The theorems with later are the same for documents that changed under an existing model (C86). | `text_file_on_screen`, `sites_on_screen_partial`, `tweets_on_screen_partial`, `text_file_later_on_screen`, `sites_later_on_screen_partial`, `tweets_later_on_screen_partial` |
| C86 | Indexing changed documents under an existing model | the models of C78, C80 and C81, on a file that already has features and clusters | the values of the model are the same before and after index (C08); the page of C80 generalised to models with values that no document has | proved — On any index file in the current format with at most 2^62 features per cluster. A page leaves out the values of its cluster that no document has any more, except if no document has any of them: the statement says so. The commands run one after the other with no failing statement. | `text_file_later`, `sites_later`, `tweets_later` |
| C87 | A search finds the documents | the models of C80, C81 and C86 with the search handler and form of C60 and C72 | the page of the feature (C55) translated to documents and values by what index leaves (C78); similarities as shares of documents; one generic argument for any source of documents | proved — For texts, on the overview and on the pages of all clusters but 0: a value that is a number is never found (C60), and the form on the page of the cluster 0 is that of the overview (C72, AnswersSearches.zero). Closeness is the share of common documents, rounded by an arbitrary monotone function. How the page looks in a browser is in C75. | `text_file_searched`, `text_file_later_searched`, `sites_searched`, `sites_later_searched`, `tweets_searched`, `tweets_later_searched`, `index_page_spec` |
| C88 | What a search shows on the screen | the models of C87 with the templates of C75 | as C85, with the overview page split at the box of documents; one argument for any corpus whose items are whole, then `ShowsSearches` of `Spec/SearchScreen` | partial — Complete for text files. For posts and tweets only if no name, tag, license or text that the templates put in unescaped is read as markup: otherwise the code refutes it (C63, C64, C75, C84). The page without results is that of C75. | `text_file_searched_on_screen`, `text_file_later_searched_on_screen`, `sites_searched_on_screen_partial`, `sites_later_searched_on_screen_partial`, `tweets_searched_on_screen_partial`, `tweets_later_searched_on_screen_partial` |
| C89 | The details page describes the corpus | the models of C78, C80 and C81 with the details handler (C55) and template (C75) | the exact summary of C47 on the file that index leaves, translated from keys to documents by the source argument of C87; model_command_creates for what model leaves alone | proved — The numbers of positions are stated for text files; for site dumps and tweets only that they are nought without positions (C47 counts them for any corpus). Which statements change the summary: C47. The page is read as in C75, with the values as text. | `text_file_details`, `sites_details`, `tweets_details` |
| C90 | The concordance of an indexed text file | the commands of C65 on the index file of C78, with the windows of C36 | windows_exact on what index leaves; sorted lists of ids are equal; windows of a corpus of texts hold texts, so that joining cannot fail | proved — The words are asked for as keys of the field "text". any_index: with positions, what index leaves is what C36 to C40 need, for any corpus; the other corpora follow from it by windows_exact (C36). | `text_file_concordance`, `any_index` |
| C91 | Passages that are found can be rendered, and show the words together | the passage search and rendering of C37 and C40 after the commands of C90 | no entry without passages and no document twice, by induction over the walk and the merging of partitions; then C37, C38 and C40 translated to lines and words | partial — Missing: that a line of which the only passage ends at its first token has the words close together. The code refutes it: a word at the end of the line before can be taken for a neighbour (passage_leaks). Rendered text with overhang at least 1 (C40). | `found_passages_render`, `text_file_passages_partial`, `passage_leaks` |
| C92 | The Hansard example finds pages by their day, month and year and shows them | `Model/Hansard`: the example corpus with its join, fields, dates and markup; its database satisfies the contract of a corpus | index of any corpus (any_index of C90) translated to pages; written days name one day, digit by digit | proved — Databases of which every page belongs to a debate, has HTML that can be parsed and a date; a page without one can not be read. Parser, tokeniser and reading of dates are parameters; writing of dates is modelled. The titles are put into the markup as they are (hansard_title_is_markup, compare C64). | `hansard_found`, `hansard_calendar`, `hansard_rendered`, `hansard_passages` |
| C93 | Trends over the values of a field add up, and the plots show percentages | `Model/Trends`: the shares, slices, labels and dicts of the plot script on the field intersections of C35 | documents with one value each are the disjoint union over the values, so the counts are a sum over a partition; induction over the dicts for the order of the lines | partial — Missing: one line for each cluster if two of them have the same label (their first values). The code refutes it: the script collects them in a dict by label, so a plot has fewer lines than clusters (same_label_loses_cluster). Everything else is complete. Floats are taken as exact numbers; tweets that can be indexed (C48). | `trend_adds_up`, `posts_by_date`, `tweets_by_date`, `pages_by_date`, `shares_exact`, `shares_of_reference`, `cluster_trends_partial`, `same_label_loses_cluster` |
<!-- /table -->

## Findings: where the code does not do what a user would expect

Each is a theorem (a refutation) or a hypothesis forced on a theorem.

1. `expand_positions_window` lets one position leak into the next document (C05, C39).
2. `score_passages_dnf`: a final passage with a single hit is dropped; hits of the preceding document are used at offset 0;
   with three or more clauses the result is neither "all pairwise within the window" nor "all within the window of one" (C37).
3. Collocations list features of other positional fields (C39).
4. Rendered passages are one token short at the right-hand side (C40).
5. `index()` commits twice: a failure after the first commit raises though the new index is in place (C12); after a crash
   between the commits a retry fails with IntegrityError if the model has clusters (C14); nested in another transaction it
   raises IndexingError.
6. `index()` of an empty corpus raises; a `working_dir` given as a string is broken (`.name`).
7. The field summary keeps values and fields that disappeared from the corpus (C47).
8. TwittersphereCorpus yields lists containing None: indexing with positions (the default of the CLI) fails (C48).
9. `atomic`: an exception in the housekeeping leaves the savepoint open; a KeyboardInterrupt releases it, hence commits the
   partial work (C17).
10. `refine_clusters`: the remapping of new ids can delete freshly stored clusters (C27).
11. Refinement fails on some valid models (all pinned, target below the pinned ones, top_k = 0, …) (C28).
12. The minimum cluster size is checked with `==` instead of `<=`: a cluster already below it can be emptied (C25).
13. `initialise_clusters` with a repeated field raises IntegrityError (C18).
14. `create_cluster_from_features([])` returns the id of a cluster that does not exist; unknown features raise (C19).
15. Opening a foreign non-empty file raises NameError instead of MigrationError and switches it to WAL; migration and
    housekeeping are separate transactions (C43).
16. `replace_docs` swallows exceptions; None texts are skipped; an interrupt commits a partial load (C41).
17. StackExchange import adds spurious all-NULL rows, never removes stale tags; an interrupted import stays open and is
    committed by the next one (C42).
18. The concordance view is overwritten by rendered documents (C46).
19. Pivoting with top_k = 0 raises IndexError; an empty probe query counts as no probe (C31).
20. `merge_clusters([])`, `cluster_docs(unknown)` raise IndexError.
21. `@atomic()` on generator functions: the savepoint is released when the generator is created.
22. A KeyboardInterrupt inside `index()` leaves the transaction open: everything written through the object afterwards is lost,
    and each later `index()` is refused (C12).
23. `idx[slice]` is documented but returns None (C54).
24. `create_cluster_cooccurrence_graph(include_field_in_label=False)` raises on values that are not text (C33).
25. TwittersphereCorpus has no `render_docs_table`: exports are unsupported.
26. `score_passages_dnf` silently ignores features that are neither int nor tuple.
27. docs()/concordances/rendering raise TypeError when document keys mix integers and strings (C36).
28. `round_datetime` is not monotone across timezones (C44).
29. A StackExchange comment without text makes indexing fail.
30. `--clusters` without `--restart` is not ignored, although the help says so (C52).
31. `plaintext-corpus create` cuts lines at the first comma; a line above the csv field limit means nothing is replaced while
    success is reported (C57).
32. Web: refine/pin without a cluster id commits, then answers 500; recreate with iterations = 0 loses the old model, then
    fails; redirects to clusters that no longer exist; search never finds values that are not text (C59, C60).
33. `_or_partition_positions` is an unfinished method.
34. With concurrent connections, BUSY in the housekeeping leaves a savepoint open (possibly holding the write lock) until
    the connection is closed; another process may commit between index()'s two commits, and the second may then fail with
    "database is locked" although the new index is committed (C61).
35. Rendering StackExchange posts with an unknown key raises IndexError and leaves the method's savepoint open (C63).
36. The HTML templates of StackExchange posts and tweets are wrapped in `Markup` after inserting names, tags and licenses
    without escaping: a display name chosen by an author becomes markup of the page (stored script injection) (C64).
37. A post whose owner id is set but whose owner is not in the dump shows the name "None" (C63).
38. An exported cell above 131072 characters makes the file unreadable for `csv.reader` with its default limit (C62).
39. The help of `plaintext-corpus create` says that documents in quotes are decoded as JSON strings; they are read as CSV, and
    their escapes stay (C57).
40. `migrate` reads version and number of objects in transactions of their own, before the one that creates or upgrades: two
    processes that open an older index at the same time both decide to migrate it, and the second raises OperationalError
    (duplicate column); two that create an index: the second may raise NameError (the exception class it wants to raise does
    not exist) (C68).
41. A process that opens an index between the migration's commit and the commit of the update of the clusters sees the summaries
    out of date (C68).
42. Pool jobs have connections and transactions of their own, decorated generators give up their savepoint before their body
    runs, `concordances` and `docs` are not decorated, and a web view calls several methods: these mix contents while others
    edit (C70).
43. A cluster page requested while somebody deletes or merges the cluster fails with IndexError (status 500) instead of 404,
    and `pivot_clusters_by_query()` raises IndexError when a cluster disappears between its two stages, though it succeeds
    before and after (C70).
44. In the templates `{% if cluster_id %}` and `{% if prev_cluster_id or next_cluster_id %}` take the cluster 0 for none: the
    search form on its page leads to the overview instead of the cluster, and in a model of the clusters 0 and x (what
    `initialise_clusters(2)` makes) the page of x has no link to the other cluster (C72).
45. `render_search_results` compares the result type with 'concordances', the views set 'concordance' (C55).
46. A version 4 index left in the middle of an update (rows in `changed_cluster`) can not be opened: the upgrade inserts all
    clusters there and fails with IntegrityError, every time (C43).
47. `?result_type=concordances` fails with status 500 whenever there are documents to show: the view hands over documents and
   the template takes them for concordances (`concordances_fail`, C75).
48. The template of tweets ends in `</div` without `>`: the browser reads the `</li>` after it as part of that tag
   (`tweet_left_open`, C75).
49. Adding a newer dump of a site removes nothing: posts, comments and tags that the newer dump no longer has, and names of
   users it no longer has, are still indexed and shown (`updates_stale`, C82).
50. `index(working_dir=...)`: a text always fails with AttributeError; a `pathlib.Path` raises AttributeError although the
   index is committed, and `temp_index.db` stays and makes every later call with that directory fail; after a failed call a
   retry in the same directory merges the rows of the failed call into the new index (documents found under words they do
   not have); a TemporaryDirectory is removed although the documentation says it is kept (C83).
51. Where a post or comment has no author, the template of StackExchange posts writes `<Deleted User>` without escaping it: a
   browser reads an unknown tag and shows nothing (`rendered_html_shows_dump`, C63).
