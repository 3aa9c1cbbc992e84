{"id": "C01", "title": "bstm returns the exact top-k, keeping all ties of the lowest rank", "statement": "utilities.bstm(matching, bitslice, k) returns a subset of matching that is closed upwards in weight (a returned document never weighs less than a dropped one); it has at least min(k, |matching|) members, and whenever it has more than k members the documents strictly heavier than the lightest returned one number fewer than k. When |matching| <= k it returns exactly matching.", "quantifier": "every set of matching documents, every list of bit slices, every k", "why_tests_cant": "The procedure branches on the number of candidates at every bit level; the wrong branch only shows for particular weight distributions and tie patterns, of which tests sample a few.", "anchors": ["hyperreal/utilities.py:bstm"]}
{"id": "C02", "title": "compute_bitslice counts exactly", "statement": "For any sequence of document sets, utilities.compute_bitslice returns the union of the sets, and a bit slice in which the binary number read for each document equals the number of input sets containing it.", "quantifier": "every finite sequence of bitmaps (any length, any overlap)", "why_tests_cant": "Carry propagation through an unbounded number of layers; a lost carry only shows at particular multiplicities.", "anchors": ["hyperreal/utilities.py:compute_bitslice"]}
{"id": "C03", "title": "weight_bitslice inverts compute_bitslice", "statement": "weight_bitslice yields every document present in some slice exactly once, in ascending order, with its weight; applied to compute_bitslice(bitmaps) it yields exactly the matching documents with the number of bitmaps each occurs in.", "quantifier": "every bit slice, every sequence of bitmaps", "why_tests_cant": "Round-trip law over all inputs; a merge or grouping error depends on interleavings of document ids across layers.", "anchors": ["hyperreal/utilities.py:weight_bitslice", "hyperreal/utilities.py:compute_bitslice"]}
{"id": "C04", "title": "cluster_query agrees with cluster_docs and per-feature queries", "statement": "For every cluster of the saved model, cluster_query(c)[0] equals cluster_docs(c) and the union of idx[f] for the cluster's features, and the bit slice it returns weighs every document by the number of the cluster's features matching it.", "quantifier": "every index content and every reachable saved model", "why_tests_cant": "Requires the stored summary to agree with recomputation after any history of edits.", "anchors": ["hyperreal/index.py:Index.cluster_query", "hyperreal/index.py:Index.union_bitslice", "hyperreal/index.py:Index.cluster_docs"]}
{"id": "C05", "title": "Position windows cover the neighbourhood and stay inside the document", "statement": "expand_positions_window(positions, boundaries, w) contains exactly the positions that lie in the same document as some given position and at distance at most w from it.", "quantifier": "every set of positions, every document layout, every window size", "why_tests_cant": "The boundary between two documents is one position among many; tests use large documents or look only at sizes.", "anchors": ["hyperreal/utilities.py:expand_positions_window"]}
{"id": "C06", "title": "Feature lookups return exactly the documents containing the value", "statement": "After index() succeeds, for every field and value idx[(field, value)] and idx[feature_id] is exactly the set of ids of the documents whose corpus.index() mapping contains that value in that field, whatever doc_batch_size and whatever order the batches finish in; unknown features give the empty set.", "quantifier": "every corpus, every batch size, every completion order of the worker batches, with and without positions, every previous content of the index", "why_tests_cant": "Depends on batching and on the schedule of worker processes writing segments.", "anchors": ["hyperreal/index.py:Index.index", "hyperreal/index.py:_index_docs", "hyperreal/index.py:Index.__getitem__"]}
{"id": "C07", "title": "Stored document counts are the true cardinalities", "statement": "After index() every stored docs_count of a feature equals the number of documents the feature matches, and the per-feature count denormalised into the clustering model equals it as well.", "quantifier": "every corpus, batch size, completion order and previous state", "why_tests_cant": "Counts are summed over batches; they are only right if no document is counted in two segments, whatever the batching.", "anchors": ["hyperreal/index.py:Index.index", "hyperreal/index.py:Index.cluster_features"]}
{"id": "C08", "title": "Reindexing preserves feature ids and the model's assignment", "statement": "index() on an already indexed database keeps the feature_id of every (field, value) that was known before, gives new values new ids, never gives two features one id, and leaves every feature in the cluster it was assigned to; features that no longer occur keep their id and match no document.", "quantifier": "every previous index state and model, every new corpus", "why_tests_cant": "Quantifies over pairs of corpora and over the model in between.", "anchors": ["hyperreal/index.py:Index.index"]}
{"id": "C09", "title": "Document ids and keys are a bijection", "statement": "After index(), document ids are 0..n-1 in corpus.keys() order, convert_query_to_keys(q) returns for every document id in q its key, mapped back to that id, and nothing else; a query containing an unindexed id is rejected with an error.", "quantifier": "every corpus with distinct keys and every query", "why_tests_cant": "For every query over every corpus size.", "anchors": ["hyperreal/index.py:Index.index", "hyperreal/index.py:Index.convert_query_to_keys", "hyperreal/index.py:Index.docs"]}
{"id": "C10", "title": "Position index round-trips to (document, offset)", "statement": "With index_positions=True, for each sequence field the stored positions decode: a position stored for a feature in a partition corresponds, via the partition's document boundaries, to exactly one (document, offset) and the document has that value at that offset; conversely every occurrence in the corpus is stored.", "quantifier": "every corpus, batch size, completion order, field and feature", "why_tests_cant": "A coordinate-system invariant over documents of arbitrary lengths including empty ones.", "anchors": ["hyperreal/index.py:_index_docs", "hyperreal/index.py:Index._get_partition_header", "hyperreal/index.py:Index._get_partition_positions"]}
{"id": "C11", "title": "Batch dispatch covers every document exactly once", "statement": "The batches sent to the workers are non-empty, at most max(1, doc_batch_size) long, and their concatenation is exactly the enumeration of corpus.keys(); every future submitted is awaited, so an error in any batch makes index() raise.", "quantifier": "every corpus, doc_batch_size, worker count and completion order", "why_tests_cant": "The last partial batch and futures drained early by the back-pressure branch depend on sizes and schedules.", "anchors": ["hyperreal/index.py:Index.index"]}
{"id": "C12", "title": "A failing index() leaves the previous index intact", "statement": "If index() raises, the database content is exactly what it was before the call.", "quantifier": "every failure point inside index(), every previous state", "why_tests_cant": "Needs fault injection at every statement.", "anchors": ["hyperreal/index.py:Index.index"]}
{"id": "C13", "title": "Reindexing is crash-atomic and readers see only complete indexes", "statement": "At every moment of index(), what another process reads (and what a crash at that moment leaves) is either the complete old index or the complete new one, and any cluster whose stored summary may disagree with the index is recorded as pending so the next modification of the model repairs it.", "quantifier": "every crash point and every reader interleaving during index()", "why_tests_cant": "Crash points and reader schedules cannot be enumerated by tests.", "anchors": ["hyperreal/index.py:Index.index", "hyperreal/index.py:Index._update_changed_clusters"]}
{"id": "C14", "title": "index() can be retried after an interrupted run", "statement": "After a crash or failure of index() at any point, calling index() again succeeds and produces the same index as if the interruption had not happened.", "quantifier": "every crash point, every model", "why_tests_cant": "The failing combination (crash in a narrow window, model present) is never produced by a test.", "anchors": ["hyperreal/index.py:Index.index", "hyperreal/_index_schema.py:CURRENT_SCHEMA"]}
{"id": "C15", "title": "Cluster summaries are exact after every operation", "statement": "After any sequence of successful or failed model operations (initialise, delete, merge, create, remove features, pin, refine) every stored cluster has feature_count equal to the number of its features (> 0), doc_ids equal to the union of its features' documents, docs_count its cardinality, weight the sum of its features' document counts; and a cluster exists exactly when it has a feature.", "quantifier": "every history of public model operations with arbitrary arguments", "why_tests_cant": "Invariant over unbounded histories.", "anchors": ["hyperreal/index.py:Index._update_changed_clusters", "hyperreal/index.py:atomic", "hyperreal/_index_schema.py:CURRENT_SCHEMA"]}
{"id": "C16", "title": "Every feature is in at most one cluster", "statement": "In every reachable state each feature belongs to at most one cluster, that cluster exists, and the feature exists in the index.", "quantifier": "every history of public model operations", "why_tests_cant": "Invariant over unbounded histories.", "anchors": ["hyperreal/_index_schema.py:CURRENT_SCHEMA", "hyperreal/index.py:Index"]}
{"id": "C17", "title": "Decorated methods are all-or-nothing, at any nesting depth", "statement": "A call of an atomic method, at any nesting depth of atomic methods calling one another and catching each other's exceptions, either returns normally with all its effects committed exactly once (when outermost) or raises with the database exactly as before the call; nothing is visible to other connections before the outermost call ends, and no transaction stays open afterwards.", "quantifier": "every program built from database statements, nested atomic calls and exception handlers", "why_tests_cant": "Quantifies over all nestings and exception points.", "anchors": ["hyperreal/index.py:atomic"]}
{"id": "C18", "title": "initialise_clusters deals the selected features evenly", "statement": "initialise_clusters(n, min_docs, include_fields) discards the old model and assigns every feature of the included fields matching at least min_docs documents, and no other, to exactly one of the clusters 0..n-1; cluster sizes differ by at most one, and exactly min(n, number of features) clusters exist.", "quantifier": "every index, n, min_docs, field selection, and every outcome of the random shuffle", "why_tests_cant": "For every shuffle and size.", "anchors": ["hyperreal/index.py:Index.initialise_clusters"]}
{"id": "C19", "title": "Model edits act like the obvious map operations", "statement": "delete_clusters, delete_features, merge_clusters and create_cluster_from_features change the feature -> cluster assignment exactly as the corresponding operations on a finite map: removing the keys, redirecting merged clusters to the first one, assigning the given features to the returned cluster; nothing else moves.", "quantifier": "every state and every argument list (duplicates, unknown ids and empty lists included)", "why_tests_cant": "Refinement for all states and arguments.", "anchors": ["hyperreal/index.py:Index.delete_clusters", "hyperreal/index.py:Index.delete_features", "hyperreal/index.py:Index.merge_clusters", "hyperreal/index.py:Index.create_cluster_from_features"]}
{"id": "C20", "title": "New cluster ids are fresh", "statement": "The id returned by next_cluster_id and create_cluster_from_features is greater than every existing cluster id, and after creation that cluster contains exactly the requested features.", "quantifier": "every state and feature list", "why_tests_cant": "For all states.", "anchors": ["hyperreal/index.py:Index.next_cluster_id", "hyperreal/index.py:Index.create_cluster_from_features"]}
{"id": "C21", "title": "Pins change only pins and survive other edits", "statement": "pin_features/pin_clusters set the pin of exactly the named existing features/clusters and change nothing else; other operations keep the pin of every feature that stays in the model and of every cluster that continues to exist.", "quantifier": "every state and argument list", "why_tests_cant": "For all states.", "anchors": ["hyperreal/index.py:Index.pin_features", "hyperreal/index.py:Index.pin_clusters"]}
{"id": "C22", "title": "Refinement permutes, never loses, features", "statement": "refine_clusters, whatever its parameters, scores and random choices, leaves the set of features in the model unchanged with each still in exactly one cluster.", "quantifier": "every model, parameter setting, scoring outcome and random stream", "why_tests_cant": "Random search over unbounded iterations.", "anchors": ["hyperreal/index.py:Index.refine_clusters", "hyperreal/index.py:Index._refine_feature_groups", "hyperreal/index.py:Index._update_cluster_feature"]}
{"id": "C23", "title": "Pinned features and clusters are not touched by refinement", "statement": "After refine_clusters every pinned feature is in the cluster it was in before, and every pinned cluster has exactly the features it had before.", "quantifier": "every model, parameter setting, scoring outcome and random stream", "why_tests_cant": "Random search over unbounded iterations.", "anchors": ["hyperreal/index.py:Index.refine_clusters", "hyperreal/index.py:Index._refine_feature_groups"]}
{"id": "C24", "title": "Restricted refinement leaves other clusters alone", "statement": "refine_clusters(cluster_ids=S) moves only features of clusters in S, and only to clusters in S or to newly created clusters; all other clusters keep exactly their features.", "quantifier": "every model, non-empty subset S, parameters and random streams", "why_tests_cant": "Random search over unbounded iterations.", "anchors": ["hyperreal/index.py:Index.refine_clusters"]}
{"id": "C25", "title": "Refinement never shrinks a cluster below the minimum", "statement": "Without a cluster target, a refined cluster that has at least minimum_cluster_features features before refine_clusters has at least that many afterwards; so with the default minimum of 1 no cluster disappears, and no new cluster appears.", "quantifier": "every model, parameter setting, scoring outcome and random stream", "why_tests_cant": "Random search over unbounded iterations.", "anchors": ["hyperreal/index.py:Index._refine_feature_groups"]}
{"id": "C26", "title": "Refinement reaches the requested number of clusters", "statement": "When target_clusters is below the number of selected clusters but above the number of selected pinned ones, exactly the surplus (as far as clusters without pinned features suffice) is dissolved by the last iteration and their features are re-homed; a dissolving cluster is always emptied, so the internal consistency error is never raised.", "quantifier": "every model, target, iteration count >= 1, scoring outcome and random stream", "why_tests_cant": "Random search over unbounded iterations; rounding of the per-iteration quota.", "anchors": ["hyperreal/index.py:Index._refine_feature_groups"]}
{"id": "C27", "title": "Split results are saved under fresh ids", "statement": "When target_clusters exceeds the number of refined clusters, every new cluster found by the refinement is saved, under a cluster id not used before.", "quantifier": "every model, every subset of refined clusters, every number of new clusters", "why_tests_cant": "Only fails when locally generated ids partially overlap the globally generated ones.", "anchors": ["hyperreal/index.py:Index.refine_clusters"]}
{"id": "C28", "title": "Refinement does not fail on valid models", "statement": "refine_clusters(iterations >= 1) returns normally on every saved model.", "quantifier": "every model, pin set and cluster target", "why_tests_cant": "Failing combinations (everything pinned, targets below the number of pinned clusters) are corner cases.", "anchors": ["hyperreal/index.py:Index.refine_clusters", "hyperreal/index.py:Index._refine_feature_groups"]}
{"id": "C29", "title": "Feature contributions are exact objective differences", "statement": "For every cluster and probe, the objective returned is hits/(c+n) - hits/(hits+n); the score of a feature already in the cluster is the objective minus the objective recomputed from scratch without it (when it overlaps another feature of the cluster), and of a feature outside it the objective with it minus the objective (when it overlaps the cluster); otherwise the documented penalty values; no division by zero occurs.", "quantifier": "every index, cluster, candidate set and probe query (exact arithmetic)", "why_tests_cant": "Incremental set bookkeeping vs recomputation, for all overlaps.", "anchors": ["hyperreal/index.py:measure_feature_contribution_to_cluster"]}
{"id": "C30", "title": "Move selection picks the best tested cluster", "statement": "The move proposed for a feature is the tested cluster with the greatest (score, cluster id); with top_k > 1 the list is the top_k greatest in descending order. Every movable feature is scored against at least one cluster: against all clusters with features when there is no group testing; with group testing the clusters are divided evenly into the given number of groups and it is scored against exactly the clusters of the group_test_top_k groups in which, as one cluster, its score is greatest, and possibly its own cluster. The objectives reported are those of the clusters.", "quantifier": "every scoring outcome, clustering, group size and top_k >= 1", "why_tests_cant": "Heap bookkeeping over arbitrary score streams.", "anchors": ["hyperreal/index.py:Index._score_proposed_moves", "hyperreal/index.py:Index._find_best_moves"]}
{"id": "C31", "title": "Pivot ranking within a cluster is the exact top-k despite pruning", "statement": "For every cluster the features returned by pivot_clusters_by_query are exactly the top_k features by (similarity, feature id) among those with positive Jaccard similarity, in descending order of similarity, for any monotone rounding of the quotients.", "quantifier": "every index, query with a hit in the cluster, top_k >= 1 and any monotone rounding of the division", "why_tests_cant": "The early exit depends on an upper bound being valid for every feature.", "anchors": ["hyperreal/index.py:_pivot_cluster_features_by_query_jaccard"]}
{"id": "C32", "title": "Pivot covers every overlapping cluster once, independent of scheduling", "statement": "pivot_clusters_by_query yields each requested cluster that shares a document with the query exactly once, none other, in descending order of Jaccard similarity, whatever the number of workers and the completion order.", "quantifier": "every model, query, worker count and completion order", "why_tests_cant": "Schedules.", "anchors": ["hyperreal/index.py:Index.pivot_clusters_by_query", "hyperreal/index.py:_calculate_query_cluster_cooccurrence"]}
{"id": "C33", "title": "The cluster graph has an edge exactly for overlapping clusters", "statement": "create_cluster_cooccurrence_graph has one node per cluster and an undirected edge between two distinct clusters exactly when they share a document, weighted by the Jaccard similarity of their document sets, whatever the completion order.", "quantifier": "every model and completion order", "why_tests_cant": "Schedules and pair enumeration.", "anchors": ["hyperreal/index.py:Index.create_cluster_cooccurrence_graph"]}
{"id": "C34", "title": "Sampling is without replacement and within bounds", "statement": "sample_bitmap(b, k) returns a subset of b of exactly min(k, |b|) members; structured_doc_sample returns for every requested cluster a subset of its documents, the samples of different clusters are disjoint, each has at most docs_per_cluster members and is as large as the not-yet-sampled documents permit, and the second result lists exactly the sampled documents of each cluster.", "quantifier": "every bitmap, size, model and random stream", "why_tests_cant": "For every random stream.", "anchors": ["hyperreal/index.py:Index.sample_bitmap", "hyperreal/index.py:Index.structured_doc_sample"]}
{"id": "C35", "title": "Field intersections are aligned and exact", "statement": "intersect_queries_with_field returns the distinct values of the field occurring in at least one document in ascending order, their document counts, and for each query a list aligned with the values giving the number of query documents having the value.", "quantifier": "every index, field and set of queries", "why_tests_cant": "For all inputs.", "anchors": ["hyperreal/index.py:Index.intersect_queries_with_field", "hyperreal/index.py:Index.iter_field_docs"]}
{"id": "C36", "title": "Concordance windows show each match with its neighbourhood", "statement": "extract_matching_feature_windows returns, for each document of the query and each requested value of a sequence field, one window per occurrence in order of occurrence, namely the tokens at distance at most window_size in the same document; values that do not occur get no window.", "quantifier": "every corpus, query, feature list and window size", "why_tests_cant": "Boundary arithmetic at both ends of every document.", "anchors": ["hyperreal/index.py:Index.extract_matching_feature_windows", "hyperreal/index.py:Index.concordances"]}
{"id": "C37", "title": "Passage search returns only and all documents with a matching passage", "statement": "score_passages_dnf covers every group of matches of all clauses that lie in one document at pairwise distance at most window_size by a passage of that document, and every passage it returns begins and ends at matches of that document that have a match of every clause within window_size in the same document.", "quantifier": "every corpus, query and window size", "why_tests_cant": "Errors sit at document boundaries and at the last passage of a partition.", "anchors": ["hyperreal/index.py:_score_passages_dnf", "hyperreal/index.py:Index.score_passages_dnf"]}
{"id": "C38", "title": "Passage scores describe real spans", "statement": "Every passage (field, start, end, count) returned by score_passages_dnf satisfies start <= end, start and end are offsets of matched positions of that document, count is the number of matched positions between them, and the passages of one field of a document are disjoint and in ascending order, more than window_size apart.", "quantifier": "every partition, query and window size", "why_tests_cant": "Walk over arbitrary position sets.", "anchors": ["hyperreal/index.py:_score_passages_dnf"]}
{"id": "C39", "title": "Collocation counts are within the chosen field", "statement": "count_collocations(field, features, w) counts for each other feature of the field its occurrences in the window around the query features and its total occurrences; features of other fields are not mixed in.", "quantifier": "every corpus with any number of positional fields, every query and window size", "why_tests_cant": "Only shows with several positional fields.", "anchors": ["hyperreal/index.py:_count_collocations", "hyperreal/index.py:Index.count_collocations"]}
{"id": "C40", "title": "Rendered passages contain the whole passage", "statement": "render_passages_table returns for every scored passage the text from start to end inclusive plus the overhang on both sides.", "quantifier": "every document, passage and overhang", "why_tests_cant": "Slice boundary arithmetic for all values.", "anchors": ["hyperreal/index.py:_construct_passages", "hyperreal/index.py:Index.render_passages_table"]}
{"id": "C41", "title": "replace_docs is all-or-nothing and round-trips", "statement": "PlainTextSqliteCorpus.replace_docs(texts) either leaves the corpus unchanged or makes docs() yield exactly the (non-null) texts in order under keys 1..n.", "quantifier": "every previous corpus, every text sequence, every failure point of the source iterator", "why_tests_cant": "Fault injection at every element.", "anchors": ["hyperreal/corpus.py:PlainTextSqliteCorpus.replace_docs", "hyperreal/corpus.py:PlainTextSqliteCorpus.docs"]}
{"id": "C42", "title": "StackExchange import keeps document ids stable and is idempotent", "statement": "add_site_data keeps the doc_id of every post already present under the same site and post id, never assigns one doc_id to two posts, changes no other site's posts, and importing the same dump twice leaves the documents served unchanged.", "quantifier": "every database state, every dump", "why_tests_cant": "Histories of imports.", "anchors": ["hyperreal/corpus.py:StackExchangeCorpus.add_site_data", "hyperreal/corpus.py:StackExchangeCorpus.docs"]}
{"id": "C43", "title": "Schema migration is decided by version, atomic and idempotent", "statement": "Opening a database creates the schema when empty, does nothing when current, upgrades every known older version to the current one in one transaction, and rejects everything else without touching it; opening again never migrates.", "quantifier": "every database version and content, every failing statement", "why_tests_cant": "Version matrix and fault points.", "anchors": ["hyperreal/_index_schema.py:migrate", "hyperreal/index.py:Index.__init__"]}
{"id": "C44", "title": "Datetime rounding is a nested truncation", "statement": "round_datetime returns truncations that are not later than the input, each coarser one being a truncation of the finer one; two datetimes share a bucket exactly when they agree on the components down to that granularity; rounding is idempotent and monotone.", "quantifier": "every datetime", "why_tests_cant": "All datetimes.", "anchors": ["hyperreal/utilities.py:round_datetime"]}
{"id": "C45", "title": "Cluster navigation is a ring", "statement": "In the web interface the previous/next links of the cluster pages visit every cluster: next and previous are inverse to each other and following next from any cluster reaches all clusters.", "quantifier": "every model and cluster", "why_tests_cant": "For every number of clusters, including one.", "anchors": ["hyperreal/server.py:Cluster.index"]}
{"id": "C46", "title": "The web views return the requested result type", "statement": "The cluster and index views return concordances when the concordance result type is requested, passages for passage and rendered documents otherwise.", "quantifier": "every request", "why_tests_cant": "Decision table over result types.", "anchors": ["hyperreal/server.py:Cluster.index", "hyperreal/server.py:Index.index"]}
{"id": "C47", "title": "The field summary describes the indexed corpus", "statement": "After index() indexed_field_summary lists every field of the corpus with the number of distinct values, the least and greatest value and the number of stored positions.", "quantifier": "every corpus and previous index state", "why_tests_cant": "Depends on what a previous corpus left behind.", "anchors": ["hyperreal/index.py:Index.indexed_field_summary", "hyperreal/index.py:Index.index", "hyperreal/index.py:Index.positional_fields"]}
{"id": "C48", "title": "Every bundled corpus can be indexed with positions", "statement": "index(index_positions=True), the command line default, succeeds for every document of the bundled corpora.", "quantifier": "every document of the PlainText, StackExchange and Twittersphere corpora", "why_tests_cant": "Depends on which optional attributes a document has.", "anchors": ["hyperreal/corpus.py:TwittersphereCorpus.index", "hyperreal/index.py:_index_docs", "hyperreal/cli.py:make_two_file_indexer"]}
{"id": "C49", "title": "Corpus-dependent methods fail cleanly without a suitable corpus", "statement": "A method that requires a corpus raises CorpusMissingError when none is attached and UnsupportedCorpusOperation when the corpus lacks the capability, before touching any state, and otherwise behaves as the plain method.", "quantifier": "every method body, corpus and state", "why_tests_cant": "For all bodies and states.", "anchors": ["hyperreal/index.py:requires_corpus"]}
{"id": "C50", "title": "Exported sample rows are aligned", "statement": "export_document_sample writes for every sampled document one row with its own key and fields, the cluster it was sampled for, and a mark in the column of cluster c exactly when the document belongs to c.", "quantifier": "every index, sample and corpus with distinct keys", "why_tests_cant": "Alignment of two independent iterations for all samples.", "anchors": ["hyperreal/index.py:Index.export_document_sample"]}
{"id": "C51", "title": "Cluster listings are ranked and truncated correctly", "statement": "cluster_features(c, k) returns the k most frequent features of the cluster with their stored counts in descending order; top_cluster_features lists every cluster once in descending order of document count; exporting all clusters lists every feature of the model exactly once.", "quantifier": "every model and k", "why_tests_cant": "For all models.", "anchors": ["hyperreal/index.py:Index.cluster_features", "hyperreal/index.py:Index.top_cluster_features", "hyperreal/cli.py:export_clusters"]}
{"id": "C52", "title": "The model command creates, restarts or refines as documented", "statement": "The model command initialises when there is no model, reinitialises only with --restart and confirmation, otherwise keeps the model's feature set and only refines. What it does is what initialise_clusters and refine_clusters do with the command's options as parameters.", "quantifier": "every index state and option combination", "why_tests_cant": "Decision table combined with all states.", "anchors": ["hyperreal/cli.py:model"]}
{"id": "C53", "title": "Work done inside a with block is private and discarded", "statement": "Between entering and leaving `with idx:` no effect of any atomic method called on it is visible to another connection, and after the block ends everything done inside is discarded.", "quantifier": "every sequence of method calls in the block, successful or failing", "why_tests_cant": "For all call sequences and method bodies.", "anchors": ["hyperreal/index.py:Index.__enter__", "hyperreal/index.py:Index.__exit__", "hyperreal/index.py:atomic"]}
{"id": "C54", "title": "Features can be looked up by id, by key and by range", "statement": "lookup_feature_id and lookup_feature are inverse to each other on the features of the index, idx[(field, value)] and idx[feature_id] return the same documents, unknown features have no documents and raise KeyError on lookup, and idx[(field, a):(field, b)] returns the documents matching a value between a and b.", "quantifier": "every index, field, value and feature id", "why_tests_cant": "For all indexes; the slice form is only documented.", "anchors": ["hyperreal/index.py:Index.__getitem__", "hyperreal/index.py:Index.lookup_feature", "hyperreal/index.py:Index.lookup_feature_id"]}
{"id": "C55", "title": "The web views show the documents and clusters asked for", "statement": "The cluster view lists every feature of the cluster once, ranked by similarity to the documents of the cluster restricted by the chosen feature and filter cluster, and reports the number of those documents; an unknown cluster is answered with 404. The index view redirects when there is no model, lists all clusters with their most frequent features when there is no query with documents, and otherwise ranks exactly the clusters sharing documents with the query. The results shown on both are rendered from those documents, or, when passages are requested, are the passages in which the features of the cluster, the chosen feature and the features of the filter cluster occur near each other.", "quantifier": "every model, request and row order", "why_tests_cant": "For all models and combinations of request parameters.", "anchors": ["hyperreal/server.py:Cluster.index", "hyperreal/server.py:Index.index"]}
{"id": "C56", "title": "Rendered documents are paired with their ids and keys", "statement": "render_docs_html(query, random_sample_size=k) returns min(k, |query|) distinct documents of the query, each with its own document id, key and rendering; render_docs_table the same documents in the order of their ids, each with its own key and row.", "quantifier": "every query, sample size, random choice and corpus whose renderer answers with the keys it was given", "why_tests_cant": "For all queries and random choices.", "anchors": ["hyperreal/index.py:Index.render_docs_html", "hyperreal/index.py:Index.render_docs_table"]}
{"id": "C57", "title": "plaintext-corpus create keeps one document per line", "statement": "After `plaintext-corpus create` the corpus holds exactly the lines of the text file that are not only white space, in order, quoted documents decoded as the help says.", "quantifier": "every text file", "why_tests_cant": "For all file contents.", "anchors": ["hyperreal/cli.py:plaintext_corpus_create", "hyperreal/corpus.py:PlainTextSqliteCorpus.replace_docs"]}
{"id": "C58", "title": "Sequences of web requests keep the model settled", "statement": "After every sequence of POST requests, successful or failing, with any parameters, the index file holds a model whose cluster summaries are exact and in which nothing is pending.", "quantifier": "every sequence of requests, draws and worker failures", "why_tests_cant": "For all histories.", "anchors": ["hyperreal/server.py:ClusterOverview", "hyperreal/server.py:FeatureOverview", "hyperreal/server.py:Index.recreate_model", "hyperreal/server.py:Index.refine_model"]}
{"id": "C59", "title": "Web actions do exactly what they say and lead to an existing page", "statement": "Each POST action has exactly the effect of the corresponding index operation on the given clusters or features, changes nothing when it answers with an error, and redirects to a page that exists.", "quantifier": "every action, its parameters and model", "why_tests_cant": "For all models and parameters.", "anchors": ["hyperreal/server.py:ClusterOverview", "hyperreal/server.py:FeatureOverview", "hyperreal/server.py:Index.recreate_model"]}
{"id": "C60", "title": "The search finds every feature of a field", "statement": "Searching a field for a value redirects to the feature with that field and value whenever there is one.", "quantifier": "every index, field and value", "why_tests_cant": "For all indexes; values are not always text.", "anchors": ["hyperreal/server.py:Index.search", "hyperreal/server.py:Cluster.search", "hyperreal/index.py:Index.lookup_feature_id"]}
{"id": "C61", "title": "Concurrent processes behave as if they ran one after another", "statement": "When any number of processes and threads each use their own Index on one file, every call has the effect and the result it has alone on one committed content that was current during the call, or it raises and has no effect; edits are applied one after another and none is lost; a decorated query (one that is not a generator and starts no pool jobs) sees one content, see C70 for the others; every committed content has its references in order and is settled except between the two commits of an index() call.", "quantifier": "every number of connections, interleaving of their commands, refusal of a command by SQLite, failure of the housekeeping, and death of a process at any moment", "why_tests_cant": "Tests run a few interleavings; the property quantifies over all of them.", "anchors": ["hyperreal/index.py:atomic", "hyperreal/index.py:Index.__init__", "hyperreal/index.py:Index.index", "hyperreal/index.py:Index._update_changed_clusters", "hyperreal/index.py:Index.refine_clusters"]}
{"id": "C62", "title": "Exported spreadsheets read back exactly", "statement": "Reading a file written by `export clusters`, by the web export or by export_document_sample with Python's csv.reader gives back the header and exactly the exported rows, whatever the values contain (quotes, commas, line breaks, nothing), as long as no cell is longer than the reader's field limit. For the full cluster export that is one row per feature of the model with its cluster, id, field, value and document count.", "quantifier": "every model, every content of fields and values, every order of rows", "why_tests_cant": "Tests use a few tame values; the property quantifies over all texts.", "anchors": ["hyperreal/cli.py:export_clusters", "hyperreal/server.py:Index.export_clusters", "hyperreal/index.py:Index.export_document_sample"]}
{"id": "C63", "title": "Rendered StackExchange posts show the post's own data", "statement": "render_docs_html and render_docs_table return one entry per given key, in order, made from the post with that key: its own id, author, license, kind and body, the title and tags of its question, and its comments; in the table the comments are JSON that reads back. The data agrees with what docs() gives the indexer. The calls change nothing and leave nothing open.", "quantifier": "every dump, database, list of keys and order of tags", "why_tests_cant": "For all dumps and keys, including posts without titles, deleted users and any characters.", "anchors": ["hyperreal/corpus.py:StackExchangeCorpus._get_rendered_doc_fields", "hyperreal/corpus.py:StackExchangeCorpus.render_docs_html", "hyperreal/corpus.py:StackExchangeCorpus.render_docs_table", "hyperreal/index.py:Index.export_document_sample"]}
{"id": "C64", "title": "Text of documents is shown as text in web pages", "statement": "Whatever characters the titles, comments, names and texts of documents contain, they add no markup to the pages that show the documents, and are read as they are.", "quantifier": "every document content", "why_tests_cant": "For all texts.", "anchors": ["hyperreal/corpus.py:StackExchangeCorpus.TEMPLATE", "hyperreal/corpus.py:TwittersphereCorpus.TEMPLATE", "hyperreal/templates/macros.html", "hyperreal/server.py:templates"]}
{"id": "C65", "title": "The command line leads from a text file to the exported model and sample", "statement": "Running `plaintext-corpus create`, `plaintext-corpus index`, `model` and `export clusters --top-k-features 0` on a text file gives a spreadsheet with exactly one row for every token that occurs in at least --min-docs of the lines that are not blank, with the number of those lines; `plaintext-corpus sample` then gives a spreadsheet of lines of the file with their number, text, the cluster each was sampled for and a mark under every cluster one of its tokens is in, no line twice, at most the given number per cluster and fewer only if there are no more.", "quantifier": "every text file, tokeniser, batch size, number and schedule of workers, random draws, earlier corpus and earlier index file of the current version", "why_tests_cant": "The composition of five processes over files is only tested on one small file; it must hold for all texts, schedules and draws.", "anchors": ["hyperreal/cli.py:plaintext_corpus_create", "hyperreal/cli.py:make_two_file_indexer", "hyperreal/cli.py:model", "hyperreal/cli.py:export_clusters", "hyperreal/cli.py:make_csv_exporter"]}
{"id": "C66", "title": "Documents of the bundled corpora are found under their own fields", "statement": "After indexing, a plain text is found under its tokens; a StackExchange post under the words of its title, text and code blocks, the tags of its question, the names of its author and commenters, the words of its comments, its site, kind, and day, month and year of creation; a directly collected tweet under its words, hashtags, mentions, links, domains, author, conversation, collection labels, quoted and replied-to tweets and their authors, and dates, a retweet only under its author, the retweeted tweet and its author, and dates; and none of them under anything else. From a dump: exactly its questions and answers are found, under what the dump says about them. A Twittersphere database is opened only if its version is at least 15.", "quantifier": "every database and dump that can be read, tokeniser, HTML and URL parser, schedule, batch size and earlier index", "why_tests_cant": "Tests check a handful of documents; the fields must be right for all rows, missing values and users.", "anchors": ["hyperreal/corpus.py:PlainTextSqliteCorpus.index", "hyperreal/corpus.py:StackExchangeCorpus.index", "hyperreal/corpus.py:StackExchangeCorpus.docs", "hyperreal/corpus.py:TwittersphereCorpus.index", "hyperreal/corpus.py:TwittersphereCorpus.docs", "hyperreal/corpus.py:TwittersphereCorpus.__init__"]}
{"id": "C67", "title": "Refinement moves features greedily to their best clusters and dissolves the weakest ones", "statement": "refine_clusters first splits the missing clusters off the largest ones, then works in rounds: in each round the allotted number of clusters without pinned features that have the lowest objectives are dissolved, a feature of a dissolved cluster goes to its best tested cluster unless that is dissolved too, any other movable feature goes to its best tested cluster if that is another one, is not dissolved, the draw allows it and its cluster has not shrunk to min_features, and otherwise stays; it ends after the given number of iterations, or earlier exactly after a round that dissolved nothing and in which less than the fraction tolerance of the features would move; the result is stored. Consequences: a clustering in which every feature is in its best cluster is left as it is; with nothing to do nothing changes; one round with all draws in favour moves every feature to its best cluster; a cluster is not dissolved before a weaker one.", "quantifier": "every model, selection, pins, probe query, parameters and random draws for which the call returns", "why_tests_cant": "The search is random and its length unbounded; tests can only check that the objective usually improves.", "anchors": ["hyperreal/index.py:Index.refine_clusters", "hyperreal/index.py:Index._refine_feature_groups", "hyperreal/index.py:Index._find_best_moves"]}
{"id": "C68", "title": "Several processes opening one file do no harm to it or to each other", "statement": "When any number of threads or processes open (create, migrate) the same index file at the same time, the file is only ever as it was, in WAL mode, completely migrated (or created), or completely migrated with all summaries up to date, never half migrated or migrated twice, and never goes back; an opening that returns has a file of the current version; and no opening fails because of another one, nor returns while summaries are out of date.", "quantifier": "every number of openers, interleaving of their SQL commands, refusal of a command by SQLite, crash point, older index of every version and content, and new file", "why_tests_cant": "The interleavings are unbounded and cannot be forced by tests.", "anchors": ["hyperreal/_index_schema.py:migrate", "hyperreal/index.py:Index.__init__"]}
{"id": "C69", "title": "The tokenisers lose no words, invent none, and split where words end", "statement": "utilities.tokens gives the words of a text (quotes straightened, lower case): parts of the text in order and without overlap, none blank, which together contain every character that is neither white space nor an apostrophe; no token goes over a word boundary, characters with no boundary, white space or apostrophe between them stay together, and words with a space between them are never in one token. utilities.social_media_tokens does the same after cutting every word before the first link, hashtag or mention in it: no token has one, and texts without them have the same tokens. So plain texts are found under every word and tweets under no word with a link, hashtag or mention.", "quantifier": "every text, lower-casing function and set of word boundaries", "why_tests_cant": "For all Unicode texts; tests use a few English ones.", "anchors": ["hyperreal/utilities.py:tokens", "hyperreal/utilities.py:social_media_tokens", "hyperreal/utilities.py:word_tokenizer", "hyperreal/utilities.py:social_media_cleaner", "hyperreal/corpus.py:PlainTextSqliteCorpus.index", "hyperreal/corpus.py:TwittersphereCorpus.index"]}
{"id": "C70", "title": "Queries and pages that read the file several times use whole contents of their time, and one content when nobody edits", "statement": "Pivots, graphs, concordances, passages, collocations and the web pages read the file several times. Every such read sees one whole committed content that was current during that read, and later reads never an older one. When nobody changes the file meanwhile, the outcome is the one of the current content. When others edit meanwhile, the pages and pivots still show nothing that is wrong for all contents: links, document counts, features with their similarities, the pin and the field list are each right for contents of that time, no cluster is shown twice, and the only failures are 404 and IndexError, when a cluster asked for is missing in one of them. (They are not always the answer of one content: a page can fail with IndexError where before it was shown and afterwards is 404.)", "quantifier": "every number of connections, interleaving, edit and refused command; every page, query, number of workers and order of jobs", "why_tests_cant": "Which content each read sees depends on the schedule of other processes, which tests cannot enumerate.", "anchors": ["hyperreal/index.py:Index.pivot_clusters_by_query", "hyperreal/index.py:Index.create_cluster_cooccurrence_graph", "hyperreal/index.py:Index.concordances", "hyperreal/index.py:Index.score_passages_dnf", "hyperreal/index.py:Index.count_collocations", "hyperreal/server.py:Cluster.index", "hyperreal/server.py:Index.index", "hyperreal/index.py:Index.render_passages_table"]}
{"id": "C71", "title": "Whatever is requested from the web server, only POST actions change the index, and it stays settled", "statement": "A request, well-formed or not, either leaves the index file as it is or is a POST that performs exactly one of the actions; a GET request changes nothing, and the URLs of the actions answer it with 405. Requests that name another index than the served one, or something that is no number, are refused and change nothing. After any sequence of requests the index holds a settled model.", "quantifier": "every request (method, URL, parameters), content of the index, way int() reads numbers, random draws and failures, and sequence of requests", "why_tests_cant": "URLs and parameters are arbitrary texts; tests send a handful.", "anchors": ["hyperreal/server.py:Cluster", "hyperreal/server.py:ClusterOverview", "hyperreal/server.py:FeatureOverview", "hyperreal/server.py:Index", "hyperreal/server.py:IndexOverview", "hyperreal/server.py:lookup_index", "hyperreal/server.py:SingleIndexServer.index"]}
{"id": "C72", "title": "Links and forms of the web pages lead where they say", "statement": "Every link of the cluster pages, the overview, the details and the list of indexes leads to the page it names (previous and next cluster, the feature in this cluster, the intersection, ...), and the clusters it is about exist. Every button performs the action it names on the cluster of the page or the selected clusters and features with the numbers typed, and shows the page with the result. The search form leads to the feature in the context it was searched in, and every cluster page offers the way to the other clusters.", "quantifier": "every index content, page, link, selection of checkboxes and typed numbers", "why_tests_cant": "The links are made from arbitrary contents and read back as URLs by the server; tests follow a few.", "anchors": ["hyperreal/templates/cluster.html", "hyperreal/templates/index.html", "hyperreal/templates/macros.html", "hyperreal/templates/details.html", "hyperreal/templates/index_listing.html", "hyperreal/server.py:Cluster.index", "hyperreal/server.py:Index.index", "hyperreal/server.py:Index.search"]}
{"id": "C73", "title": "Same seed, same calls, same model", "statement": "Two indexes with the same content, opened with the same random_seed, that receive the same sequence of calls (initialise_clusters, refine_clusters in all its settings and the other edits, each succeeding or failing) return the same results and hold the same content after every call, however many worker processes there are and in whatever order those visit sets and finish; the seed is the only source of chance. Each of these calls does what the same call with some choice of random draws does.", "quantifier": "every random generator, seed, content of the index, sequence of calls and arguments, number of workers, iteration order and completion order in the workers", "why_tests_cant": "Completion orders and iteration orders cannot be enumerated by tests, and a test of one seed says nothing about others.", "anchors": ["hyperreal/index.py:Index.__init__", "hyperreal/index.py:Index.initialise_clusters", "hyperreal/index.py:Index.refine_clusters", "hyperreal/index.py:Index._refine_feature_groups", "hyperreal/index.py:Index._score_proposed_moves", "hyperreal/index.py:Index._find_best_moves", "hyperreal/index.py:measure_feature_contribution_to_cluster"]}
{"id": "C74", "title": "What index() builds does not depend on batch size, number of workers or timing", "statement": "If index() succeeds on a content for a corpus with one batch size, number of workers and order in which batches finish, then it succeeds with every other (unless an exception strikes from outside), and both leave the same documents with the same ids, the same features with the same ids, counts and documents, the same clustering, cluster summaries and field summaries; with index_positions, both position indexes describe the same token sequences, though cut into partitions at other places.", "quantifier": "every corpus with its contract, content of the index, batch sizes, numbers of workers, completion orders and row orders", "why_tests_cant": "Batch sizes and completion orders are unbounded; tests use one machine's.", "anchors": ["hyperreal/index.py:Index.index", "hyperreal/index.py:_index_docs"]}
{"id": "C75", "title": "Every page is its template with the data shown as text", "statement": "What a browser reads in the cluster page, the overview, the details and the list of indexes is exactly the sequence of tags of the template, with the numbers of the index, its clusters and features in the addresses and the fields, values, scores, counts, paths and documents as text: no name of a field, no value, no path and no text document can add, remove or change a tag, an attribute or a link, whatever characters it has. Documents that the corpus gives as markup keep their tags and nothing else changes. Every request the server answers with one of these pages gets one.", "quantifier": "every index content, page, field name, value, score, path, list of documents and request parameter", "why_tests_cant": "Values are arbitrary texts; a test shows a few of them and does not read the whole page.", "anchors": ["hyperreal/templates/base.html", "hyperreal/templates/cluster.html", "hyperreal/templates/index.html", "hyperreal/templates/macros.html", "hyperreal/templates/details.html", "hyperreal/templates/index_listing.html", "hyperreal/server.py:Cluster.index", "hyperreal/server.py:Index.index"]}
{"id": "C76", "title": "What can be sent from a page is exactly what its buttons and its search form say", "statement": "The requests a browser can send by pressing a button in a form of the cluster page, the overview or the details, with any boxes ticked, any options selected and anything typed, are exactly those of the buttons of the page for the cluster, the features and the clusters shown (C72 says what each does), and the searches in the fields of the index: no selection sends an id that is not on the page, every selection of ids that are on the page can be sent, and the page of a pinned cluster offers nothing but to unpin it. The list of indexes sends nothing.", "quantifier": "every page, selection, typed text and name of a field", "why_tests_cant": "The selections are exponentially many and the names arbitrary texts; tests press few buttons.", "anchors": ["hyperreal/templates/cluster.html", "hyperreal/templates/index.html", "hyperreal/templates/macros.html", "hyperreal/templates/details.html", "hyperreal/templates/index_listing.html"]}
{"id": "C77", "title": "index() limits the batches in flight and does not read ahead", "statement": "While index(doc_batch_size, workers) reads the keys of the corpus, at every moment at most workers + 1 batches have been handed to the pool and not been collected, and at most workers + 1 batches' worth of keys have been read whose documents are not done, however large the corpus and whichever batch finishes first; and the loop stops to collect results only when workers + 1 batches are out.", "quantifier": "every corpus, batch size, number of workers and order in which batches finish, and every moment of the loop", "why_tests_cant": "The bound must hold at every moment of every schedule for corpora of any length; a test sees a few runs with few batches.", "anchors": ["hyperreal/index.py:Index.index"]}
{"id": "C78", "title": "A data dump or a collection of tweets goes through the command line to tables that say what it contains", "statement": "stackexchange-corpus add-site on a tidy dump and a new corpus file, then index, model, export clusters and sample all succeed, whatever the batch size, the workers, the shuffle and the random draws. The clusters file, read back, has exactly one row for every value of every chosen field that at least --min-docs of the questions and answers of the dump show, with the number of those posts. The sample, read back, has one row for each sampled post with what the dump says about it and a mark under each cluster that has one of its values; no post twice, at most the number asked for per cluster, and none left out of a cluster that has room. The same holds for the clusters of a collection of tweets (with positions: if no tweet lacks a value).", "quantifier": "every tidy and readable dump, readable collection, text function, index file at rest, option, schedule, shuffle and draw", "why_tests_cant": "The chain of four or five processes over arbitrary data and schedules has no finite set of cases; a test runs one dump with one schedule.", "anchors": ["hyperreal/cli.py:stackexchange_corpus_add_site", "hyperreal/cli.py:make_two_file_indexer", "hyperreal/cli.py:make_csv_exporter", "hyperreal/cli.py:model", "hyperreal/cli.py:export_clusters", "hyperreal/corpus.py:StackExchangeCorpus", "hyperreal/corpus.py:TwittersphereCorpus"]}
{"id": "C79", "title": "The graph exported on the command line is the graph of the model of the corpus", "statement": "After index and model on any corpus whose documents can be indexed, export graph writes a graph with one node per cluster, whose document_count is the number of documents that have a value of the cluster and whose label names its --top-k-features most frequent values (all of them for a negative number), and one undirected edge between two clusters exactly when a document has values of both, weighted by the share of the documents of either that belong to both. The index is left as it was. With --exclude-field-in-label a value that is not text raises TypeError and no file is written; a file that is not an index is refused with ValueError. For a data dump all labels can be made, and the documents are its questions and answers.", "quantifier": "every corpus, index file at rest, option, schedule, shuffle, draw, reading order and completion order of the parallel comparisons", "why_tests_cant": "The graph depends on sets of documents of every size and on the order in which parallel comparisons complete.", "anchors": ["hyperreal/cli.py:export_graph", "hyperreal/index.py:Index.create_cluster_cooccurrence_graph", "hyperreal/index.py:Index.top_cluster_features"]}
{"id": "C80", "title": "What serve shows is the model of the documents, and looking changes nothing", "statement": "serve refuses a file that is not an index and otherwise answers every request. Requests that only read leave a current index file with the same contents, and a genuine file of an older version either untouched or upgraded with everything kept; whatever is requested, the file stays one that can be served, at rest between requests. Served without a corpus no answer shows documents. After create or add-site, index and model, the overview lists every cluster of the model once, and the page of each cluster lists its values, says how many documents have one of them and shows 30 of these documents (or all if there are fewer), each once, under its key and as the corpus renders it: the line of the text file, the template filled in with what the dump says about the post, or with the stored tweet. The model is of exactly the values that at least --min-docs documents have in the chosen fields.", "quantifier": "every file, sequence of requests with their draws and failures, tidy corpus, option, schedule and completion order", "why_tests_cant": "Sequences of requests, corpora and schedules are unbounded, and what a page must show depends on the whole chain of commands before it.", "anchors": ["hyperreal/cli.py:plaintext_corpus_serve", "hyperreal/cli.py:stackexchange_corpus_serve", "hyperreal/cli.py:twittersphere_corpus_serve", "hyperreal/cli.py:serve", "hyperreal/server.py:lookup_index", "hyperreal/server.py:cleanup_index", "hyperreal/server.py:SingleIndexServer", "hyperreal/server.py:launch_web_server", "hyperreal/corpus.py:PlainTextSqliteCorpus.render_docs_html"]}
{"id": "C81", "title": "The dumps of several sites in one corpus are kept apart", "statement": "stackexchange-corpus add-site on one new corpus file for the tidy dumps of any number of different sites, one after the other, succeeds each time. The corpus then has exactly the questions and answers of all dumps, in order, under the keys 1, 2, and so on, and each document is made from the dump of its own site alone, although sites use the same ids for posts, users, comments and tags: it is the document that this dump gives alone, but for the number of the site. index, model, export clusters, sample and serve on this corpus count, sample and show exactly these documents. If add-site fails for one dump, the corpus is what the dumps before it made.", "quantifier": "every list of tidy and readable dumps of different sites, text function, index file at rest, option, schedule, shuffle, draw and sequence of requests", "why_tests_cant": "Any id may collide between sites, in any of four tables, for any number of sites; a test fixes a few dumps and ids.", "anchors": ["hyperreal/cli.py:stackexchange_corpus_add_site", "hyperreal/corpus.py:StackExchangeCorpus.add_site_data", "hyperreal/corpus.py:StackExchangeCorpus.docs", "hyperreal/corpus.py:StackExchangeCorpus.render_docs_html", "hyperreal/corpus.py:StackExchangeCorpus.render_docs_table"]}
{"id": "C82", "title": "Adding newer dumps of a site replaces what changed, adds what is new and removes nothing", "statement": "stackexchange-corpus add-site for any number of tidy dumps of the same site, one after the other, succeeds each time. A question or answer keeps its key for good; its title, body, date and author are those of the last dump that has it, new ones get the next keys, and comments, users and tags of later dumps replace those with the same id or are added. If the newest dump still has everything the earlier ones had, the corpus is exactly that of the newest dump. Otherwise it is not: deleted posts and comments, names of deleted users and removed tags stay.", "quantifier": "every list of tidy dumps of one site", "why_tests_cant": "The result depends on the whole history of dumps, with arbitrary overlaps of ids between them; a test fixes one history.", "anchors": ["hyperreal/cli.py:stackexchange_corpus_add_site", "hyperreal/corpus.py:StackExchangeCorpus.add_site_data", "hyperreal/corpus.py:StackExchangeCorpus.docs"]}
{"id": "C83", "title": "index() with a working directory does what index() does and leaves nothing behind", "statement": "index(working_dir=d) keeps its temporary files in d, succeeds exactly when index() without it does and gives the same index. The directory is kept, none of the files of the call stay in it, other directories are not touched, and nothing left in d by an earlier call, failed or not, influences a later one.", "quantifier": "every corpus, index file at rest, configuration, schedule, fault, kind of working_dir value and history of earlier calls with the same directory", "why_tests_cant": "What a later call finds depends on the point at which the earlier one failed and on which batches had been written by then; a test fixes one failure point.", "anchors": ["hyperreal/index.py:Index.index", "hyperreal/index.py:_index_docs"]}
{"id": "C84", "title": "Rendered tweets show the tweet's own data", "statement": "render_docs_html of a collection of tweets returns one page per given key, in order, made from the tweet with that key: in the list of documents a browser reads its author's present user name, display name, picture and link, the link, time and text of the tweet, its counts and when it was retrieved, character references as the characters they stand for. The call changes nothing and leaves nothing open.", "quantifier": "every collection that can be read, list of keys, counts, profiles and texts", "why_tests_cant": "Texts, names and lists of keys are arbitrary; a test fixes a few tweets.", "anchors": ["hyperreal/corpus.py:TwittersphereCorpus.render_docs_html", "hyperreal/corpus.py:TwittersphereCorpus.docs", "hyperreal/corpus.py:TwittersphereCorpus._retrieve_user"]}
{"id": "C85", "title": "From the corpus to the screen", "statement": "After creating a corpus, indexing it and fitting a model, the page of a cluster that the web server sends shows, in a browser, the documents of that cluster themselves: one box with how many documents of the corpus have a value of the cluster, and in it thirty of them, or all if there are fewer, each once, each with its own contents: the line of a text file with exactly its characters, the title, site, authors, tags and comments of a post, the author, text and counts of a tweet. Around the box is the page of the cluster and nothing else.", "quantifier": "every text file, list of site dumps or collection of tweets, configuration, fair schedule, model arguments, luck, cluster and web schedule", "why_tests_cant": "Contents, vocabularies and schedules are arbitrary and what a browser reads depends on every character of them; a test fixes one corpus.", "anchors": ["hyperreal/cli.py:plaintext_corpus_serve", "hyperreal/server.py:Cluster", "hyperreal/corpus.py:PlainTextSqliteCorpus.render_docs_html", "hyperreal/corpus.py:StackExchangeCorpus.render_docs_html", "hyperreal/corpus.py:TwittersphereCorpus.render_docs_html"]}
{"id": "C86", "title": "Indexing changed documents under an existing model", "statement": "When the documents of a corpus have changed, or the corpus has been replaced by another, and index is run again on an index file that already has a model, then serving it needs no new model: every value of the model stays in its cluster, the overview lists every cluster, and the page of each cluster is about the new documents. It counts those that have a value of the cluster and shows thirty of them, or all if there are fewer, each once and with its contents. It lists the values of the cluster that still occur, or all of them if no document has any.", "quantifier": "every index file with any model, every new text file, list of site dumps or collection of tweets, configuration, fair schedule, cluster and web schedule", "why_tests_cant": "The old index, its model and the new documents are unrelated and arbitrary; a test fixes one pair of corpora.", "anchors": ["hyperreal/index.py:Index.index", "hyperreal/cli.py:plaintext_corpus_serve", "hyperreal/server.py:Cluster", "hyperreal/index.py:Index.cluster_features", "hyperreal/index.py:Index.pivot_clusters_by_query"]}
{"id": "C87", "title": "A search finds the documents", "statement": "After a corpus has been indexed and modelled, or indexed again under an older model, the search form of the web interface finds documents by their contents. Searching for a text in a field shows how many documents of the corpus have that text as a value of the field and five of these, or all if there are fewer, each once and with its contents; and it lists exactly the clusters with a value that such a document has, the closest first, each with the forty closest of these values. On the page of a cluster the search shows the same for the documents that also have a value of the cluster. A text that no document has gives an error or the overview, which lists every cluster with the number of its documents and its most frequent values; no search changes the index.", "quantifier": "every text file, list of site dumps or collection of tweets, index file, configuration, fair schedule, model, field, text, cluster other than 0 and web schedule", "why_tests_cant": "Contents, models, texts to search for and schedules are arbitrary, and the claim relates the answer to every document of the corpus; a test fixes one corpus and one text.", "anchors": ["hyperreal/server.py:Index", "hyperreal/server.py:Cluster", "hyperreal/server.py:Index.search", "hyperreal/index.py:Index.pivot_clusters_by_query", "hyperreal/index.py:Index.lookup_feature_id", "hyperreal/index.py:Index.top_cluster_features"]}
{"id": "C88", "title": "What a search shows on the screen", "statement": "The answer to a search, and the overview, can always be made into a page. What a browser reads is the page without results with one box added, which says how many documents of the corpus were found and lists the five chosen ones (thirty on the page of a cluster), or all if there are fewer, each once and with exactly its contents, whatever characters they contain. If no document was found there is no such box.", "quantifier": "every text file, list of site dumps or collection of tweets, index file, configuration, fair schedule, model, field, text, cluster other than 0 and web schedule", "why_tests_cant": "Contents may hold any characters that have a meaning in HTML, and the box must be read right wherever it stands; a test fixes one corpus and one text.", "anchors": ["hyperreal/server.py:Index", "hyperreal/server.py:Cluster", "hyperreal/server.py:Index.search", "hyperreal/templates/index.html", "hyperreal/templates/cluster.html"]}
{"id": "C89", "title": "The details page describes the corpus", "statement": "After a corpus has been indexed, the details page of the web interface has exactly one row for each field of which a document of the corpus has a value or the index file had a value before. The row shows how many different values these are, the least and the greatest of them, and the number of positions of the field: for a text file that is the number of all its tokens, and nought if positions are not indexed. Making a model changes nothing in these rows, but the number of clusters shown. While there are no clusters, the overview leads to the same page. A browser reads the page as its template, with the rows and that number filled in.", "quantifier": "every text file, list of site dumps or collection of tweets, index file, configuration, fair schedule and model", "why_tests_cant": "The numbers come from statements that run over batches of documents on a file with any earlier contents; a test fixes one corpus and one schedule.", "anchors": ["hyperreal/server.py:Index.details", "hyperreal/server.py:Index.index", "hyperreal/index.py:Index.index", "hyperreal/index.py:Index.indexed_field_summary", "hyperreal/templates/details.html"]}
{"id": "C90", "title": "The concordance of an indexed text file", "statement": "After a text file has been imported and indexed, the concordances of any words in the documents that contain a given word are exactly: every line that contains it, once, in the order of the file, with its key and id (or as many such lines as the sample asks for, all if there are fewer); for each of the words that stands in the line, one context for each place where it stands, in order, with the tokens of that line at most the window size away, joined by the separator; and nothing about any other word, field or line.", "quantifier": "every text file, tokeniser, index file, configuration, fair schedule, word, list of words, window size, separator and sample size", "why_tests_cant": "Tokens at the edges of lines, repeated words, overlapping windows and earlier contents of the index come in every combination; a test fixes one file and one window.", "anchors": ["hyperreal/index.py:Index.concordances", "hyperreal/index.py:Index.extract_matching_feature_windows", "hyperreal/corpus.py:PlainTextSqliteCorpus.index", "hyperreal/cli.py:plaintext_corpus_index"]}
{"id": "C91", "title": "Passages that are found can be rendered, and show the words together", "statement": "Whenever the index has positions, a passage search for known features succeeds and what it finds can be rendered: one row for each document with a passage, and no others. In particular, after a text file has been imported and indexed with positions, searching for two different words of the file and rendering the result gives one row, with the key, the id and the text of the passages, for every line in which the words stand at most the window size apart, each such pair of places in one passage whose text has both words; and no row for any other line.", "quantifier": "every corpus of texts or text file, tokeniser, index file, configuration with positions, fair schedule, clauses, pair of words, window size, overhang, batch size and order in which workers finish", "why_tests_cant": "Positions of all documents are stored end to end in partitions, so that whether a passage is right depends on its neighbours and on the batches; a test fixes one file.", "anchors": ["hyperreal/index.py:Index.score_passages_dnf", "hyperreal/index.py:Index.render_passages_table", "hyperreal/index.py:_score_passages_dnf", "hyperreal/corpus.py:PlainTextSqliteCorpus.index", "hyperreal/cli.py:plaintext_corpus_index"]}
{"id": "C92", "title": "The Hansard example finds pages by their day, month and year and shows them", "statement": "After the example corpus of the Australian Hansard has been indexed, document i is the i-th page, and a lookup of a value in a field finds exactly the pages that have it: the words of their text, house, debate, parliament, day, month and year, and the tags and classes of their HTML. The pages of a month are those of its days and the pages of a year those of its months, and a page is in one day, month and year only. Rendering shows the pages asked for with their keys, in the order asked for, each as its date, house and title over its own HTML; with an unknown key it raises IndexError. With positions, every passage search for known features succeeds and its result renders to one row for each page found, whose passages are words of the page. Either way nothing changes and no savepoint stays open.", "quantifier": "every database of pages and debates with unique ids, HTML parser, tokeniser, index file, configuration, fair schedule, value, and list of keys", "why_tests_cant": "Dates come at ends of months and years, NULL and empty columns in every combination, and index() in batches; a test fixes a few pages.", "anchors": ["examples/australian_federal_hansard/hansard_corpus.py:HansardCorpus.docs", "examples/australian_federal_hansard/hansard_corpus.py:HansardCorpus.index", "examples/australian_federal_hansard/hansard_corpus.py:HansardCorpus.render_docs_html", "examples/australian_federal_hansard/hansard_corpus.py:HansardCorpus.keys", "hyperreal/index.py:Index.index"]}
{"id": "C93", "title": "Trends over the values of a field add up, and the plots show percentages", "statement": "If every document has exactly one value in a field, as posts, tweets and pages have one year, month and day, then after indexing the totals that intersect_queries_with_field returns for the field add up to the number of documents, and the counts of a query to the number of its documents. In the plots of the example script no division is by zero, every share is the percentage of the documents with the value (or of those of a reference query with the value) that are in the query, and lies between 0 and 100. The plot of a list of clusters has one line for each cluster, in the order listed, with a point for every value but the first and the last, in ascending order.", "quantifier": "every corpus that can be indexed, index file, configuration, fair schedule, set of queries, single-valued field, and list of clusters with their first values", "why_tests_cant": "It says something about sums over all values of all documents and about every index a call may leave; a test fixes one corpus and a few queries.", "anchors": ["hyperreal/index.py:Index.intersect_queries_with_field", "hyperreal/index.py:Index.iter_field_docs", "hyperreal/index.py:Index.cluster_docs", "examples/stackoverflow/visuals.py", "hyperreal/corpus.py:StackExchangeCorpus.index", "hyperreal/corpus.py:TwittersphereCorpus.index"]}
