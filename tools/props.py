#!/usr/bin/env python3
"""Generates properties.jsonl (kept as a script so that the list stays easy to edit)."""
import json, os
P = []
def p(title, statement, quantifier, why, anchors):
    P.append(dict(id="C%02d" % (len(P)+1), title=title, statement=statement,
                  quantifier=quantifier, why_tests_cant=why, anchors=anchors))
U="hyperreal/utilities.py"; I="hyperreal/index.py"; S="hyperreal/_index_schema.py"; C="hyperreal/corpus.py"; W="hyperreal/server.py"; CLI="hyperreal/cli.py"

p("bstm returns the exact top-k, keeping all ties of the lowest rank",
  "utilities.bstm(matching, bitslice, k) returns a subset of matching that is closed upwards in weight (a returned document never weighs less than a dropped one); it has at least min(k, |matching|) members, and whenever it has more than k members the documents strictly heavier than the lightest returned one number fewer than k. When |matching| <= k it returns exactly matching.",
  "every set of matching documents, every list of bit slices, every k",
  "The procedure branches on the number of candidates at every bit level; the wrong branch only shows for particular weight distributions and tie patterns, of which tests sample a few.",
  [U+":bstm"])
p("compute_bitslice counts exactly",
  "For any sequence of document sets, utilities.compute_bitslice returns the union of the sets, and a bit slice in which the binary number read for each document equals the number of input sets containing it.",
  "every finite sequence of bitmaps (any length, any overlap)",
  "Carry propagation through an unbounded number of layers; a lost carry only shows at particular multiplicities.",
  [U+":compute_bitslice"])
p("weight_bitslice inverts compute_bitslice",
  "weight_bitslice yields every document present in some slice exactly once, in ascending order, with its weight; applied to compute_bitslice(bitmaps) it yields exactly the matching documents with the number of bitmaps each occurs in.",
  "every bit slice, every sequence of bitmaps",
  "Round-trip law over all inputs; a merge or grouping error depends on interleavings of document ids across layers.",
  [U+":weight_bitslice", U+":compute_bitslice"])
p("cluster_query agrees with cluster_docs and per-feature queries",
  "For every cluster of the saved model, cluster_query(c)[0] equals cluster_docs(c) and the union of idx[f] for the cluster's features, and the bit slice it returns weighs every document by the number of the cluster's features matching it.",
  "every index content and every reachable saved model",
  "Requires the stored summary to agree with recomputation after any history of edits.",
  [I+":Index.cluster_query", I+":Index.union_bitslice", I+":Index.cluster_docs"])
p("Position windows cover the neighbourhood and stay inside the document",
  "expand_positions_window(positions, boundaries, w) contains exactly the positions that lie in the same document as some given position and at distance at most w from it.",
  "every set of positions, every document layout, every window size",
  "The boundary between two documents is one position among many; tests use large documents or look only at sizes.",
  [U+":expand_positions_window"])
p("Feature lookups return exactly the documents containing the value",
  "After index() succeeds, for every field and value idx[(field, value)] and idx[feature_id] is exactly the set of ids of the documents whose corpus.index() mapping contains that value in that field, whatever doc_batch_size and whatever order the batches finish in; unknown features give the empty set.",
  "every corpus, every batch size, every completion order of the worker batches, with and without positions, every previous content of the index",
  "Depends on batching and on the schedule of worker processes writing segments.",
  [I+":Index.index", I+":_index_docs", I+":Index.__getitem__"])
p("Stored document counts are the true cardinalities",
  "After index() every stored docs_count of a feature equals the number of documents the feature matches, and the per-feature count denormalised into the clustering model equals it as well.",
  "every corpus, batch size, completion order and previous state",
  "Counts are summed over batches; they are only right if no document is counted in two segments, whatever the batching.",
  [I+":Index.index", I+":Index.cluster_features"])
p("Reindexing preserves feature ids and the model's assignment",
  "index() on an already indexed database keeps the feature_id of every (field, value) that was known before, gives new values new ids, never gives two features one id, and leaves every feature in the cluster it was assigned to; features that no longer occur keep their id and match no document.",
  "every previous index state and model, every new corpus",
  "Quantifies over pairs of corpora and over the model in between.",
  [I+":Index.index"])
p("Document ids and keys are a bijection",
  "After index(), document ids are 0..n-1 in corpus.keys() order, convert_query_to_keys(q) returns for every document id in q its key, mapped back to that id, and nothing else; a query containing an unindexed id is rejected with an error.",
  "every corpus with distinct keys and every query",
  "For every query over every corpus size.",
  [I+":Index.index", I+":Index.convert_query_to_keys", I+":Index.docs"])
p("Position index round-trips to (document, offset)",
  "With index_positions=True, for each sequence field the stored positions decode: a position stored for a feature in a partition corresponds, via the partition's document boundaries, to exactly one (document, offset) and the document has that value at that offset; conversely every occurrence in the corpus is stored.",
  "every corpus, batch size, completion order, field and feature",
  "A coordinate-system invariant over documents of arbitrary lengths including empty ones.",
  [I+":_index_docs", I+":Index._get_partition_header", I+":Index._get_partition_positions"])
p("Batch dispatch covers every document exactly once",
  "The batches sent to the workers are non-empty, at most max(1, doc_batch_size) long, and their concatenation is exactly the enumeration of corpus.keys(); every future submitted is awaited, so an error in any batch makes index() raise.",
  "every corpus, doc_batch_size, worker count and completion order",
  "The last partial batch and futures drained early by the back-pressure branch depend on sizes and schedules.",
  [I+":Index.index"])
p("A failing index() leaves the previous index intact",
  "If index() raises, the database content is exactly what it was before the call.",
  "every failure point inside index(), every previous state",
  "Needs fault injection at every statement.",
  [I+":Index.index"])
p("Reindexing is crash-atomic and readers see only complete indexes",
  "At every moment of index(), what another process reads (and what a crash at that moment leaves) is either the complete old index or the complete new one, and any cluster whose stored summary may disagree with the index is recorded as pending so the next modification of the model repairs it.",
  "every crash point and every reader interleaving during index()",
  "Crash points and reader schedules cannot be enumerated by tests.",
  [I+":Index.index", I+":Index._update_changed_clusters"])
p("index() can be retried after an interrupted run",
  "After a crash or failure of index() at any point, calling index() again succeeds and produces the same index as if the interruption had not happened.",
  "every crash point, every model",
  "The failing combination (crash in a narrow window, model present) is never produced by a test.",
  [I+":Index.index", S+":CURRENT_SCHEMA"])
p("Cluster summaries are exact after every operation",
  "After any sequence of successful or failed model operations (initialise, delete, merge, create, remove features, pin, refine) every stored cluster has feature_count equal to the number of its features (> 0), doc_ids equal to the union of its features' documents, docs_count its cardinality, weight the sum of its features' document counts; and a cluster exists exactly when it has a feature.",
  "every history of public model operations with arbitrary arguments",
  "Invariant over unbounded histories.",
  [I+":Index._update_changed_clusters", I+":atomic", S+":CURRENT_SCHEMA"])
p("Every feature is in at most one cluster",
  "In every reachable state each feature belongs to at most one cluster, that cluster exists, and the feature exists in the index.",
  "every history of public model operations",
  "Invariant over unbounded histories.",
  [S+":CURRENT_SCHEMA", I+":Index"])
p("Decorated methods are all-or-nothing, at any nesting depth",
  "A call of an atomic method, at any nesting depth of atomic methods calling one another and catching each other's exceptions, either returns normally with all its effects committed exactly once (when outermost) or raises with the database exactly as before the call; nothing is visible to other connections before the outermost call ends, and no transaction stays open afterwards.",
  "every program built from database statements, nested atomic calls and exception handlers",
  "Quantifies over all nestings and exception points.",
  [I+":atomic"])
p("initialise_clusters deals the selected features evenly",
  "initialise_clusters(n, min_docs, include_fields) discards the old model and assigns every feature of the included fields matching at least min_docs documents, and no other, to exactly one of the clusters 0..n-1; cluster sizes differ by at most one, and exactly min(n, number of features) clusters exist.",
  "every index, n, min_docs, field selection, and every outcome of the random shuffle",
  "For every shuffle and size.",
  [I+":Index.initialise_clusters"])
p("Model edits act like the obvious map operations",
  "delete_clusters, delete_features, merge_clusters and create_cluster_from_features change the feature -> cluster assignment exactly as the corresponding operations on a finite map: removing the keys, redirecting merged clusters to the first one, assigning the given features to the returned cluster; nothing else moves.",
  "every state and every argument list (duplicates, unknown ids and empty lists included)",
  "Refinement for all states and arguments.",
  [I+":Index.delete_clusters", I+":Index.delete_features", I+":Index.merge_clusters", I+":Index.create_cluster_from_features"])
p("New cluster ids are fresh",
  "The id returned by next_cluster_id and create_cluster_from_features is greater than every existing cluster id, and after creation that cluster contains exactly the requested features.",
  "every state and feature list",
  "For all states.",
  [I+":Index.next_cluster_id", I+":Index.create_cluster_from_features"])
p("Pins change only pins and survive other edits",
  "pin_features/pin_clusters set the pin of exactly the named existing features/clusters and change nothing else; other operations keep the pin of every feature that stays in the model and of every cluster that continues to exist.",
  "every state and argument list",
  "For all states.",
  [I+":Index.pin_features", I+":Index.pin_clusters"])
p("Refinement permutes, never loses, features",
  "refine_clusters, whatever its parameters, scores and random choices, leaves the set of features in the model unchanged with each still in exactly one cluster.",
  "every model, parameter setting, scoring outcome and random stream",
  "Random search over unbounded iterations.",
  [I+":Index.refine_clusters", I+":Index._refine_feature_groups", I+":Index._update_cluster_feature"])
p("Pinned features and clusters are not touched by refinement",
  "After refine_clusters every pinned feature is in the cluster it was in before, and every pinned cluster has exactly the features it had before.",
  "every model, parameter setting, scoring outcome and random stream",
  "Random search over unbounded iterations.",
  [I+":Index.refine_clusters", I+":Index._refine_feature_groups"])
p("Restricted refinement leaves other clusters alone",
  "refine_clusters(cluster_ids=S) moves only features of clusters in S, and only to clusters in S or to newly created clusters; all other clusters keep exactly their features.",
  "every model, non-empty subset S, parameters and random streams",
  "Random search over unbounded iterations.",
  [I+":Index.refine_clusters"])
p("Refinement never shrinks a cluster below the minimum",
  "Without a cluster target, a refined cluster that has at least minimum_cluster_features features before refine_clusters has at least that many afterwards; so with the default minimum of 1 no cluster disappears, and no new cluster appears.",
  "every model, parameter setting, scoring outcome and random stream",
  "Random search over unbounded iterations.",
  [I+":Index._refine_feature_groups"])
p("Refinement reaches the requested number of clusters",
  "When target_clusters is below the number of selected clusters but above the number of selected pinned ones, exactly the surplus (as far as clusters without pinned features suffice) is dissolved by the last iteration and their features are re-homed; a dissolving cluster is always emptied, so the internal consistency error is never raised.",
  "every model, target, iteration count >= 1, scoring outcome and random stream",
  "Random search over unbounded iterations; rounding of the per-iteration quota.",
  [I+":Index._refine_feature_groups"])
p("Split results are saved under fresh ids",
  "When target_clusters exceeds the number of refined clusters, every new cluster found by the refinement is saved, under a cluster id not used before.",
  "every model, every subset of refined clusters, every number of new clusters",
  "Only fails when locally generated ids partially overlap the globally generated ones.",
  [I+":Index.refine_clusters"])
p("Refinement does not fail on valid models",
  "refine_clusters(iterations >= 1) returns normally on every saved model.",
  "every model, pin set and cluster target",
  "Failing combinations (everything pinned, targets below the number of pinned clusters) are corner cases.",
  [I+":Index.refine_clusters", I+":Index._refine_feature_groups"])
p("Feature contributions are exact objective differences",
  "For every cluster and probe, the objective returned is hits/(c+n) - hits/(hits+n); the score of a feature already in the cluster is the objective minus the objective recomputed from scratch without it (when it overlaps another feature of the cluster), and of a feature outside it the objective with it minus the objective (when it overlaps the cluster); otherwise the documented penalty values; no division by zero occurs.",
  "every index, cluster, candidate set and probe query (exact arithmetic)",
  "Incremental set bookkeeping vs recomputation, for all overlaps.",
  [I+":measure_feature_contribution_to_cluster"])
p("Move selection picks the best tested cluster",
  "The move proposed for a feature is the tested cluster with the greatest (score, cluster id); with top_k > 1 the list is the top_k greatest in descending order. Every movable feature is scored against at least one cluster: against all clusters with features when there is no group testing; with group testing the clusters are divided evenly into the given number of groups and it is scored against exactly the clusters of the group_test_top_k groups in which, as one cluster, its score is greatest, and possibly its own cluster. The objectives reported are those of the clusters.",
  "every scoring outcome, clustering, group size and top_k >= 1",
  "Heap bookkeeping over arbitrary score streams.",
  [I+":Index._score_proposed_moves", I+":Index._find_best_moves"])
p("Pivot ranking within a cluster is the exact top-k despite pruning",
  "For every cluster the features returned by pivot_clusters_by_query are exactly the top_k features by (similarity, feature id) among those with positive Jaccard similarity, in descending order of similarity, for any monotone rounding of the quotients.",
  "every index, query with a hit in the cluster, top_k >= 1 and any monotone rounding of the division",
  "The early exit depends on an upper bound being valid for every feature.",
  [I+":_pivot_cluster_features_by_query_jaccard"])
p("Pivot covers every overlapping cluster once, independent of scheduling",
  "pivot_clusters_by_query yields each requested cluster that shares a document with the query exactly once, none other, in descending order of Jaccard similarity, whatever the number of workers and the completion order.",
  "every model, query, worker count and completion order",
  "Schedules.",
  [I+":Index.pivot_clusters_by_query", I+":_calculate_query_cluster_cooccurrence"])
p("The cluster graph has an edge exactly for overlapping clusters",
  "create_cluster_cooccurrence_graph has one node per cluster and an undirected edge between two distinct clusters exactly when they share a document, weighted by the Jaccard similarity of their document sets, whatever the completion order.",
  "every model and completion order",
  "Schedules and pair enumeration.",
  [I+":Index.create_cluster_cooccurrence_graph"])
p("Sampling is without replacement and within bounds",
  "sample_bitmap(b, k) returns a subset of b of exactly min(k, |b|) members; structured_doc_sample returns for every requested cluster a subset of its documents, the samples of different clusters are disjoint, each has at most docs_per_cluster members and is as large as the not-yet-sampled documents permit, and the second result lists exactly the sampled documents of each cluster.",
  "every bitmap, size, model and random stream",
  "For every random stream.",
  [I+":Index.sample_bitmap", I+":Index.structured_doc_sample"])
p("Field intersections are aligned and exact",
  "intersect_queries_with_field returns the distinct values of the field occurring in at least one document in ascending order, their document counts, and for each query a list aligned with the values giving the number of query documents having the value.",
  "every index, field and set of queries",
  "For all inputs.",
  [I+":Index.intersect_queries_with_field", I+":Index.iter_field_docs"])
p("Concordance windows show each match with its neighbourhood",
  "extract_matching_feature_windows returns, for each document of the query and each requested value of a sequence field, one window per occurrence in order of occurrence, namely the tokens at distance at most window_size in the same document; values that do not occur get no window.",
  "every corpus, query, feature list and window size",
  "Boundary arithmetic at both ends of every document.",
  [I+":Index.extract_matching_feature_windows", I+":Index.concordances"])
p("Passage search returns only and all documents with a matching passage",
  "score_passages_dnf covers every group of matches of all clauses that lie in one document at pairwise distance at most window_size by a passage of that document, and every passage it returns begins and ends at matches of that document that have a match of every clause within window_size in the same document.",
  "every corpus, query and window size",
  "Errors sit at document boundaries and at the last passage of a partition.",
  [I+":_score_passages_dnf", I+":Index.score_passages_dnf"])
p("Passage scores describe real spans",
  "Every passage (field, start, end, count) returned by score_passages_dnf satisfies start <= end, start and end are offsets of matched positions of that document, count is the number of matched positions between them, and the passages of one field of a document are disjoint and in ascending order, more than window_size apart.",
  "every partition, query and window size",
  "Walk over arbitrary position sets.",
  [I+":_score_passages_dnf"])
p("Collocation counts are within the chosen field",
  "count_collocations(field, features, w) counts for each other feature of the field its occurrences in the window around the query features and its total occurrences; features of other fields are not mixed in.",
  "every corpus with any number of positional fields, every query and window size",
  "Only shows with several positional fields.",
  [I+":_count_collocations", I+":Index.count_collocations"])
p("Rendered passages contain the whole passage",
  "render_passages_table returns for every scored passage the text from start to end inclusive plus the overhang on both sides.",
  "every document, passage and overhang",
  "Slice boundary arithmetic for all values.",
  [I+":_construct_passages", I+":Index.render_passages_table"])
p("replace_docs is all-or-nothing and round-trips",
  "PlainTextSqliteCorpus.replace_docs(texts) either leaves the corpus unchanged or makes docs() yield exactly the (non-null) texts in order under keys 1..n.",
  "every previous corpus, every text sequence, every failure point of the source iterator",
  "Fault injection at every element.",
  [C+":PlainTextSqliteCorpus.replace_docs", C+":PlainTextSqliteCorpus.docs"])
p("StackExchange import keeps document ids stable and is idempotent",
  "add_site_data keeps the doc_id of every post already present under the same site and post id, never assigns one doc_id to two posts, changes no other site's posts, and importing the same dump twice leaves the documents served unchanged.",
  "every database state, every dump",
  "Histories of imports.",
  [C+":StackExchangeCorpus.add_site_data", C+":StackExchangeCorpus.docs"])
p("Schema migration is decided by version, atomic and idempotent",
  "Opening a database creates the schema when empty, does nothing when current, upgrades every known older version to the current one in one transaction, and rejects everything else without touching it; opening again never migrates.",
  "every database version and content, every failing statement",
  "Version matrix and fault points.",
  [S+":migrate", I+":Index.__init__"])
p("Datetime rounding is a nested truncation",
  "round_datetime returns truncations that are not later than the input, each coarser one being a truncation of the finer one; two datetimes share a bucket exactly when they agree on the components down to that granularity; rounding is idempotent and monotone.",
  "every datetime",
  "All datetimes.",
  [U+":round_datetime"])
p("Cluster navigation is a ring",
  "In the web interface the previous/next links of the cluster pages visit every cluster: next and previous are inverse to each other and following next from any cluster reaches all clusters.",
  "every model and cluster",
  "For every number of clusters, including one.",
  [W+":Cluster.index"])
p("The web views return the requested result type",
  "The cluster and index views return concordances when the concordance result type is requested, passages for passage and rendered documents otherwise.",
  "every request",
  "Decision table over result types.",
  [W+":Cluster.index", W+":Index.index"])
p("The field summary describes the indexed corpus",
  "After index() indexed_field_summary lists every field of the corpus with the number of distinct values, the least and greatest value and the number of stored positions.",
  "every corpus and previous index state",
  "Depends on what a previous corpus left behind.",
  [I+":Index.indexed_field_summary", I+":Index.index", I+":Index.positional_fields"])
p("Every bundled corpus can be indexed with positions",
  "index(index_positions=True), the command line default, succeeds for every document of the bundled corpora.",
  "every document of the PlainText, StackExchange and Twittersphere corpora",
  "Depends on which optional attributes a document has.",
  [C+":TwittersphereCorpus.index", I+":_index_docs", CLI+":make_two_file_indexer"])
p("Corpus-dependent methods fail cleanly without a suitable corpus",
  "A method that requires a corpus raises CorpusMissingError when none is attached and UnsupportedCorpusOperation when the corpus lacks the capability, before touching any state, and otherwise behaves as the plain method.",
  "every method body, corpus and state",
  "For all bodies and states.",
  [I+":requires_corpus"])
p("Exported sample rows are aligned",
  "export_document_sample writes for every sampled document one row with its own key and fields, the cluster it was sampled for, and a mark in the column of cluster c exactly when the document belongs to c.",
  "every index, sample and corpus with distinct keys",
  "Alignment of two independent iterations for all samples.",
  [I+":Index.export_document_sample"])
p("Cluster listings are ranked and truncated correctly",
  "cluster_features(c, k) returns the k most frequent features of the cluster with their stored counts in descending order; top_cluster_features lists every cluster once in descending order of document count; exporting all clusters lists every feature of the model exactly once.",
  "every model and k",
  "For all models.",
  [I+":Index.cluster_features", I+":Index.top_cluster_features", CLI+":export_clusters"])
p("The model command creates, restarts or refines as documented",
  "The model command initialises when there is no model, reinitialises only with --restart and confirmation, otherwise keeps the model's feature set and only refines. What it does is what initialise_clusters and refine_clusters do with the command's options as parameters.",
  "every index state and option combination",
  "Decision table combined with all states.",
  [CLI+":model"])
p("Work done inside a with block is private and discarded",
  "Between entering and leaving `with idx:` no effect of any atomic method called on it is visible to another connection, and after the block ends everything done inside is discarded.",
  "every sequence of method calls in the block, successful or failing",
  "For all call sequences and method bodies.",
  [I+":Index.__enter__", I+":Index.__exit__", I+":atomic"])

p("Features can be looked up by id, by key and by range",
  "lookup_feature_id and lookup_feature are inverse to each other on the features of the index, idx[(field, value)] and idx[feature_id] return the same documents, unknown features have no documents and raise KeyError on lookup, and idx[(field, a):(field, b)] returns the documents matching a value between a and b.",
  "every index, field, value and feature id",
  "For all indexes; the slice form is only documented.",
  [I+":Index.__getitem__", I+":Index.lookup_feature", I+":Index.lookup_feature_id"])

p("The web views show the documents and clusters asked for",
  "The cluster view lists every feature of the cluster once, ranked by similarity to the documents of the cluster restricted by the chosen feature and filter cluster, and reports the number of those documents; an unknown cluster is answered with 404. The index view redirects when there is no model, lists all clusters with their most frequent features when there is no query with documents, and otherwise ranks exactly the clusters sharing documents with the query. The results shown on both are rendered from those documents, or, when passages are requested, are the passages in which the features of the cluster, the chosen feature and the features of the filter cluster occur near each other.",
  "every model, request and row order",
  "For all models and combinations of request parameters.",
  [W+":Cluster.index", W+":Index.index"])
p("Rendered documents are paired with their ids and keys",
  "render_docs_html(query, random_sample_size=k) returns min(k, |query|) distinct documents of the query, each with its own document id, key and rendering; render_docs_table the same documents in the order of their ids, each with its own key and row.",
  "every query, sample size, random choice and corpus whose renderer answers with the keys it was given",
  "For all queries and random choices.",
  [I+":Index.render_docs_html", I+":Index.render_docs_table"])

p("plaintext-corpus create keeps one document per line",
  "After `plaintext-corpus create` the corpus holds exactly the lines of the text file that are not only white space, in order, quoted documents decoded as the help says.",
  "every text file",
  "For all file contents.",
  [CLI+":plaintext_corpus_create", C+":PlainTextSqliteCorpus.replace_docs"])
p("Sequences of web requests keep the model settled",
  "After every sequence of POST requests, successful or failing, with any parameters, the index file holds a model whose cluster summaries are exact and in which nothing is pending.",
  "every sequence of requests, draws and worker failures",
  "For all histories.",
  [W+":ClusterOverview", W+":FeatureOverview", W+":Index.recreate_model", W+":Index.refine_model"])
p("Web actions do exactly what they say and lead to an existing page",
  "Each POST action has exactly the effect of the corresponding index operation on the given clusters or features, changes nothing when it answers with an error, and redirects to a page that exists.",
  "every action, its parameters and model",
  "For all models and parameters.",
  [W+":ClusterOverview", W+":FeatureOverview", W+":Index.recreate_model"])
p("The search finds every feature of a field",
  "Searching a field for a value redirects to the feature with that field and value whenever there is one.",
  "every index, field and value",
  "For all indexes; values are not always text.",
  [W+":Index.search", W+":Cluster.search", I+":Index.lookup_feature_id"])

p("Concurrent processes behave as if they ran one after another",
  "When any number of processes and threads each use their own Index on one file, every call has the effect and the result it has alone on one committed content that was current during the call, or it raises and has no effect; edits are applied one after another and none is lost; a decorated query (one that is not a generator and starts no pool jobs) sees one content, see C70 for the others; every committed content has its references in order and is settled except between the two commits of an index() call.",
  "every number of connections, interleaving of their commands, refusal of a command by SQLite, failure of the housekeeping, and death of a process at any moment",
  "Tests run a few interleavings; the property quantifies over all of them.",
  [I+":atomic", I+":Index.__init__", I+":Index.index", I+":Index._update_changed_clusters", I+":Index.refine_clusters"])

p("Exported spreadsheets read back exactly",
  "Reading a file written by `export clusters`, by the web export or by export_document_sample with Python's csv.reader gives back the header and exactly the exported rows, whatever the values contain (quotes, commas, line breaks, nothing), as long as no cell is longer than the reader's field limit. For the full cluster export that is one row per feature of the model with its cluster, id, field, value and document count.",
  "every model, every content of fields and values, every order of rows",
  "Tests use a few tame values; the property quantifies over all texts.",
  ["hyperreal/cli.py:export_clusters", W+":Index.export_clusters", I+":Index.export_document_sample"])

p("Rendered StackExchange posts show the post's own data",
  "render_docs_html and render_docs_table return one entry per given key, in order, made from the post with that key: its own id, author, license, kind and body, the title and tags of its question, and its comments; in the table the comments are JSON that reads back. The data agrees with what docs() gives the indexer. The calls change nothing and leave nothing open.",
  "every dump, database, list of keys and order of tags",
  "For all dumps and keys, including posts without titles, deleted users and any characters.",
  [C+":StackExchangeCorpus._get_rendered_doc_fields", C+":StackExchangeCorpus.render_docs_html", C+":StackExchangeCorpus.render_docs_table", I+":Index.export_document_sample"])

p("Text of documents is shown as text in web pages",
  "Whatever characters the titles, comments, names and texts of documents contain, they add no markup to the pages that show the documents, and are read as they are.",
  "every document content",
  "For all texts.",
  [C+":StackExchangeCorpus.TEMPLATE", C+":TwittersphereCorpus.TEMPLATE", "hyperreal/templates/macros.html", W+":templates"])

p("The command line leads from a text file to the exported model and sample",
  "Running `plaintext-corpus create`, `plaintext-corpus index`, `model` and `export clusters --top-k-features 0` on a text file gives a spreadsheet with exactly one row for every token that occurs in at least --min-docs of the lines that are not blank, with the number of those lines; `plaintext-corpus sample` then gives a spreadsheet of lines of the file with their number, text, the cluster each was sampled for and a mark under every cluster one of its tokens is in, no line twice, at most the given number per cluster and fewer only if there are no more.",
  "every text file, tokeniser, batch size, number and schedule of workers, random draws, earlier corpus and earlier index file of the current version",
  "The composition of five processes over files is only tested on one small file; it must hold for all texts, schedules and draws.",
  [CLI+":plaintext_corpus_create", CLI+":make_two_file_indexer", CLI+":model", CLI+":export_clusters", CLI+":make_csv_exporter"])

p("Documents of the bundled corpora are found under their own fields",
  "After indexing, a plain text is found under its tokens; a StackExchange post under the words of its title, text and code blocks, the tags of its question, the names of its author and commenters, the words of its comments, its site, kind, and day, month and year of creation; a directly collected tweet under its words, hashtags, mentions, links, domains, author, conversation, collection labels, quoted and replied-to tweets and their authors, and dates, a retweet only under its author, the retweeted tweet and its author, and dates; and none of them under anything else. From a dump: exactly its questions and answers are found, under what the dump says about them. A Twittersphere database is opened only if its version is at least 15.",
  "every database and dump that can be read, tokeniser, HTML and URL parser, schedule, batch size and earlier index",
  "Tests check a handful of documents; the fields must be right for all rows, missing values and users.",
  [C+":PlainTextSqliteCorpus.index", C+":StackExchangeCorpus.index", C+":StackExchangeCorpus.docs", C+":TwittersphereCorpus.index", C+":TwittersphereCorpus.docs", C+":TwittersphereCorpus.__init__"])

p("Refinement moves features greedily to their best clusters and dissolves the weakest ones",
  "refine_clusters first splits the missing clusters off the largest ones, then works in rounds: in each round the allotted number of clusters without pinned features that have the lowest objectives are dissolved, a feature of a dissolved cluster goes to its best tested cluster unless that is dissolved too, any other movable feature goes to its best tested cluster if that is another one, is not dissolved, the draw allows it and its cluster has not shrunk to min_features, and otherwise stays; it ends after the given number of iterations, or earlier exactly after a round that dissolved nothing and in which less than the fraction tolerance of the features would move; the result is stored. Consequences: a clustering in which every feature is in its best cluster is left as it is; with nothing to do nothing changes; one round with all draws in favour moves every feature to its best cluster; a cluster is not dissolved before a weaker one.",
  "every model, selection, pins, probe query, parameters and random draws for which the call returns",
  "The search is random and its length unbounded; tests can only check that the objective usually improves.",
  [I+":Index.refine_clusters", I+":Index._refine_feature_groups", I+":Index._find_best_moves"])

p("Several processes opening one file do no harm to it or to each other",
  "When any number of threads or processes open (create, migrate) the same index file at the same time, the file is only ever as it was, in WAL mode, completely migrated (or created), or completely migrated with all summaries up to date, never half migrated or migrated twice, and never goes back; an opening that returns has a file of the current version; and no opening fails because of another one, nor returns while summaries are out of date.",
  "every number of openers, interleaving of their SQL commands, refusal of a command by SQLite, crash point, older index of every version and content, and new file",
  "The interleavings are unbounded and cannot be forced by tests.",
  ["hyperreal/_index_schema.py:migrate", I+":Index.__init__"])

p("The tokenisers lose no words, invent none, and split where words end",
  "utilities.tokens gives the words of a text (quotes straightened, lower case): parts of the text in order and without overlap, none blank, which together contain every character that is neither white space nor an apostrophe; no token goes over a word boundary, characters with no boundary, white space or apostrophe between them stay together, and words with a space between them are never in one token. utilities.social_media_tokens does the same after cutting every word before the first link, hashtag or mention in it: no token has one, and texts without them have the same tokens. So plain texts are found under every word and tweets under no word with a link, hashtag or mention.",
  "every text, lower-casing function and set of word boundaries",
  "For all Unicode texts; tests use a few English ones.",
  [U+":tokens", U+":social_media_tokens", U+":word_tokenizer", U+":social_media_cleaner", C+":PlainTextSqliteCorpus.index", C+":TwittersphereCorpus.index"])

p("Queries and pages that read the file several times use whole contents of their time, and one content when nobody edits",
  "Pivots, graphs, concordances, passages, collocations and the web pages read the file several times. Every such read sees one whole committed content that was current during that read, and later reads never an older one. When nobody changes the file meanwhile, the outcome is the one of the current content. When others edit meanwhile, the pages and pivots still show nothing that is wrong for all contents: links, document counts, features with their similarities, the pin and the field list are each right for contents of that time, no cluster is shown twice, and the only failures are 404 and IndexError, when a cluster asked for is missing in one of them. (They are not always the answer of one content: a page can fail with IndexError where before it was shown and afterwards is 404.)",
  "every number of connections, interleaving, edit and refused command; every page, query, number of workers and order of jobs",
  "Which content each read sees depends on the schedule of other processes, which tests cannot enumerate.",
  [I+":Index.pivot_clusters_by_query", I+":Index.create_cluster_cooccurrence_graph", I+":Index.concordances", I+":Index.score_passages_dnf", I+":Index.count_collocations", W+":Cluster.index", W+":Index.index", I+":Index.render_passages_table"])

p("Whatever is requested from the web server, only POST actions change the index, and it stays settled",
  "A request, well-formed or not, either leaves the index file as it is or is a POST that performs exactly one of the actions; a GET request changes nothing, and the URLs of the actions answer it with 405. Requests that name another index than the served one, or something that is no number, are refused and change nothing. After any sequence of requests the index holds a settled model.",
  "every request (method, URL, parameters), content of the index, way int() reads numbers, random draws and failures, and sequence of requests",
  "URLs and parameters are arbitrary texts; tests send a handful.",
  [W+":Cluster", W+":ClusterOverview", W+":FeatureOverview", W+":Index", W+":IndexOverview", W+":lookup_index", W+":SingleIndexServer.index"])

p("Links and forms of the web pages lead where they say",
  "Every link of the cluster pages, the overview, the details and the list of indexes leads to the page it names (previous and next cluster, the feature in this cluster, the intersection, ...), and the clusters it is about exist. Every button performs the action it names on the cluster of the page or the selected clusters and features with the numbers typed, and shows the page with the result. The search form leads to the feature in the context it was searched in, and every cluster page offers the way to the other clusters.",
  "every index content, page, link, selection of checkboxes and typed numbers",
  "The links are made from arbitrary contents and read back as URLs by the server; tests follow a few.",
  ["hyperreal/templates/cluster.html", "hyperreal/templates/index.html", "hyperreal/templates/macros.html", "hyperreal/templates/details.html", "hyperreal/templates/index_listing.html", W+":Cluster.index", W+":Index.index", W+":Index.search"])

p("Same seed, same calls, same model",
  "Two indexes with the same content, opened with the same random_seed, that receive the same sequence of calls (initialise_clusters, refine_clusters in all its settings and the other edits, each succeeding or failing) return the same results and hold the same content after every call, however many worker processes there are and in whatever order those visit sets and finish; the seed is the only source of chance. Each of these calls does what the same call with some choice of random draws does.",
  "every random generator, seed, content of the index, sequence of calls and arguments, number of workers, iteration order and completion order in the workers",
  "Completion orders and iteration orders cannot be enumerated by tests, and a test of one seed says nothing about others.",
  [I+":Index.__init__", I+":Index.initialise_clusters", I+":Index.refine_clusters", I+":Index._refine_feature_groups", I+":Index._score_proposed_moves", I+":Index._find_best_moves", I+":measure_feature_contribution_to_cluster"])

p("What index() builds does not depend on batch size, number of workers or timing",
  "If index() succeeds on a content for a corpus with one batch size, number of workers and order in which batches finish, then it succeeds with every other (unless an exception strikes from outside), and both leave the same documents with the same ids, the same features with the same ids, counts and documents, the same clustering, cluster summaries and field summaries; with index_positions, both position indexes describe the same token sequences, though cut into partitions at other places.",
  "every corpus with its contract, content of the index, batch sizes, numbers of workers, completion orders and row orders",
  "Batch sizes and completion orders are unbounded; tests use one machine's.",
  [I+":Index.index", I+":_index_docs"])

p("Every page is its template with the data shown as text",
  "What a browser reads in the cluster page, the overview, the details and the list of indexes is exactly the sequence of tags of the template, with the numbers of the index, its clusters and features in the addresses and the fields, values, scores, counts, paths and documents as text: no name of a field, no value, no path and no text document can add, remove or change a tag, an attribute or a link, whatever characters it has. Documents that the corpus gives as markup keep their tags and nothing else changes. Every request the server answers with one of these pages gets one.",
  "every index content, page, field name, value, score, path, list of documents and request parameter",
  "Values are arbitrary texts; a test shows a few of them and does not read the whole page.",
  ["hyperreal/templates/base.html", "hyperreal/templates/cluster.html", "hyperreal/templates/index.html", "hyperreal/templates/macros.html", "hyperreal/templates/details.html", "hyperreal/templates/index_listing.html", W+":Cluster.index", W+":Index.index"])

p("What can be sent from a page is exactly what its buttons and its search form say",
  "The requests a browser can send by pressing a button in a form of the cluster page, the overview or the details, with any boxes ticked, any options selected and anything typed, are exactly those of the buttons of the page for the cluster, the features and the clusters shown (C72 says what each does), and the searches in the fields of the index: no selection sends an id that is not on the page, every selection of ids that are on the page can be sent, and the page of a pinned cluster offers nothing but to unpin it. The list of indexes sends nothing.",
  "every page, selection, typed text and name of a field",
  "The selections are exponentially many and the names arbitrary texts; tests press few buttons.",
  ["hyperreal/templates/cluster.html", "hyperreal/templates/index.html", "hyperreal/templates/macros.html", "hyperreal/templates/details.html", "hyperreal/templates/index_listing.html"])

p("index() limits the batches in flight and does not read ahead",
  "While index(doc_batch_size, workers) reads the keys of the corpus, at every moment at most workers + 1 batches have been handed to the pool and not been collected, and at most workers + 1 batches' worth of keys have been read whose documents are not done, however large the corpus and whichever batch finishes first; and the loop stops to collect results only when workers + 1 batches are out.",
  "every corpus, batch size, number of workers and order in which batches finish, and every moment of the loop",
  "The bound must hold at every moment of every schedule for corpora of any length; a test sees a few runs with few batches.",
  [I+":Index.index"])

p("A data dump or a collection of tweets goes through the command line to tables that say what it contains",
  "stackexchange-corpus add-site on a tidy dump and a new corpus file, then index, model, export clusters and sample all succeed, whatever the batch size, the workers, the shuffle and the random draws. The clusters file, read back, has exactly one row for every value of every chosen field that at least --min-docs of the questions and answers of the dump show, with the number of those posts. The sample, read back, has one row for each sampled post with what the dump says about it and a mark under each cluster that has one of its values; no post twice, at most the number asked for per cluster, and none left out of a cluster that has room. The same holds for the clusters of a collection of tweets (with positions: if no tweet lacks a value).",
  "every tidy and readable dump, readable collection, text function, index file at rest, option, schedule, shuffle and draw",
  "The chain of four or five processes over arbitrary data and schedules has no finite set of cases; a test runs one dump with one schedule.",
  [CLI+":stackexchange_corpus_add_site", CLI+":make_two_file_indexer", CLI+":make_csv_exporter", CLI+":model", CLI+":export_clusters", C+":StackExchangeCorpus", C+":TwittersphereCorpus"])

p("The graph exported on the command line is the graph of the model of the corpus",
  "After index and model on any corpus whose documents can be indexed, export graph writes a graph with one node per cluster, whose document_count is the number of documents that have a value of the cluster and whose label names its --top-k-features most frequent values (all of them for a negative number), and one undirected edge between two clusters exactly when a document has values of both, weighted by the share of the documents of either that belong to both. The index is left as it was. With --exclude-field-in-label a value that is not text raises TypeError and no file is written; a file that is not an index is refused with ValueError. For a data dump all labels can be made, and the documents are its questions and answers.",
  "every corpus, index file at rest, option, schedule, shuffle, draw, reading order and completion order of the parallel comparisons",
  "The graph depends on sets of documents of every size and on the order in which parallel comparisons complete.",
  [CLI+":export_graph", I+":Index.create_cluster_cooccurrence_graph", I+":Index.top_cluster_features"])

p("What serve shows is the model of the documents, and looking changes nothing",
  "serve refuses a file that is not an index and otherwise answers every request. Requests that only read leave a current index file with the same contents, and a genuine file of an older version either untouched or upgraded with everything kept; whatever is requested, the file stays one that can be served, at rest between requests. Served without a corpus no answer shows documents. After create or add-site, index and model, the overview lists every cluster of the model once, and the page of each cluster lists its values, says how many documents have one of them and shows 30 of these documents (or all if there are fewer), each once, under its key and as the corpus renders it: the line of the text file, the template filled in with what the dump says about the post, or with the stored tweet. The model is of exactly the values that at least --min-docs documents have in the chosen fields.",
  "every file, sequence of requests with their draws and failures, tidy corpus, option, schedule and completion order",
  "Sequences of requests, corpora and schedules are unbounded, and what a page must show depends on the whole chain of commands before it.",
  [CLI+":plaintext_corpus_serve", CLI+":stackexchange_corpus_serve", CLI+":twittersphere_corpus_serve", CLI+":serve", W+":lookup_index", W+":cleanup_index", W+":SingleIndexServer", W+":launch_web_server", C+":PlainTextSqliteCorpus.render_docs_html"])

p("The dumps of several sites in one corpus are kept apart",
  "stackexchange-corpus add-site on one new corpus file for the tidy dumps of any number of different sites, one after the other, succeeds each time. The corpus then has exactly the questions and answers of all dumps, in order, under the keys 1, 2, and so on, and each document is made from the dump of its own site alone, although sites use the same ids for posts, users, comments and tags: it is the document that this dump gives alone, but for the number of the site. index, model, export clusters, sample and serve on this corpus count, sample and show exactly these documents. If add-site fails for one dump, the corpus is what the dumps before it made.",
  "every list of tidy and readable dumps of different sites, text function, index file at rest, option, schedule, shuffle, draw and sequence of requests",
  "Any id may collide between sites, in any of four tables, for any number of sites; a test fixes a few dumps and ids.",
  [CLI+":stackexchange_corpus_add_site", C+":StackExchangeCorpus.add_site_data", C+":StackExchangeCorpus.docs", C+":StackExchangeCorpus.render_docs_html", C+":StackExchangeCorpus.render_docs_table"])

p("Adding newer dumps of a site replaces what changed, adds what is new and removes nothing",
  "stackexchange-corpus add-site for any number of tidy dumps of the same site, one after the other, succeeds each time. A question or answer keeps its key for good; its title, body, date and author are those of the last dump that has it, new ones get the next keys, and comments, users and tags of later dumps replace those with the same id or are added. If the newest dump still has everything the earlier ones had, the corpus is exactly that of the newest dump. Otherwise it is not: deleted posts and comments, names of deleted users and removed tags stay.",
  "every list of tidy dumps of one site",
  "The result depends on the whole history of dumps, with arbitrary overlaps of ids between them; a test fixes one history.",
  [CLI+":stackexchange_corpus_add_site", C+":StackExchangeCorpus.add_site_data", C+":StackExchangeCorpus.docs"])

p("index() with a working directory does what index() does and leaves nothing behind",
  "index(working_dir=d) keeps its temporary files in d, succeeds exactly when index() without it does and gives the same index. The directory is kept, none of the files of the call stay in it, other directories are not touched, and nothing left in d by an earlier call, failed or not, influences a later one.",
  "every corpus, index file at rest, configuration, schedule, fault, kind of working_dir value and history of earlier calls with the same directory",
  "What a later call finds depends on the point at which the earlier one failed and on which batches had been written by then; a test fixes one failure point.",
  [I+":Index.index", I+":_index_docs"])

p("Rendered tweets show the tweet's own data",
  "render_docs_html of a collection of tweets returns one page per given key, in order, made from the tweet with that key: in the list of documents a browser reads its author's present user name, display name, picture and link, the link, time and text of the tweet, its counts and when it was retrieved, character references as the characters they stand for. The call changes nothing and leaves nothing open.",
  "every collection that can be read, list of keys, counts, profiles and texts",
  "Texts, names and lists of keys are arbitrary; a test fixes a few tweets.",
  [C+":TwittersphereCorpus.render_docs_html", C+":TwittersphereCorpus.docs", C+":TwittersphereCorpus._retrieve_user"])

p("From the corpus to the screen",
  "After creating a corpus, indexing it and fitting a model, the page of a cluster that the web server sends shows, in a browser, the documents of that cluster themselves: one box with how many documents of the corpus have a value of the cluster, and in it thirty of them, or all if there are fewer, each once, each with its own contents: the line of a text file with exactly its characters, the title, site, authors, tags and comments of a post, the author, text and counts of a tweet. Around the box is the page of the cluster and nothing else.",
  "every text file, list of site dumps or collection of tweets, configuration, fair schedule, model arguments, luck, cluster and web schedule",
  "Contents, vocabularies and schedules are arbitrary and what a browser reads depends on every character of them; a test fixes one corpus.",
  [CLI+":plaintext_corpus_serve", W+":Cluster", C+":PlainTextSqliteCorpus.render_docs_html", C+":StackExchangeCorpus.render_docs_html", C+":TwittersphereCorpus.render_docs_html"])

p("Indexing changed documents under an existing model",
  "When the documents of a corpus have changed, or the corpus has been replaced by another, and index is run again on an index file that already has a model, then serving it needs no new model: every value of the model stays in its cluster, the overview lists every cluster, and the page of each cluster is about the new documents. It counts those that have a value of the cluster and shows thirty of them, or all if there are fewer, each once and with its contents. It lists the values of the cluster that still occur, or all of them if no document has any.",
  "every index file with any model, every new text file, list of site dumps or collection of tweets, configuration, fair schedule, cluster and web schedule",
  "The old index, its model and the new documents are unrelated and arbitrary; a test fixes one pair of corpora.",
  [I+":Index.index", CLI+":plaintext_corpus_serve", W+":Cluster", I+":Index.cluster_features", I+":Index.pivot_clusters_by_query"])

p("A search finds the documents",
  "After a corpus has been indexed and modelled, or indexed again under an older model, the search form of the web interface finds documents by their contents. Searching for a text in a field shows how many documents of the corpus have that text as a value of the field and five of these, or all if there are fewer, each once and with its contents; and it lists exactly the clusters with a value that such a document has, the closest first, each with the forty closest of these values. On the page of a cluster the search shows the same for the documents that also have a value of the cluster. A text that no document has gives an error or the overview, which lists every cluster with the number of its documents and its most frequent values; no search changes the index.",
  "every text file, list of site dumps or collection of tweets, index file, configuration, fair schedule, model, field, text, cluster other than 0 and web schedule",
  "Contents, models, texts to search for and schedules are arbitrary, and the claim relates the answer to every document of the corpus; a test fixes one corpus and one text.",
  [W+":Index", W+":Cluster", W+":Index.search", I+":Index.pivot_clusters_by_query", I+":Index.lookup_feature_id", I+":Index.top_cluster_features"])

p("What a search shows on the screen",
  "The answer to a search, and the overview, can always be made into a page. What a browser reads is the page without results with one box added, which says how many documents of the corpus were found and lists the five chosen ones (thirty on the page of a cluster), or all if there are fewer, each once and with exactly its contents, whatever characters they contain. If no document was found there is no such box.",
  "every text file, list of site dumps or collection of tweets, index file, configuration, fair schedule, model, field, text, cluster other than 0 and web schedule",
  "Contents may hold any characters that have a meaning in HTML, and the box must be read right wherever it stands; a test fixes one corpus and one text.",
  [W+":Index", W+":Cluster", W+":Index.search", "hyperreal/templates/index.html", "hyperreal/templates/cluster.html"])

p("The details page describes the corpus",
  "After a corpus has been indexed, the details page of the web interface has exactly one row for each field of which a document of the corpus has a value or the index file had a value before. The row shows how many different values these are, the least and the greatest of them, and the number of positions of the field: for a text file that is the number of all its tokens, and nought if positions are not indexed. Making a model changes nothing in these rows, but the number of clusters shown. While there are no clusters, the overview leads to the same page. A browser reads the page as its template, with the rows and that number filled in.",
  "every text file, list of site dumps or collection of tweets, index file, configuration, fair schedule and model",
  "The numbers come from statements that run over batches of documents on a file with any earlier contents; a test fixes one corpus and one schedule.",
  [W+":Index.details", W+":Index.index", I+":Index.index", I+":Index.indexed_field_summary", "hyperreal/templates/details.html"])

p("The concordance of an indexed text file",
  "After a text file has been imported and indexed, the concordances of any words in the documents that contain a given word are exactly: every line that contains it, once, in the order of the file, with its key and id (or as many such lines as the sample asks for, all if there are fewer); for each of the words that stands in the line, one context for each place where it stands, in order, with the tokens of that line at most the window size away, joined by the separator; and nothing about any other word, field or line.",
  "every text file, tokeniser, index file, configuration, fair schedule, word, list of words, window size, separator and sample size",
  "Tokens at the edges of lines, repeated words, overlapping windows and earlier contents of the index come in every combination; a test fixes one file and one window.",
  [I+":Index.concordances", I+":Index.extract_matching_feature_windows", C+":PlainTextSqliteCorpus.index", CLI+":plaintext_corpus_index"])

p("Passages that are found can be rendered, and show the words together",
  "Whenever the index has positions, a passage search for known features succeeds and what it finds can be rendered: one row for each document with a passage, and no others. In particular, after a text file has been imported and indexed with positions, searching for two different words of the file and rendering the result gives one row, with the key, the id and the text of the passages, for every line in which the words stand at most the window size apart, each such pair of places in one passage whose text has both words; and no row for any other line.",
  "every corpus of texts or text file, tokeniser, index file, configuration with positions, fair schedule, clauses, pair of words, window size, overhang, batch size and order in which workers finish",
  "Positions of all documents are stored end to end in partitions, so that whether a passage is right depends on its neighbours and on the batches; a test fixes one file.",
  [I+":Index.score_passages_dnf", I+":Index.render_passages_table", I+":_score_passages_dnf", C+":PlainTextSqliteCorpus.index", CLI+":plaintext_corpus_index"])

p("The Hansard example finds pages by their day, month and year and shows them",
  "After the example corpus of the Australian Hansard has been indexed, document i is the i-th page, and a lookup of a value in a field finds exactly the pages that have it: the words of their text, house, debate, parliament, day, month and year, and the tags and classes of their HTML. The pages of a month are those of its days and the pages of a year those of its months, and a page is in one day, month and year only. Rendering shows the pages asked for with their keys, in the order asked for, each as its date, house and title over its own HTML; with an unknown key it raises IndexError. With positions, every passage search for known features succeeds and its result renders to one row for each page found, whose passages are words of the page. Either way nothing changes and no savepoint stays open.",
  "every database of pages and debates with unique ids, HTML parser, tokeniser, index file, configuration, fair schedule, value, and list of keys",
  "Dates come at ends of months and years, NULL and empty columns in every combination, and index() in batches; a test fixes a few pages.",
  ["examples/australian_federal_hansard/hansard_corpus.py:HansardCorpus.docs", "examples/australian_federal_hansard/hansard_corpus.py:HansardCorpus.index", "examples/australian_federal_hansard/hansard_corpus.py:HansardCorpus.render_docs_html", "examples/australian_federal_hansard/hansard_corpus.py:HansardCorpus.keys", I+":Index.index"])

p("Trends over the values of a field add up, and the plots show percentages",
  "If every document has exactly one value in a field, as posts, tweets and pages have one year, month and day, then after indexing the totals that intersect_queries_with_field returns for the field add up to the number of documents, and the counts of a query to the number of its documents. In the plots of the example script no division is by zero, every share is the percentage of the documents with the value (or of those of a reference query with the value) that are in the query, and lies between 0 and 100. The plot of a list of clusters has one line for each cluster, in the order listed, with a point for every value but the first and the last, in ascending order.",
  "every corpus that can be indexed, index file, configuration, fair schedule, set of queries, single-valued field, and list of clusters with their first values",
  "It says something about sums over all values of all documents and about every index a call may leave; a test fixes one corpus and a few queries.",
  [I+":Index.intersect_queries_with_field", I+":Index.iter_field_docs", I+":Index.cluster_docs", "examples/stackoverflow/visuals.py", C+":StackExchangeCorpus.index", C+":TwittersphereCorpus.index"])

here=os.path.dirname(os.path.abspath(__file__))
with open(os.path.join(here,"..","properties.jsonl"),"w") as f:
    for q in P: f.write(json.dumps(q)+"\n")
print(len(P))
