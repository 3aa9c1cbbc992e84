# model files and proof method per property, used by design.py
U, A, St, Ix, Sc, R, Q, P, Po = ("`Model/Utilities`", "`Model/Atomic`", "`Model/Store`", "`Model/Indexing`", "`Model/Scoring`",
    "`Model/Refine`", "`Model/Query`", "`Model/Pivot`", "`Model/Positions`")
METHODS = {
"C01": (U + " `bstm`", "invariant of the loop over the slices (kept / candidate sets split by the weight prefix); uniqueness of the top-k set by counting"),
"C02": (U + " `computeBitslice`", "invariant of the carry chain: slice i of the state = bit i of the running count"),
"C03": (U + " `weightBitslice`", "sum over slices of powers of two, bit decomposition of naturals"),
"C04": (St + ", " + U, "corollary of the settled-model invariant (C15) and C02"),
"C05": (Po + " `expandWindow`", "induction over the window steps gives the exact set; counterexample computed from the model"),
"C06": (Ix, "induction over documents inside a batch, over batches, over groups of the merge; permutations for every schedule-dependent order"),
"C07": (Ix, "as C06, cardinality of the merged bitmap against the stored count"),
"C08": (Ix, "insert-or-ignore / update lemmas over the feature table; frame of the model tables"),
"C09": (Ix, "enumeration of keys is injective; batches concatenate to the enumeration"),
"C10": (Ix, "segment positions are consecutive blocks; tiles lemma (`Lemmas/Tiles`) inverts the position map"),
"C11": (Ix + " `dispatch`", "induction on the key stream with the pending list generalised, for every choice of finished futures"),
"C12": (Ix + " `indexCall` (statement list with commit points, failure or interrupt at any step)", "case analysis over the failing step, by induction over the statement list; refutations by a constructed corpus"),
"C13": (Ix, "the list of committed states of a call is computed symbolically; every prefix of it (crash point) is old or new index"),
"C14": (Ix, "two calls composed, the second from any committed state of the first"),
"C15": (St + ", " + A + ", " + R, "inductive invariant over arbitrary operation histories (`Spec.Settled`)"),
"C16": (St, "same invariant, uniqueness part"),
"C17": (A, "induction over programs (nested calls) with the savepoint stack generalised; failure and interrupt at any statement"),
"C18": (St + " `initialiseClusters`", "round-robin lemmas, for every shuffle"),
"C19": (St, "each method refines an update of the assignment `Feature → Option Cluster`"),
"C20": (St, "maximum lemmas"),
"C21": (St + ", " + R, "frame conditions of each method on the pin columns"),
"C22": (R, "the move loop permutes the list of (feature, cluster) pairs; induction over iterations, groups and moves"),
"C23": (R, "invariant of the same loop"),
"C24": (R, "frame: writes only the selected clusters"),
"C25": (R, "invariant of the move loop on group sizes"),
"C26": (R, "count of groups after planning splits / dissolving; pure counting"),
"C27": (R, "id remapping followed symbolically through the write-back; counterexample when the greatest id is outside the selection"),
"C28": (R, "totality of each phase under stated conditions; counterexamples for the others"),
"C29": (Sc, "set algebra over exact rationals"),
"C30": (Sc + ", " + R, "maximum of a fold; permutation invariance of the tested order"),
"C31": (P, "monotone rounding: the pruning bound never discards a top-k member; heap model"),
"C32": (P, "permutation invariance over futures"),
"C33": (P, "double loop over pairs"),
"C34": (Q, "list and set lemmas for any random choice function"),
"C35": (Q, "pointwise"),
"C36": (Po, "tiles lemma and window lemma"),
"C37": (Po, "exact characterisation of the scan over sorted hits; counterexamples"),
"C38": (Po, "invariant of the scan"),
"C39": (Po, "exact counts for a field; counterexamples"),
"C40": (Po, "slices of token lists"),
"C41": ("`Model/PlainText`", "transaction over the corpus table, failure at any document"),
"C42": ("`Model/StackExchange`", "upsert lemmas, induction over the imported rows"),
"C43": ("`Model/Migrate`", "decision logic by cases on the version; the statement list executed symbolically; crash after any statement"),
"C44": ("`Model/Datetime`", "lexicographic order on components; instants over timezones by arithmetic"),
"C45": ("`Model/Server`", "list rotation"),
"C46": ("`Model/Server`", "case analysis of the request; counterexample"),
"C47": (Ix, "group-by lemmas"),
"C48": ("`Model/PlainText`, `Model/StackExchange`, `Model/Twittersphere`", "each corpus satisfies `Indexable`; refutation for tweets"),
"C49": ("`Model/CorpusCheck` (protocol members, the seven methods, order of the decorators)", "member lists against a separate table of needs; `atomic_call_partial` for the method whose check is inside the savepoint"),
"C50": (Q, "zip lemmas"),
"C51": (Q + ", `Model/Cli`", "sortedness and truncation of a merge sort"),
"C52": ("`Model/Cli`", "case analysis over the flags, composed with C18, C22–C26"),
"C53": (A, "stack discipline of nested `with`"),
"C54": (Q, "uniqueness of keys"),
"C55": ("`Model/Server`", "composition with C01, C04, C31"),
"C56": (Q, "zip lemmas over sorted keys"),
"C57": ("`Model/PlainText`, `Model/Cli` (csv reader automaton)", "induction over characters with the automaton state generalised"),
"C58": ("`Model/WebActions`", "C15 over request sequences"),
"C59": ("`Model/WebActions`", "composition of C18–C24 with the redirect logic"),
"C60": ("`Model/WebActions`", "filter lemmas; counterexample"),
"C61": ("`Model/Concurrent`: any number of connections, WAL snapshots, one write lock, BUSY errors, crashes, any interleaving", "forward simulation to a serial log of committed transactions, invariant over reachable worlds"),
"C62": ("`Model/Csv` (writer and reader automaton), " + Q, "induction over the characters with the reader's state generalised, then over cells and rows; composition with C51 and C50"),
"C63": ("`Model/SxRender` (queries, template, JSON writer, table rows) on `Model/StackExchange`", "tables after an import (C42) computed, JSON reader and HTML reader (that of C75) in the specification, induction over characters and comments; composition with C50"),
"C64": ("`Model/SxRender`, `Model/Html`", "a tag scanner in the specification; closed texts compose; counterexamples"),
"C65": ("`Model/Pipeline`: every command opens its files, works and ends", "composition of C57, C48, C07, C52, C34, C50 and C62; counting lemmas between lines and bitmaps"),
"C66": ("`Model/PlainText`, `Model/StackExchange`, `Model/Twittersphere`, " + Ix, "inductive specification of what a row shows; the mapping `index` builds characterised by membership; composition with C06, C09 and, for dumps, C42"),
"C67": ("`Model/Refine`, `Model/Scoring`; rounds specified in `Spec/Greedy`", "simulation of every iteration by a round (induction over the visits of features), induction over iterations and splits; composition with C27 and C30"),
"C68": ("`Model/ConcurrentOpen`: `Index.__init__` and `migrate` as SQL commands on the worlds of `Model/Concurrent`", "regime invariant on contents and on what each thread has read (`RegimeOn`), one lemma per transaction; the refutations are explicit runs; alone the commands equal the model of C43"),
"C69": ("`Model/Tokens`: translation of quotes, cleaning as a scanner, the matches of the tokeniser as a relation", "induction over the matches with positions; cleaning equals an inductive specification by induction over the text; composition with C66"),
"C70": ("`Model/Session`: code that asks for the content several times; the questions are transactions of `Model/Concurrent`", "a session's outcome depends on the answers only; answers by C61; `Mixes` (an outcome from arbitrary contents of a kind) inverted step by step; soundness of the pivot's second job with an arbitrary bound; explicit histories for the refutations"),
"C71": ("`Model/Routes`: URLs as texts, dispatch, conversion of parameters, redirects; the actions of `Model/WebActions`", "case analysis over the handlers; composition with C58"),
"C72": ("`Model/Links`: the links and forms of the templates as URLs and parameters; pages and meanings named in `Spec/Links`", "the texts the templates make are taken apart again (`Shape`), redirects followed; composition with C55; the refutations are explicit models"),
"C73": ("`Model/Seeded`: a generator as a state machine; initialise_clusters and refine_clusters draw from it, workers have orders of their own", "the plan does not depend on the workers (fold over permutations, sets of checks), then induction over the session; every drawn plan is one of the plans of C22 with some `Chance`"),
"C74": ("`indexCall` of C06 with two configurations and schedules", "both first transactions end in `reindexed`, whose groups are determined by the corpus; housekeeping commutes with forgetting the position tables"),
"C75": ("`Model/Pages`: every template as text with escaping; the tags of the pages in `Spec/PageTags`, an HTML reader in `Spec/Pages`", "the reader run on a template with holes, checked by the kernel once per template, and a lemma that escaped values in holes commute with reading; texts that leave no tag open compose"),
"C76": ("the pages of C75; forms and what a browser sends in `Spec/PageForms`", "the forms are read from the tags by folding; what each form sends is computed and matched with the buttons of C72"),
"C77": ("`dispatch` of C11: the history of the loop as a list of events", "induction over the keys with the pending batch and the futures generalised, for every beginning of the history"),
"C78": ("`Model/Pipeline`: add-site, index, model, export clusters and sample as processes on files", "for any corpus: what index leaves (C06), what model does (C52), what the files say when read (C62); then what the dump shows (C66) and what is rendered (C63)"),
"C79": ("`exportGraph` of `Model/Pipeline` on the graph of C33", "the graph of the index (C33) translated to documents and values by what index and model leave (C78); counting is invariant under renaming documents"),
"C80": ("`Model/Serve`: a serve command as a check and a sequence of requests, each of which opens the corpus and the file (with migration) and runs the handlers of C72", "induction over the session with the file servable as invariant; the pages of C56 and the rendering of C38 on the state that index and model leave (C78)"),
"C81": ("`addSites` of `Model/Pipeline`: add-site once per dump on the same file", "induction over the dumps with the tables as invariant (the rows of each site are those of its dump, posts numbered through); then the argument of C78 and C80 for this corpus"),
"C82": ("`addSites` with one url: INSERT OR REPLACE and ON CONFLICT on tables that are not empty", "induction over the dumps with the tables as a function of a small specification of the history (`SiteHistory.add`) as invariant"),
"C83": ("`Model/WorkingDir`: `index` with each kind of `working_dir` value, and `temp_index.db` as a file that outlives the call", "the call of C01 with the rows of the file as extra segments; case analysis over the end of the call; the retry theorems add the rows of the failed call to the merge of C01, for all corpora and schedules"),
"C84": ("`Model/TwRender`: the template of tweets on the documents of C66, with both savepoints", "the HTML reader of C75; each part of the template is read as whole tags wherever it stands; induction over the keys"),
"C85": ("the models of C65, C78, C80, C81 and C84 in a row, with the templates of C75", "the page of C80 is split at the box of documents; each item is read by the HTML reader as in C75 and C84, whatever stands around it; then `Displays` of `Spec/Screen`"),
"C86": ("the models of C78, C80 and C81, on a file that already has features and clusters", "the values of the model are the same before and after index (C08); the page of C80 generalised to models with values that no document has"),
"C87": ("the models of C80, C81 and C86 with the search handler and form of C60 and C72", "the page of the feature (C55) translated to documents and values by what index leaves (C78); similarities as shares of documents; one generic argument for any source of documents"),
"C88": ("the models of C87 with the templates of C75", "as C85, with the overview page split at the box of documents; one argument for any corpus whose items are whole, then `ShowsSearches` of `Spec/SearchScreen`"),
"C89": ("the models of C78, C80 and C81 with the details handler (C55) and template (C75)", "the exact summary of C47 on the file that index leaves, translated from keys to documents by the source argument of C87; model_command_creates for what model leaves alone"),
"C90": ("the commands of C65 on the index file of C78, with the windows of C36", "windows_exact on what index leaves; sorted lists of ids are equal; windows of a corpus of texts hold texts, so that joining cannot fail"),
"C91": ("the passage search and rendering of C37 and C40 after the commands of C90", "no entry without passages and no document twice, by induction over the walk and the merging of partitions; then C37, C38 and C40 translated to lines and words"),
"C92": ("`Model/Hansard`: the example corpus with its join, fields, dates and markup; its database satisfies the contract of a corpus", "index of any corpus (any_index of C90) translated to pages; written days name one day, digit by digit"),
"C93": ("`Model/Trends`: the shares, slices, labels and dicts of the plot script on the field intersections of C35", "documents with one value each are the disjoint union over the values, so the counts are a sum over a partition; induction over the dicts for the order of the lines"),
}
