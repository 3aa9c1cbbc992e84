import Verif.Model.Server

/-!
# Queries and web views that read more than once

A decorated method that is not a generator reads inside one savepoint, that is from one content of the file.  The
following do not:
* the jobs of the pool have connections of their own (index.py:235-239) and each begins a transaction of its own
  (`with idx:`, index.py:229-233), so that `pivot_clusters_by_query`, `create_cluster_cooccurrence_graph`,
  `score_passages_dnf`, `count_collocations` and `render_passages_table` read the content once in the calling connection
  and once in every job;
* the savepoint of a decorated generator (`extract_matching_feature_windows`, `render_passages_table`) is released
  before its body runs (index.py:96-129: calling a generator function only makes the generator), and `concordances` and
  `docs` are not decorated at all: their queries each have a transaction of their own;
* a web view (server.py:53-169, 316-424) calls several methods one after the other.

Such code is a `Session`: it asks for the content any number of times, each time possibly getting another one.  The
questions are in the order in which the code submits the jobs; nothing is said about the order in which the jobs read.
The corpus is not part of the file and taken as constant.
-/

namespace Hyperreal

/-- Code that reads the file several times. -/
inductive Session (α : Type) where
  | done (r : Except Err α)
  | ask (k : DB → Session α)

namespace Session
variable {α β : Type}

/-- One after the other; exceptions end the whole. -/
def bind : Session α → (α → Session β) → Session β
  | .done (.error e), _ => .done (.error e)
  | .done (.ok a), f => f a
  | .ask k, f => .ask fun d => bind (k d) f

instance : Monad Session where
  pure a := .done (.ok a)
  bind := bind

/-- Code that does not read. -/
def lift (r : Except Err α) : Session α := .done r

/-- One read. -/
def look (f : DB → α) : Session α := .ask fun d => .done (.ok (f d))

/-- One read that may raise. -/
def try_ (f : DB → Except Err α) : Session α := .ask fun d => .done (f d)

/-- For every entry of the list, one after the other. -/
def each (f : α → Session β) : List α → Session (List β)
  | [] => .done (.ok [])
  | a :: l => bind (f a) fun b => bind (each f l) fun bs => .done (.ok (b :: bs))

/-- Run with the given answers to its questions: a content, or the exception a refused command raises.  `none`: the
number of answers does not fit. -/
def on : Session α → List (Except Err DB) → Option (Except Err α)
  | .done r, [] => some r
  | .done _, _ :: _ => none
  | .ask _, [] => none
  | .ask _, .error e :: ds => if ds.isEmpty then some (.error e) else none
  | .ask k, .ok d :: ds => on (k d) ds

/-- All questions are answered with the same content. -/
def alone (d : DB) : Session α → Except Err α
  | .done r => r
  | .ask k => alone d (k d)

end Session

open Session

section
variable {σ : Type} [LinearOrder σ]

/-- `Index.pivot_clusters_by_query` (index.py:1137-1206): the calling connection reads the ids if none are given, then
each of the first jobs reads (index.py:2192-2204), then each of the second ones (index.py:2207-2242). -/
def pivotSession (w : Web σ) (query : Bitmap) (ids : List Int) (topK : Nat) :
    Session (List (Int × σ × List (Nat × String × Val × σ))) := do
  let ids ← if ids.isEmpty then look (fun d => (orderDesc (·.featureCount) (w.visitC d.clusters)).map (·.cid)) else lift (.ok ids)
  let weights ← each (fun i => try_ fun d => queryCooccurrence w.rd d query (everyNth ids i (w.workers * 2)))
    (List.range (w.workers * 2))
  each (fun x => try_ fun d => pivotCluster w.rd (w.visit x.1) (w.arrange x.1) d query topK x.2.2 x.1)
    (orderDesc (fun (x : Int × σ × Nat) => x.2.1) (w.completed weights).flatten)

/-- index.py:1856-1868: `queries` are the clusters with the documents the calling connection read for them. -/
def graphJobsSession (rd : Rat → σ) : List (Int × Bitmap) → Session (List (Int × List (Int × σ × Nat)))
  | [] => .done (.ok [])
  | c :: cs => do
    let ws ← try_ fun d => queryCooccurrence rd d c.2 (cs.map (·.1))
    let rest ← graphJobsSession rd cs
    return (c.1, ws) :: rest

/-- `Index.create_cluster_cooccurrence_graph` (index.py:1828-1876): the calling connection reads the clusters with their
labels and documents, each job those of the clusters to compare with. -/
def graphSession (rd : Rat → σ) (visitC : List ClusterRow → List ClusterRow) (visit : List Listed → List Listed)
    (completed : List (Int × List (Int × σ × Nat)) → List (Int × List (Int × σ × Nat))) (topK : Nat) (includeField : Bool) :
    Session (Graph σ) := do
  let read ← try_ fun d => do
    let clusters := topClusterFeatures visitC visit d topK
    let nodes ← clusters.mapM (graphNode includeField)
    let docs ← clusters.mapM (fun x => (clusterDocs d x.1).map (fun q => (x.1, q)))
    return (nodes, docs)
  let results ← graphJobsSession rd read.2
  let g := read.1.foldl Graph.addNode ({} : Graph σ)
  return (completed results).foldl (fun g r => r.2.foldl (fun g w => g.addEdge r.1 w.1 w.2.1) g) g

/-- index.py:658-667: an id is looked up, a key is not. -/
def windowFeatureSession : FeatureRef → Session (String × Val)
  | .id f => try_ fun d => lookupFeature d f
  | r => lift (windowFeature {} r)

/-- `Index.concordances` (index.py:631-722): `lookup_feature` reads for every feature given by its id, then
`convert_query_to_keys` reads. -/
def concordancesSession (pick : Nat → Nat → List Nat) (corpus : Corpus) (query : Bitmap) (features : List FeatureRef) (w : Nat)
    (sample : Option Int) (sep : String := " ") : Session (List (DocWindows String)) := do
  let query ← lift (maybeSample pick query sample)
  let fvs ← each windowFeatureSession features
  let wanted := fvs.foldl addWanted []
  let docs ← try_ fun d => indexedDocs corpus d query.elems
  lift ((docs.map (fun x => (x.2.1, x.1, wanted.map (fun e => (e.1, fieldWindows w x.2.2 e.1 e.2))))).mapM (fun x => do
    let fs ← x.2.2.mapM (joinField sep)
    return (x.1, x.2.1, fs)))

/-- `Index.score_passages_dnf` (index.py:1894-1949): the calling connection reads clauses and partitions, each job its
partition (index.py:2403-2532). -/
def passagesSession (arrange : List (Nat × List Nat) → List (Nat × List Nat))
    (order : List (String × Nat × List (List Nat)) → List (String × Nat × List (List Nat)))
    (clauses : List (List FeatureRef)) (w : Nat) : Session (Dict Nat (List Passage)) := do
  let tasks ← try_ fun d => do
    let queries ← fieldClauses d clauses
    return queries.flatMap (fun e => (fieldPartitions d e.1).map (fun first => (e.1, first, e.2)))
  let results ← each (fun t => try_ fun d => scorePartition arrange d t.1 t.2.1 t.2.2 w) (order tasks)
  return results.foldl (fun acc scores => scores.foldl (fun acc e => acc.extend e.1 e.2) acc) []

/-- `Index.render_passages_table` (index.py:746-789): each job reads the keys of its documents (index.py:2564-2599). -/
def renderPassagesSession (keep : Nat → List Nat → List Nat)
    (order : List (Dict Nat (List Passage)) → List (Dict Nat (List Passage))) (corpus : Corpus)
    (scored : Dict Nat (List Passage)) (overhang : Nat := 20) (batchSize : Nat := 1000) (sample : Option Nat := none) :
    Session (List (Nat × Val × Dict String RowCell)) := do
  let scored := samplePassages keep scored sample
  let results ← each (fun b => try_ fun d => constructPassages corpus d b overhang) (order (chunks batchSize scored.length scored))
  return results.flatten

/-- `Index.count_collocations` (index.py:1951-1984): the calling connection reads the partitions, each job its partition
(index.py:2535-2561). -/
def collocationsSession (order : List Nat → List Nat) (field : String) (features : List Nat) (w : Nat) :
    Session (Dict Nat (Nat × Nat) × Nat × Nat) := do
  let parts ← look fun d => fieldPartitions d field
  let results ← each (fun p => try_ fun d => countPartition d field p features w) (order parts)
  return (results.foldl (fun acc r => addCounts acc r.1) [], (results.map (·.2.1)).sum, (results.map (·.2.2)).sum)

/-- The `search_results` of both views (server.py:126-147, 378-400). -/
def resultsSession (w : Web σ) (type : String) (query : Bitmap) (features : List FeatureRef) (clauses : List (List FeatureRef))
    (n : Nat) : Session Results :=
  match w.corpus with
  | none => lift (.ok .nothing)
  | some (corpus, render) => do
    if type = "concordance" then
      let _ ← concordancesSession w.pick corpus query features 15 (some (n : Int))
    if type = "passage" then
      let scored ← passagesSession w.arrangeP w.orderP clauses 25
      let rs ← renderPassagesSession w.keep w.orderB corpus scored (sample := some n)
      return .passages rs
    else
      match render with
      | none => lift (.error .unsupportedCorpus)
      | some render =>
        let rs ← try_ fun d => renderDocsHtml w.pick render d query (some (n : Int))
        return .documents rs

/-- server.py:96-101: the documents of the feature are read if one is given. -/
def restrictFeatureSession (query : Bitmap) : Option Nat → Session Bitmap
  | none => lift (.ok query)
  | some f => look fun d => query ∩ d.docsOf f

/-- server.py:103-105. -/
def restrictClusterSession (query : Bitmap) : Option Int → Session Bitmap
  | none => lift (.ok query)
  | some c => try_ fun d => restrictCluster d query (some c)

/-- server.py:107. -/
def filterFeaturesSession (w : Web σ) : Option Int → Session (List Listed)
  | none => lift (.ok [])
  | some c => look fun d => clusterFeatures (w.visit c) d c

/-- The view of a cluster (server.py:53-169). -/
def clusterPageSession (w : Web σ) (cluster : Int) (feature : Option Nat) (filterCluster : Option Int) (exemplars : Nat)
    (requested : Option String) : Session (ClusterPage σ) := do
  let ids ← look clusterIds
  if cluster ∉ ids then lift (.error (.http 404)) else
  let prev ← lift (prevCluster ids (ids.idxOf cluster))
  let next ← lift (nextCluster ids (ids.idxOf cluster))
  let features ← look fun d => clusterFeatures (w.visit cluster) d cluster
  let docs ← try_ fun d => clusterDocs d cluster
  let query ← restrictFeatureSession docs feature
  let query ← restrictClusterSession query filterCluster
  let filter ← filterFeaturesSession w filterCluster
  let sorted ← pivotSession w query [cluster] features.length
  let results ← resultsSession w (resultType requested) query (concordanceFeatures features feature filter)
    (passageClauses features feature filterCluster filter) exemplars
  let fields ← look fun d => d.fieldSummary.map (·.field)
  let pinned ← look fun d => d.clusters.any (fun k => k.cid = cluster && k.pinned)
  return ⟨cluster, prev, next, shownFeatures sorted features, results, resultType requested, query.card, pinned, fields⟩

/-- server.py:349-371. -/
def indexQuerySession (w : Web σ) : Option Nat → Option Int → Session (Option (Bitmap × List FeatureRef × List (List FeatureRef)))
  | some f, _ => look fun d => some (d.docsOf f, [.id f], [[.id f]])
  | none, some c => do
    let docs ← try_ fun d => clusterDocs d c
    let features ← look fun d => clusterFeatures (w.visit c) d c
    return some (docs, features.map (fun r => .key r.field r.value), [features.map (fun r => .id r.fid)])
  | none, none => lift (.ok none)

/-- server.py:402-406: without documents the clusters are listed. -/
def listingSession (w : Web σ) (topK : Nat) : Session (Listing σ) :=
  look fun d => .plain (topClusterFeatures w.visitC w.visitT d topK)

/-- The clusters, the results and the number of documents of the index page (server.py:373-408). -/
def shownSession (w : Web σ) (exemplars topK : Nat) (type : String) :
    Option (Bitmap × List FeatureRef × List (List FeatureRef)) → Session (Listing σ × Results × Nat)
  | none => do
    let l ← listingSession w topK
    return (l, .nothing, 0)
  | some (docs, features, clauses) =>
    if docs = ∅ then do
      let l ← listingSession w topK
      return (l, .nothing, 0)
    else do
      let sorted ← pivotSession w docs [] topK
      let results ← resultsSession w type docs features clauses exemplars
      return (.ranked sorted, results, docs.card)

/-- The view of the index (server.py:316-424).  The second jobs of the pivot are waited for by the template, after
everything else; here they are in the order of the code. -/
def indexPageSession (w : Web σ) (feature : Option Nat) (cluster : Option Int) (exemplars topK : Nat) (requested : Option String) :
    Session (Option (IndexPage σ)) := do
  let ids ← look clusterIds
  if ids = [] then return none else
  let query ← indexQuerySession w feature cluster
  let read ← shownSession w exemplars topK (resultType requested) query
  let fields ← look fun d => d.fieldSummary.map (·.field)
  return some ⟨read.1, read.2.1, resultType requested, read.2.2, feature, if feature.isSome then none else cluster, fields⟩

end

end Hyperreal
