import Verif.Model.Pivot
import Verif.Model.Positions

/-!
# The web views (server.py:52-169, 316-424)

A view is a function of the database, the corpus and the request; request parameters are taken as already converted
(`int(...)`, with `exemplar_docs` and `top_k_features` not negative), and the page is what is handed to the template.
The rendering of templates is in `Model/Pages`.
-/

namespace Hyperreal

variable {σ : Type} [LinearOrder σ]

/-- `Index.render_docs_html` (index.py:791-805) on a corpus that can render: `render` is the corpus' `render_docs_html`. -/
def renderDocsHtml (pick : Nat → Nat → List Nat) (render : List Val → Except Err (List (Val × String))) (db : DB)
    (query : Bitmap) (sample : Option Int) : Except Err (List (Nat × Val × String)) := do
  let query ← maybeSample pick query sample
  let keys ← convertQuery db query.elems
  let docs ← render (keys.map (·.1))
  docs.mapM (fun x => do
    let d ← Dict.getE keys x.1
    return (d, x.1, x.2))

/-- `Index.render_docs_table` (index.py:807-819) on a corpus that can render tables: `render` is the corpus' `render_docs_table`. -/
def renderDocsTable {α : Type} (pick : Nat → Nat → List Nat) (render : List Val → Except Err (List (Val × α))) (db : DB)
    (query : Bitmap) (sample : Option Int) : Except Err (List (Val × α)) := do
  let query ← maybeSample pick query sample
  let keys ← convertQuery db query.elems
  render (keys.map (·.1))

/-- The index as a request sees it: the database, the corpus if there is one (with its renderer, if it has one), and what is
not determined by them: rounding, row orders, workers, random numbers. -/
structure Web (σ : Type) where
  db : DB
  corpus : Option (Corpus × Option (List Val → Except Err (List (Val × String))))
  rd : Rat → σ
  visitC : List ClusterRow → List ClusterRow
  visit : Int → List Listed → List Listed
  visitT : List Listed → List Listed
  arrange : Int → List (σ ×ₗ Int) → List (σ ×ₗ Int)
  workers : Nat
  completed : List (List (Int × σ × Nat)) → List (List (Int × σ × Nat))
  pick : Nat → Nat → List Nat
  keep : Nat → List Nat → List Nat
  arrangeP : List (Nat × List Nat) → List (Nat × List Nat)
  orderP : List (String × Nat × List (List Nat)) → List (String × Nat × List (List Nat))
  orderB : List (Dict Nat (List Passage)) → List (Dict Nat (List Passage))

/-- What `search_results` holds. -/
inductive Results where
  | nothing
  | concordance (rs : List (DocWindows String))
  | passages (rs : List (Nat × Val × Dict String RowCell))
  | documents (rs : List (Nat × Val × String))

/-- `result_type or settings["display_query_results"]` (server.py:63-65, 340-342); the setting is always `"document"`
(index.py:184). -/
def resultType (requested : Option String) : String :=
  match requested with
  | none => "document"
  | some t => if t = "" then "document" else t

/-- The concordances of a view (server.py:128-136, 379-387). -/
def viewConcordance (w : Web σ) (corpus : Corpus) (query : Bitmap) (features : List FeatureRef) (n : Nat) : Except Err Results := do
  let rs ← concordances w.pick corpus w.db query features 15 (some (n : Int))
  return .concordance rs

/-- The passages of a view (server.py:137-143, 388-396). -/
def viewPassages (w : Web σ) (corpus : Corpus) (clauses : List (List FeatureRef)) (n : Nat) : Except Err Results := do
  let scored ← scorePassages w.arrangeP w.orderP w.db clauses 25
  let rs ← renderPassages w.keep w.orderB corpus w.db scored (sample := some n)
  return .passages rs

/-- The rendered documents of a view (server.py:144-147, 397-400); a corpus without `render_docs_html` is refused
(index.py:66-74). -/
def viewDocuments (w : Web σ) (render : Option (List Val → Except Err (List (Val × String)))) (query : Bitmap) (n : Nat) :
    Except Err Results :=
  match render with
  | none => .error .unsupportedCorpus
  | some render => do
    let rs ← renderDocsHtml w.pick render w.db query (some (n : Int))
    return .documents rs

/-- The `search_results` of both views (server.py:126-147, 378-400).  The `if` for passages is not an `elif`: after the
concordances its `else` branch runs too, and replaces them. -/
def searchResults (w : Web σ) (type : String) (query : Bitmap) (features : List FeatureRef) (clauses : List (List FeatureRef))
    (n : Nat) : Except Err Results :=
  match w.corpus with
  | none => .ok .nothing
  | some (corpus, render) => do
    if type = "concordance" then
      let _ ← viewConcordance w corpus query features n
    if type = "passage" then viewPassages w corpus clauses n else viewDocuments w render query n

/-- `other_clusters[cluster_index - 1]` (server.py:80): -1 is the last one. -/
def prevCluster (ids : List Int) (i : Nat) : Except Err Int :=
  match ids[if i = 0 then ids.length - 1 else i - 1]? with
  | some c => .ok c
  | none => .error .indexError

/-- server.py:81-83. -/
def nextCluster (ids : List Int) (i : Nat) : Except Err Int :=
  match ids[if (i : Int) < (ids.length : Int) - 1 then i + 1 else 0]? with
  | some c => .ok c
  | none => .error .indexError

/-- What the cluster page lists: the features with their similarity to the query, or, when there is none, with their
number of documents. -/
inductive Shown (σ : Type) where
  | ranked (rs : List (Nat × String × Val × σ))
  | plain (rs : List Listed)

/-- The feature ids on the page (server.py:124). -/
def Shown.ids : Shown σ → List Nat
  | .ranked rs => rs.map (·.1)
  | .plain rs => rs.map (·.fid)

/-- What is handed to the template of the cluster page (server.py:155-169). -/
structure ClusterPage (σ : Type) where
  cluster : Int
  prev : Int
  next : Int
  features : Shown σ
  results : Results
  type : String
  total : Nat
  pinned : Bool
  fields : List String

/-- `feature_id` restricts the query (server.py:96-101). -/
def restrictFeature (db : DB) (query : Bitmap) : Option Nat → Bitmap
  | none => query
  | some f => query ∩ db.docsOf f

/-- `filter_cluster_id` restricts the query (server.py:103-105). -/
def restrictCluster (db : DB) (query : Bitmap) : Option Int → Except Err Bitmap
  | none => .ok query
  | some c => do
    let docs ← clusterDocs db c
    return query ∩ docs

/-- The features of the filter cluster (server.py:107). -/
def filterFeatures (w : Web σ) : Option Int → List Listed
  | none => []
  | some c => clusterFeatures (w.visit c) w.db c

/-- `concordance_features` (server.py:93, 100, 108). -/
def concordanceFeatures (features : List Listed) (feature : Option Nat) (filter : List Listed) : List FeatureRef :=
  features.map (fun r => .key r.field r.value) ++ feature.toList.map .id ++ filter.map (fun r => .key r.field r.value)

/-- `passage_query` (server.py:94, 101, 109). -/
def passageClauses (features : List Listed) (feature : Option Nat) (filterCluster : Option Int) (filter : List Listed) :
    List (List FeatureRef) :=
  [features.map (fun r => .id r.fid)] ++ feature.toList.map (fun f => [.id f]) ++
    filterCluster.toList.map (fun _ => filter.map (fun r => .id r.fid))

/-- server.py:111-122: the ranked features when the pivot yields the cluster, else the plain ones. -/
def shownFeatures (sorted : List (Int × σ × List (Nat × String × Val × σ))) (features : List Listed) : Shown σ :=
  match sorted with
  | [] => .plain features
  | x :: _ => .ranked x.2.2

/-- The view of a cluster (server.py:53-169), with the default scoring. -/
def clusterPage (w : Web σ) (cluster : Int) (feature : Option Nat) (filterCluster : Option Int) (exemplars : Nat)
    (requested : Option String) : Except Err (ClusterPage σ) := do
  let ids := clusterIds w.db
  if cluster ∉ ids then throw (.http 404)
  let prev ← prevCluster ids (ids.idxOf cluster)
  let next ← nextCluster ids (ids.idxOf cluster)
  let features := clusterFeatures (w.visit cluster) w.db cluster
  let docs ← clusterDocs w.db cluster
  let query ← restrictCluster w.db (restrictFeature w.db docs feature) filterCluster
  let filter := filterFeatures w filterCluster
  let sorted ← pivotClusters w.rd w.visitC w.visit w.arrange w.workers w.completed w.db query [cluster] features.length
  let results ← searchResults w (resultType requested) query (concordanceFeatures features feature filter)
    (passageClauses features feature filterCluster filter) exemplars
  return ⟨cluster, prev, next, shownFeatures sorted features, results, resultType requested, query.card,
    w.db.clusters.any (fun k => k.cid = cluster && k.pinned), w.db.fieldSummary.map (·.field)⟩

/-- The clusters listed on the index page (server.py:373-408). -/
inductive Listing (σ : Type) where
  | ranked (rs : List (Int × σ × List (Nat × String × Val × σ)))
  | plain (rs : List (Int × Nat × List Listed))

/-- What is handed to the template of the index page (server.py:412-424). -/
structure IndexPage (σ : Type) where
  clusters : Listing σ
  results : Results
  type : String
  total : Nat
  feature : Option Nat
  cluster : Option Int
  fields : List String

/-- The query of the index page with the features for concordances and passages (server.py:349-371). -/
def indexQuery (w : Web σ) : Option Nat → Option Int → Except Err (Option (Bitmap × List FeatureRef × List (List FeatureRef)))
  | some f, _ => .ok (some (w.db.docsOf f, [.id f], [[.id f]]))
  | none, some c => do
    let docs ← clusterDocs w.db c
    let features := clusterFeatures (w.visit c) w.db c
    return some (docs, features.map (fun r => .key r.field r.value), [features.map (fun r => .id r.fid)])
  | none, none => .ok none

/-- The view of the index (server.py:316-424), with the default scoring.  `none`: the request is redirected to the details
page, since there is no model. -/
def indexPage (w : Web σ) (feature : Option Nat) (cluster : Option Int) (exemplars topK : Nat) (requested : Option String) :
    Except Err (Option (IndexPage σ)) := do
  if clusterIds w.db = [] then return none
  let plain := Listing.plain (topClusterFeatures w.visitC w.visitT w.db topK)
  let query ← indexQuery w feature cluster
  let shown : IndexPage σ := ⟨plain, .nothing, resultType requested, 0, feature,
    if feature.isSome then none else cluster, w.db.fieldSummary.map (·.field)⟩
  match query with
  | none => return some shown
  | some (docs, features, clauses) =>
    if docs = ∅ then return some shown
    let sorted ← pivotClusters w.rd w.visitC w.visit w.arrange w.workers w.completed w.db docs [] topK
    let results ← searchResults w (resultType requested) docs features clauses exemplars
    return some { shown with clusters := .ranked sorted, results := results, total := docs.card }

end Hyperreal
