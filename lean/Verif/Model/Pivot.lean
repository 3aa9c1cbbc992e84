import Verif.Model.Query
import Verif.Model.Scoring
import Mathlib.Algebra.Field.Rat
import Mathlib.Algebra.Order.Ring.Rat

/-!
# Pivoting clusters by a query, and the cluster graph (index.py:1137-1206, 1828-1876, 2192-2243)

Quotients are computed exactly and then rounded by an arbitrary function `rd` into the type `σ` of scores (floats).
-/

namespace Hyperreal

variable {σ : Type} [LinearOrder σ]

/-- `BitMap.jaccard_index`: the size of the intersection over that of the union.  Simplification: two empty sets give NaN in
C, here 0; the code only computes it for a query with a document in the other set, or for a nonempty query. -/
def jaccard (rd : Rat → σ) (a b : Bitmap) : σ := rd ((((a ∩ b).card : Nat) : Rat) / (((a ∪ b).card : Nat) : Rat))

/-- `_calculate_query_cluster_cooccurrence` (index.py:2192-2204), in a worker, without the key. -/
def queryCooccurrence (rd : Rat → σ) (db : DB) (query : Bitmap) : List Int → Except Err (List (Int × σ × Nat))
  | [] => .ok []
  | c :: cs => do
    let docs ← clusterDocs db c
    let rest ← queryCooccurrence rd db query cs
    let inter := (query ∩ docs).card
    return if inter = 0 then rest else (c, jaccard rd query docs, inter) :: rest

/-- index.py:2216: the upper bound of the similarity of a feature with `f` documents; `q` is the size of the query,
`inter` the number of its documents in the cluster. -/
def pivotBound (rd : Rat → σ) (q inter f : Nat) : Except Err σ :=
  if ((q : Int) + f - min f inter) = 0 then .error .zeroDivision
  else .ok (rd ((((min f inter : Nat) : Int) : Rat) / (((q : Int) + f - min f inter : Int) : Rat)))

/-- The main loop (index.py:2224-2231) over the search order; the heap holds `(similarity, feature_id)`.  Simplification:
field and value, which follow the feature id in the tuples of the code, never decide a comparison and are
attached at the end.  An empty heap (`top_k = 0`) raises `IndexError`. -/
def pivotLoop (rd : Rat → σ) (db : DB) (query : Bitmap) :
    List (σ × Listed) → List (σ ×ₗ Int) → Except Err (List (σ ×ₗ Int))
  | [], heap => .ok heap
  | (bound, f) :: rest, heap =>
    match heap with
    | [] => .error .indexError
    | top :: _ =>
      if bound < (ofLex top).1 then .ok heap
      else pivotLoop rd db query rest (heapPushPop heap (toLex (jaccard rd query (db.docsOf f.fid), (f.fid : Int))))

/-- index.py:2233-2237: an entry of the heap as it is returned, `(feature_id, field, value, similarity)`. -/
def pivotEntry (rows : List Listed) (x : σ ×ₗ Int) : Option (Nat × String × Val × σ) :=
  (rows.find? (fun r => (r.fid : Int) = (ofLex x).2)).map (fun r => (r.fid, r.field, r.value, (ofLex x).1))

/-- `_pivot_cluster_features_by_query_jaccard` (index.py:2207-2242), in a worker.  `arrange` is the order in which the list
underlying the heap holds its entries: `sorted` only orders by similarity, so ties keep that order. -/
def pivotCluster (rd : Rat → σ) (visit : List Listed → List Listed) (arrange : List (σ ×ₗ Int) → List (σ ×ₗ Int))
    (db : DB) (query : Bitmap) (topK inter : Nat) (c : Int) :
    Except Err (Int × σ × List (Nat × String × Val × σ)) := do
  let rows := clusterFeatures visit db c
  let bounded ← rows.mapM (fun f => (pivotBound rd query.card inter f.docsCount).map (fun b => (b, f)))
  let order := orderDesc (fun (x : σ × Listed) => toLex (x.1, x.2.fid)) bounded
  let heap ← pivotLoop rd db query order (List.replicate topK (toLex (rd 0, (-1 : Int))))
  let results := orderDesc (fun (r : Nat × String × Val × σ) => r.2.2.2)
    (((arrange heap).filter (fun x => rd 0 < (ofLex x).1)).filterMap (pivotEntry rows))
  let docs ← clusterDocs db c
  return (c, jaccard rd query docs, results)

/-- `Index.pivot_clusters_by_query` (index.py:1137-1206) with the default scoring, all results drawn from the generator.
`ids` are the requested clusters, `[]` stands for `None`; `visitC` is the order in which the clusters are read,
`workers` the size of the pool, `completed` the order in which the first jobs complete.  The workers have their own
connection and see the committed content, here the same as that of the calling connection. -/
def pivotClusters (rd : Rat → σ) (visitC : List ClusterRow → List ClusterRow) (visit : Int → List Listed → List Listed)
    (arrange : Int → List (σ ×ₗ Int) → List (σ ×ₗ Int)) (workers : Nat)
    (completed : List (List (Int × σ × Nat)) → List (List (Int × σ × Nat)))
    (db : DB) (query : Bitmap) (ids : List Int) (topK : Nat) :
    Except Err (List (Int × σ × List (Nat × String × Val × σ))) := do
  let ids := if ids.isEmpty then (orderDesc (·.featureCount) (visitC db.clusters)).map (·.cid) else ids
  let jobs := workers * 2
  let weights ← (List.range jobs).mapM (fun i => queryCooccurrence rd db query (everyNth ids i jobs))
  let order := orderDesc (fun (w : Int × σ × Nat) => w.2.1) (completed weights).flatten
  order.mapM (fun w => pivotCluster rd (visit w.1) (arrange w.1) db query topK w.2.2 w.1)

/-! ## The cluster graph -/

/-- A `networkx.Graph` (undirected): nodes with their attributes, edges with their weight. -/
structure Graph (σ : Type) where
  nodes : List (Int × Nat × String) := []
  edges : List ((Int × Int) × σ) := []

/-- `graph.add_node`: replaces the attributes of an existing node. -/
def Graph.addNode (g : Graph σ) (n : Int × Nat × String) : Graph σ :=
  { g with nodes := g.nodes.filter (fun m => m.1 ≠ n.1) ++ [n] }

/-- `graph.add_edge`: an edge between the same two nodes, in either direction, is replaced.  (New nodes would be created;
here both always exist.) -/
def Graph.addEdge (g : Graph σ) (a b : Int) (w : σ) : Graph σ :=
  { g with edges := g.edges.filter (fun e => ¬ (e.1 = (a, b) ∨ e.1 = (b, a))) ++ [((a, b), w)] }

/-- The text of a value in a label; without the field name a value that is not text makes `", ".join` raise
`TypeError` (index.py:1845-1850). -/
def labelPart (includeField : Bool) (f : Listed) : Except Err String :=
  match includeField, f.value with
  | true, .int i => .ok s!"{f.field}:{i}"
  | true, .text s => .ok s!"{f.field}:{s}"
  | false, .text s => .ok s
  | false, .int _ => .error .typeError

/-- index.py:1845-1852: the node of a cluster. -/
def graphNode (includeField : Bool) (c : Int × Nat × List Listed) : Except Err (Int × Nat × String) := do
  let parts ← c.2.2.mapM (labelPart includeField)
  return (c.1, c.2.1, ", ".intercalate parts)

/-- index.py:1857-1868: the comparisons of each cluster with the ones after it in the list. -/
def graphJobs (rd : Rat → σ) (db : DB) : List Int → Except Err (List (Int × List (Int × σ × Nat)))
  | [] => .ok []
  | c :: cs => do
    let query ← clusterDocs db c
    let ws ← queryCooccurrence rd db query cs
    let rest ← graphJobs rd db cs
    return (c, ws) :: rest

/-- `Index.create_cluster_cooccurrence_graph` (index.py:1828-1876); `completed` is the order in which the jobs complete. -/
def cooccurrenceGraph (rd : Rat → σ) (visitC : List ClusterRow → List ClusterRow) (visit : List Listed → List Listed)
    (completed : List (Int × List (Int × σ × Nat)) → List (Int × List (Int × σ × Nat)))
    (db : DB) (topK : Nat) (includeField : Bool) : Except Err (Graph σ) := do
  let clusters := topClusterFeatures visitC visit db topK
  let nodes ← clusters.mapM (graphNode includeField)
  let results ← graphJobs rd db (clusters.map (·.1))
  let g := nodes.foldl Graph.addNode ({} : Graph σ)
  return (completed results).foldl (fun g r => r.2.foldl (fun g w => g.addEdge r.1 w.1 w.2.1) g) g

end Hyperreal
