import Verif.Model.Store
import Verif.Model.Indexing
import Verif.Model.Dict
import Verif.Model.Utilities
import Mathlib.Data.List.Sort

/-!
# Reading the index and the model: lookups, listings, samples, field intersections (index.py)

A `select` without a total `order by` may return rows in any order.  Functions of rows that are used this way take a
parameter `visit`, the order in which SQLite happens to produce the rows; theorems quantify over it.
-/

namespace Hyperreal

/-- `order by key desc` (index.py:1126, 1229) and Python's `sorted(l, key=key, reverse=True)` (index.py:1185, 2233): a stable
sort by descending key. -/
def orderDesc {α σ : Type} [LinearOrder σ] (key : α → σ) (l : List α) : List α :=
  l.insertionSort (fun a b => key b ≤ key a)

/-- A row listed by `cluster_features` (index.py:1216-1234). -/
structure Listed where
  fid : Nat
  field : String
  value : Val
  docsCount : Nat
  deriving DecidableEq

/-- The join of `feature_cluster` with `inverted_index` for one cluster (index.py:1219-1228). -/
def clusterRows (db : DB) (c : Int) : List Listed :=
  (db.members c).filterMap (fun r => (db.feature? r.fid).map (fun f => ⟨r.fid, f.field, f.value, r.docsCount⟩))

/-- `Index.cluster_features` (index.py:1208-1236); the default of `top_k` is `2**62`. -/
def clusterFeatures (visit : List Listed → List Listed) (db : DB) (c : Int) (topK : Nat := 2 ^ 62) : List Listed :=
  (orderDesc (·.docsCount) (visit (clusterRows db c))).take topK

/-- `Index.cluster_ids` (index.py:1100-1107). -/
def clusterIds (db : DB) : List Int := (db.clusters.map (·.cid)).insertionSort (· ≤ ·)

/-- `Index.top_cluster_features` (index.py:1118-1135). -/
def topClusterFeatures (visitC : List ClusterRow → List ClusterRow) (visit : List Listed → List Listed) (db : DB)
    (topK : Nat) : List (Int × Nat × List Listed) :=
  (orderDesc (·.docsCount) (visitC db.clusters)).map (fun k => (k.cid, k.docsCount, clusterFeatures visit db k.cid topK))

/-- `Index.cluster_docs` (index.py:1268-1274).  An unknown cluster raises `IndexError`.  Simplification: a NULL document set
(never found in a database at rest) gives `None` in Python, on which every use fails with a `TypeError`; that error is
raised here already. -/
def clusterDocs (db : DB) (c : Int) : Except Err Bitmap :=
  match db.clusters.find? (fun r => r.cid = c) with
  | none => .error .indexError
  | some r =>
    match r.docs with
    | some D => .ok D
    | none => .error .typeError

/-- How a feature can be named in a lookup (index.py:46-47, 245). -/
inductive FeatureRef where
  | id (f : Nat)
  | key (field : String) (value : Val)
  | range (start stop : String × Val)

/-- `Index.__getitem__` (index.py:244-268).  A slice falls through both branches, so that `None` is returned. -/
def getItem (db : DB) : FeatureRef → Option Bitmap
  | .id f => some (db.docsOf f)
  | .key field value => some (db.docsOfKey field value)
  | .range _ _ => none

/-- `Index.lookup_feature` (index.py:270-283). -/
def lookupFeature (db : DB) (f : Nat) : Except Err (String × Val) :=
  match db.feature? f with
  | some r => .ok (r.field, r.value)
  | none => .error .keyError

/-- `Index.lookup_feature_id` (index.py:285-298). -/
def lookupFeatureId (db : DB) (field : String) (value : Val) : Except Err Nat :=
  match db.features.find? (fun r => r.field = field ∧ r.value = value) with
  | some r => .ok r.fid
  | none => .error .keyError

/-- The bitmap of a feature where one is needed (index.py:1246, utilities.py:97-102): for a slice `None` was returned, on
which `|=` raises `TypeError`. -/
def bitmapFor (db : DB) (f : FeatureRef) : Except Err Bitmap :=
  match getItem db f with
  | some b => .ok b
  | none => .error .typeError

/-- `Index.union_bitslice` (index.py:1238-1247). -/
def unionBitslice (db : DB) (features : List FeatureRef) : Except Err (Bitmap × List Bitmap) := do
  let bitmaps ← features.mapM (bitmapFor db)
  return computeBitslice bitmaps

/-- `Index.cluster_query` (index.py:1249-1266). -/
def clusterQuery (visit : List Listed → List Listed) (db : DB) (c : Int) : Except Err (Bitmap × List Bitmap) :=
  unionBitslice db ((clusterFeatures visit db c).map (fun r => .id r.fid))

/-- `Index.iter_field_docs` (index.py:579-600): `(value, docs_count, doc_ids)` of the values of a field, `order by value`. -/
def iterFieldDocs (db : DB) (field : String) (minDocs : Nat := 1) : List (Val × Nat × Bitmap) :=
  ((db.features.filter (fun r => r.field = field ∧ minDocs ≤ r.docsCount)).map
    (fun r => (r.value, r.docsCount, r.docs))).insertionSort (fun a b => Val.le a.1 b.1 = true)

/-- index.py:625-627: the counts for one value. -/
def addIntersections (queries : Dict String Bitmap) (docs : Bitmap) (acc : Dict String (List Nat)) : Dict String (List Nat) :=
  queries.foldl (fun acc q => acc.set q.1 ((acc.get? q.1).getD [] ++ [(q.2 ∩ docs).card])) acc

/-- `Index.intersect_queries_with_field` (index.py:602-629): values, totals and the counts of each query. -/
def intersectQueries (db : DB) (queries : Dict String Bitmap) (field : String) :
    List Val × List Nat × Dict String (List Nat) :=
  let rows := iterFieldDocs db field
  (rows.map (·.1), rows.map (·.2.1), rows.foldl (fun acc r => addIntersections queries r.2.2 acc) [])

/-- `random.sample(range(n), k)`: `pick n k` is the outcome; a negative `k`, or one above `n`, raises `ValueError`. -/
def randomSample (pick : Nat → Nat → List Nat) (n : Nat) (k : Int) : Except Err (List Nat) :=
  if k < 0 ∨ (n : Int) < k then .error .valueError else .ok (pick n k.toNat)

/-- index.py:738-741: the members at the drawn indices. -/
def sampleAt (pick : Nat → Nat → List Nat) (bitmap : Bitmap) (k : Int) : Except Err Bitmap := do
  let is ← randomSample pick bitmap.card k
  let xs ← is.mapM (fun (i : Nat) => bitmap.item (i : Int))
  return xs.toFinset

/-- `Index.sample_bitmap` (index.py:724-744); `pick` is what the random generator draws in this call. -/
def sampleBitmap (pick : Nat → Nat → List Nat) (bitmap : Bitmap) (k : Int) : Except Err Bitmap :=
  if k < (bitmap.card : Int) then sampleAt pick bitmap k else .ok bitmap

/-- index.py:852-855: the sample of one cluster from the documents not yet sampled. -/
def sampleOne (pick : Nat → Nat → List Nat) (docs : Bitmap) (perCluster : Int) : Except Err Bitmap :=
  if 0 < perCluster then sampleBitmap pick docs perCluster else .ok docs

/-- The loop of `structured_doc_sample` (index.py:849-857); `pick c` is what is drawn for cluster `c`. -/
def sampleLoop (pick : Int → Nat → Nat → List Nat) (db : DB) (wanted : List Int) (perCluster : Int) :
    List Int → Bitmap → Dict Int Bitmap → Except Err (Bitmap × Dict Int Bitmap)
  | [], done, samples => .ok (done, samples)
  | c :: cs, done, samples =>
    if c ∈ wanted then do
      let docs ← clusterDocs db c
      let sample ← sampleOne (pick c) (docs \ done) perCluster
      sampleLoop pick db wanted perCluster cs (done ∪ sample) (samples.set c sample)
    else sampleLoop pick db wanted perCluster cs done samples

/-- index.py:860-864: the sampled documents of every cluster, where there are any. -/
def sampledClusters (db : DB) (done : Bitmap) (cids : List Int) : Except Err (Dict Int Bitmap) := do
  let docs ← cids.mapM (clusterDocs db)
  return (cids.zip docs).filterMap (fun x => if (done ∩ x.2).card = 0 then none else some (x.1, done ∩ x.2))

/-- `Index.structured_doc_sample` (index.py:821-866).  `wanted = []` stands for `None` as well.  The clusters are visited
in reverse order of `top_cluster_features(top_k=0)`. -/
def structuredDocSample (visitC : List ClusterRow → List ClusterRow) (pick : Int → Nat → Nat → List Nat) (db : DB)
    (perCluster : Int) (wanted : List Int) : Except Err (Dict Int Bitmap × Dict Int Bitmap) := do
  let all := (topClusterFeatures visitC id db 0).map (·.1)
  let r ← sampleLoop pick db (if wanted.isEmpty then clusterIds db else wanted) perCluster all.reverse ∅ []
  let s ← sampledClusters db r.1 all
  return (r.2, s)

/-- `export_clusters` (cli.py:457-474): the rows written, `(cluster_id, feature_id, field, value, docs_count)`, below the
header; 0 means all. -/
def exportClusters (visitC : List ClusterRow → List ClusterRow) (visit : List Listed → List Listed) (db : DB)
    (topK : Nat) : List (Int × Listed) :=
  (topClusterFeatures visitC visit db (if topK = 0 then 2 ^ 62 else topK)).flatMap (fun c => c.2.2.map (fun f => (c.1, f)))

/-! ## Exporting a sample -/

/-- A cell of the exported table (index.py:882-911). -/
inductive Cell where
  | key (k : Val)        -- a document key
  | cluster (c : Int)    -- a cluster id
  | mark                 -- `1`
  | text (s : String)    -- a field of the rendered document
  deriving DecidableEq

/-- A rendered document: what `render_docs_table` yields for it (corpus.py:103-111). -/
abbrev Rendered := Dict String Cell

/-- index.py:907-909: the document of a row with the marks of its clusters. -/
def markClusters (clusters : Dict Int Bitmap) (d : Nat) (doc : Rendered) : Rendered :=
  clusters.foldl (fun doc e => if d ∈ e.2 then doc.set s!"cluster_{e.1}" .mark else doc) doc

/-- index.py:904-911: one row. -/
def sampleRow (clusters : Dict Int Bitmap) (c : Int) (d : Nat) (key : Val) (doc : Rendered) : Rendered :=
  markClusters clusters d ((doc.set "doc_key" (.key key)).set "sampled_cluster" (.cluster c))

/-- index.py:899-911: the rows of one cluster's sample.  `render` is the corpus' `render_docs_table`, given the keys (the
dict of `convert_query_to_keys`, iterated in insertion order). -/
def sampleRows (render : List Val → Except Err (List (Val × Rendered))) (db : DB) (clusters : Dict Int Bitmap)
    (c : Int) (docs : Bitmap) : Except Err (List Rendered) := do
  let keys ← convertQuery db docs.elems
  let rendered ← render (keys.map (·.1))
  return (docs.elems.zip rendered).map (fun x => sampleRow clusters c x.1 x.2.1 x.2.2)

/-- The columns of the exported table (index.py:883-887). -/
def sampleColumns (tableFields : List String) (clusters : Dict Int Bitmap) : List String :=
  ["doc_key", "sampled_cluster"] ++ tableFields ++
    ((clusters.keys).insertionSort (· ≤ ·)).map (fun (c : Int) => s!"cluster_{c}")

/-- `Index.export_document_sample` (index.py:870-911): the table written, a list of rows, each the cell of every column
(`none` is an empty cell).  `csv.DictWriter` writes the columns in the given order and ignores other fields; the text
encoding of cells is not modelled. -/
def exportSample (render : List Val → Except Err (List (Val × Rendered))) (tableFields : List String) (db : DB)
    (samples clusters : Dict Int Bitmap) : Except Err (List (List (Option Cell))) := do
  let rows ← samples.mapM (fun e => sampleRows render db clusters e.1 e.2)
  return rows.flatten.map (fun doc => (sampleColumns tableFields clusters).map (fun f => Dict.get? doc f))

end Hyperreal
