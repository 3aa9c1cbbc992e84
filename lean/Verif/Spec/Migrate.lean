import Verif.Spec.Store
import Verif.Model.Migrate

/-!
# Specification vocabulary for opening an index file

What a current database and a genuine older one look like, and what an upgrade has to keep.
-/

namespace Hyperreal.Spec
open Migrate

/-- The tables of an index of the current version, with their columns in order. -/
def currentTables : List (String × List String) := [
  ("settings", ["key", "value"]),
  ("doc_key", ["doc_id", "doc_key"]),
  ("inverted_index", ["feature_id", "field", "value", "docs_count", "doc_ids"]),
  ("position_doc_map", ["field", "first_doc_id", "last_doc_id", "docs_count", "doc_ids", "doc_boundaries"]),
  ("position_index", ["feature_id", "first_doc_id", "position_count", "positions"]),
  ("field_summary", ["field", "distinct_values", "min_value", "max_value", "position_count"]),
  ("cluster", ["cluster_id", "feature_count", "docs_count", "weight", "doc_ids", "pinned"]),
  ("feature_cluster", ["feature_id", "cluster_id", "docs_count", "pinned"]),
  ("changed_cluster", ["cluster_id"])]

/-- The tables of which earlier versions had fewer columns: what version `v` had. -/
def olderTables (v : Int) : List (String × List String) := [
  ("cluster", ["cluster_id", "feature_count"] ++ (if 5 ≤ v then ["docs_count", "weight", "doc_ids"] else []) ++
    (if 8 ≤ v then ["pinned"] else [])),
  ("feature_cluster", ["feature_id", "cluster_id", "docs_count"] ++ if 8 ≤ v then ["pinned"] else []),
  ("field_summary", ["field", "distinct_values", "min_value", "max_value"])]

/-- The other objects of the current schema. -/
def currentObjects : List (Kind × String) := [
  (.index, "docs_counts"), (.index, "field_docs_counts"), (.index, "cluster_features"),
  (.trigger, "insert_feature_checks"), (.trigger, "update_feature_checks"), (.trigger, "delete_feature_checks")]

/-- The objects of earlier versions that are gone. -/
def obsoleteObjects : List (Kind × String) := [
  (.table, "skipgram_count"), (.trigger, "mark_cluster_changed"), (.trigger, "ensure_cluster"),
  (.trigger, "delete_feature_cluster"), (.trigger, "ensure_cluster_update"), (.trigger, "update_cluster_feature_counts")]

/-- The file has the current version and the current schema. -/
structure Current (f : File) : Prop where
  version : f.version = 10
  applicationId : f.applicationId = 715973853
  tables : ∀ t ∈ currentTables, (Kind.table, t.1) ∈ f.objects ∧ f.columns t.1 = t.2
  objects : ∀ o ∈ currentObjects, o ∈ f.objects
  obsolete : ∀ o ∈ obsoleteObjects, o ∉ f.objects
  window : ("position_window_size", 0) ∈ f.settings

/-- The tables of the file are those of an index of version `v` (4 to 9).  Tables that came later may be missing (and then
nothing is stored in them). -/
structure SchemaOf (v : Int) (f : File) : Prop where
  version : f.version = v
  range : 4 ≤ v ∧ v ≤ 9
  older : ∀ t ∈ olderTables v, (Kind.table, t.1) ∈ f.objects ∧ f.columns t.1 = t.2
  others : ∀ t ∈ currentTables, t.1 ∉ (olderTables v).map (·.1) → (Kind.table, t.1) ∈ f.objects → f.columns t.1 = t.2
  noKeys : (Kind.table, "doc_key") ∉ f.objects → f.data.docKeys = []
  noFeatures : (Kind.table, "inverted_index") ∉ f.objects → f.data.features = []
  noPosDocMap : (Kind.table, "position_doc_map") ∉ f.objects → f.data.posDocMap = []
  noPosIndex : (Kind.table, "position_index") ∉ f.objects → f.data.posIndex = []
  noChanged : (Kind.table, "changed_cluster") ∉ f.objects → f.data.changed = []

/-- A genuine index of version `v`, at rest or left in the middle of an update: the summaries of the clusters that are not
marked as pending are exact.  Version 4 did not store cluster summaries; its files have to be at rest
(`upgrade_four_pending_refused`). -/
structure Genuine (v : Int) (f : File) : Prop extends SchemaOf v f where
  wellformed : Wellformed f.data
  nothingPending : v = 4 → f.data.changed = []
  summaries : 5 ≤ v → ∀ k ∈ f.data.clusters, k.cid ∉ f.data.changed → Exact f.data k
  pendingKnown : 5 ≤ v → ∀ c ∈ f.data.changed, ∃ k ∈ f.data.clusters, k.cid = c

/-- The field summary is that of the stored features: one row for each field, counting its values, with the smallest and
the largest, and the number of stored positions. -/
structure FieldsSummarised (d : DB) : Prop where
  once : (d.fieldSummary.map (·.field)).Nodup
  fields : ∀ x, (∃ row ∈ d.fieldSummary, row.field = x) ↔ ∃ r ∈ d.features, r.field = x
  distinct : ∀ row ∈ d.fieldSummary, row.distinct = d.features.countP (fun r => r.field = row.field)
  least : ∀ row ∈ d.fieldSummary, (∃ r ∈ d.features, r.field = row.field ∧ r.value = row.minValue) ∧
    ∀ r ∈ d.features, r.field = row.field → Val.le row.minValue r.value = true
  largest : ∀ row ∈ d.fieldSummary, (∃ r ∈ d.features, r.field = row.field ∧ r.value = row.maxValue) ∧
    ∀ r ∈ d.features, r.field = row.field → Val.le r.value row.maxValue = true
  positions : ∀ row ∈ d.fieldSummary, row.positionCount =
    ((d.posIndex.filter (fun p => ∃ r ∈ d.features, r.fid = p.fid ∧ r.field = row.field)).map (·.count)).sum

/-- An upgrade from version `v` keeps the documents, the features, the positions and the model; before version 8 there
were no pins, so nothing is pinned; clusters without features do not survive. -/
structure Keeps (v : Int) (d d' : DB) : Prop where
  docKeys : d'.docKeys = d.docKeys
  features : d'.features = d.features
  posDocMap : d'.posDocMap = d.posDocMap
  posIndex : d'.posIndex = d.posIndex
  model : d'.fc.map (fun r => (r.fid, r.cid, r.docsCount)) = d.fc.map (fun r => (r.fid, r.cid, r.docsCount))
  pinnedFeatures : ∀ f, featurePin d' f = if 8 ≤ v then featurePin d f else (featurePin d f).map (fun _ => false)
  clusters : ∀ c, hasCluster d' c ↔ ∃ r ∈ d.fc, r.cid = c
  pinnedClusters : ∀ k' ∈ d'.clusters, if 8 ≤ v then clusterPin d k'.cid = some k'.pinned else k'.pinned = false

end Hyperreal.Spec
