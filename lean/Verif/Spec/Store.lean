import Verif.Model.Db

/-!
# Specification vocabulary for the clustering model

Nothing here refers to the modelled methods, only to the tables.
-/

namespace Hyperreal.Spec

/-- The cluster a feature is assigned to. -/
def assign (db : DB) (f : Nat) : Option Int := (db.fc.find? (fun r => r.fid = f)).map (·.cid)

/-- The pin of a feature in the model. -/
def featurePin (db : DB) (f : Nat) : Option Bool := (db.fc.find? (fun r => r.fid = f)).map (·.pinned)

/-- The pin of a cluster. -/
def clusterPin (db : DB) (c : Int) : Option Bool := (db.clusters.find? (fun r => r.cid = c)).map (·.pinned)

/-- Does the cluster exist? -/
def hasCluster (db : DB) (c : Int) : Prop := ∃ k ∈ db.clusters, k.cid = c

/-- The stored summary of a cluster is exact: it has features; the stored feature count, document set, document count and
weight are those of its features. -/
structure Exact (db : DB) (k : ClusterRow) : Prop where
  nonempty : ∃ r ∈ db.fc, r.cid = k.cid
  featureCount : k.featureCount = db.fc.countP (fun r => r.cid = k.cid)
  docs : ∃ D, k.docs = some D ∧ k.docsCount = D.card ∧
    ∀ d, d ∈ D ↔ ∃ r ∈ db.fc, r.cid = k.cid ∧ d ∈ db.docsOf r.fid
  weight : k.weight = ((db.fc.filter (fun r => r.cid = k.cid)).map (fun r => (db.docsOf r.fid).card)).sum

/-- Everything but the cluster summaries: keys are unique and references resolve. -/
structure Wellformed (db : DB) : Prop where
  featureIds : (db.features.map (·.fid)).Nodup
  featureKeys : (db.features.map (fun r => (r.field, r.value))).Nodup
  counts : ∀ f ∈ db.features, f.docsCount = f.docs.card
  oneCluster : (db.fc.map (·.fid)).Nodup
  clusterIds : (db.clusters.map (·.cid)).Nodup
  knownFeature : ∀ r ∈ db.fc, ∃ f ∈ db.features, f.fid = r.fid ∧ f.docsCount = r.docsCount
  knownCluster : ∀ r ∈ db.fc, ∃ k ∈ db.clusters, k.cid = r.cid

/-- A database at rest: well-formed, every cluster summary exact, nothing pending. -/
structure Settled (db : DB) : Prop extends Wellformed db where
  summaries : ∀ k ∈ db.clusters, Exact db k
  nothingPending : db.changed = []

/-- A database possibly in the middle of a change: the summaries of the clusters not marked as pending are exact. -/
structure Pending (db : DB) : Prop extends Wellformed db where
  summaries : ∀ k ∈ db.clusters, k.cid ∉ db.changed → Exact db k
  pendingKnown : ∀ c ∈ db.changed, ∃ k ∈ db.clusters, k.cid = c

end Hyperreal.Spec
