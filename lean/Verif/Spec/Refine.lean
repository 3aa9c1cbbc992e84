import Verif.Spec.Store

/-!
# Specification vocabulary for refinement

Only in terms of the tables.  `S` is the `cluster_ids` argument; an empty one stands for all clusters, as does `None`.
-/

namespace Hyperreal.Spec

/-- Is the cluster selected by the argument? -/
def Selected (S : List Int) (x : Int) : Prop := S = [] ∨ x ∈ S

instance (S : List Int) (x : Int) : Decidable (Selected S x) := inferInstanceAs (Decidable (_ ∨ _))

/-- The clusters a refinement may change: selected and not pinned. -/
def refinable (db : DB) (S : List Int) : List Int :=
  (db.clusters.filter (fun k => Selected S k.cid ∧ k.pinned = false)).map (·.cid)

/-- The selected clusters that are pinned. -/
def pinnedSelected (db : DB) (S : List Int) : List Int :=
  (db.clusters.filter (fun k => Selected S k.cid ∧ k.pinned = true)).map (·.cid)

/-- The refinable clusters without a pinned feature: the only ones that may be dissolved. -/
def dissolvable (db : DB) (S : List Int) : List Int :=
  (refinable db S).filter (fun x => ∀ r ∈ db.fc, r.cid = x → r.pinned = false)

/-- The refinable features: not pinned, in a refinable cluster. -/
def Movable (db : DB) (S : List Int) (f : Nat) : Prop :=
  featurePin db f = some false ∧ ∃ x ∈ refinable db S, assign db f = some x

/-- Every refined cluster is sure to be tested: there is at most one batch of group tests; or there are more than half as many as
clusters (then there is no group testing); or every batch is kept, and no cluster can run out of features. -/
def AllTested (db : DB) (S : List Int) (batches topK minFeatures : Nat) : Prop :=
  batches ≤ 1 ∨ (refinable db S).length < 2 * batches ∨
  (batches ≤ topK ∧ 1 ≤ minFeatures ∧ ∀ c ∈ refinable db S, minFeatures ≤ db.fc.countP (fun r => r.cid = c))

/-- There is no group testing: there are no batches, or always more than half as many as clusters. -/
def NoGroups (db : DB) (S : List Int) (target : Option Int) (batches : Nat) : Prop :=
  batches = 0 ∨ ((refinable db S).length < 2 * batches ∧ ∀ t, target = some t → t - (pinnedSelected db S).length < 2 * batches)

end Hyperreal.Spec
